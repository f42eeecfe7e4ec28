import Verif.Lemmas.QuantizeRange
/-
Minimum and maximum of IEEE values, of arrays, and the bounding box of vertices.
-/

set_option exponentiation.threshold 2000

namespace Tmf.Ieee
open Spec

variable {f : Fmt}

theorem lt_value {x y : Val f} (hx : isFinite x = true) (hy : isFinite y = true) :
    lt x y = true ↔ valueOf x < valueOf y := by
  obtain ⟨s, n, hn, rfl⟩ := finite_cases hx
  obtain ⟨t, m, hm, rfl⟩ := finite_cases hy
  simp only [lt, decide_eq_true_eq, valueOf]
  rw [div_lt_div_iff_of_pos_right (units_pos f)]
  exact_mod_cast Iff.rfl

theorem min_cases {x y : Val f} (hx : isFinite x = true) (hy : isFinite y = true) :
    (Ieee.min x y = x ∧ valueOf x ≤ valueOf y) ∨ (Ieee.min x y = y ∧ valueOf y ≤ valueOf x) := by
  have hl := lt_value hy hx
  obtain ⟨s, n, hn, rfl⟩ := finite_cases hx
  obtain ⟨t, m, hm, rfl⟩ := finite_cases hy
  simp only [Ieee.min]
  split
  · rename_i h
    exact .inr ⟨rfl, (hl.mp h).le⟩
  · rename_i h
    exact .inl ⟨rfl, not_lt.mp (fun h' => h (hl.mpr h'))⟩

theorem max_cases {x y : Val f} (hx : isFinite x = true) (hy : isFinite y = true) :
    (Ieee.max x y = x ∧ valueOf y ≤ valueOf x) ∨ (Ieee.max x y = y ∧ valueOf x ≤ valueOf y) := by
  have hl := lt_value hx hy
  obtain ⟨s, n, hn, rfl⟩ := finite_cases hx
  obtain ⟨t, m, hm, rfl⟩ := finite_cases hy
  simp only [Ieee.max]
  split
  · rename_i h
    exact .inr ⟨rfl, (hl.mp h).le⟩
  · rename_i h
    exact .inl ⟨rfl, not_lt.mp (fun h' => h (hl.mpr h'))⟩

theorem min_value {x y : Val f} (hx : isFinite x = true) (hy : isFinite y = true) :
    isFinite (Ieee.min x y) = true ∧ valueOf (Ieee.min x y) = Min.min (valueOf x) (valueOf y) := by
  rcases min_cases hx hy with ⟨h, h'⟩ | ⟨h, h'⟩
  · rw [h, min_eq_left h']; exact ⟨hx, rfl⟩
  · rw [h, min_eq_right h']; exact ⟨hy, rfl⟩

theorem max_value {x y : Val f} (hx : isFinite x = true) (hy : isFinite y = true) :
    isFinite (Ieee.max x y) = true ∧ valueOf (Ieee.max x y) = Max.max (valueOf x) (valueOf y) := by
  rcases max_cases hx hy with ⟨h, h'⟩ | ⟨h, h'⟩
  · rw [h, max_eq_left h']; exact ⟨hx, rfl⟩
  · rw [h, max_eq_right h']; exact ⟨hy, rfl⟩

/-- The minimum of an array and a start value. -/
theorem foldl_min_value {l : List (Val f)} (hl : ∀ x ∈ l, isFinite x = true) {a : Val f} (ha : isFinite a = true) :
    isFinite (l.foldl Ieee.min a) = true ∧ (l.foldl Ieee.min a = a ∨ l.foldl Ieee.min a ∈ l) ∧
      valueOf (l.foldl Ieee.min a) ≤ valueOf a ∧ ∀ x ∈ l, valueOf (l.foldl Ieee.min a) ≤ valueOf x := by
  induction l generalizing a with
  | nil => exact ⟨ha, .inl rfl, le_refl _, by simp⟩
  | cons y l ih =>
    have hy := hl y List.mem_cons_self
    have hm := min_value ha hy
    obtain ⟨h1, h2, h3, h4⟩ := ih (fun x hx => hl x (List.mem_cons_of_mem _ hx)) hm.1
    rw [hm.2] at h3
    simp only [List.foldl_cons]
    refine ⟨h1, ?_, le_trans h3 (min_le_left _ _), ?_⟩
    · rcases h2 with h2 | h2
      · rw [h2]
        rcases min_cases ha hy with ⟨h, _⟩ | ⟨h, _⟩
        · exact .inl h
        · exact .inr (by rw [h]; exact List.mem_cons_self)
      · exact .inr (List.mem_cons_of_mem _ h2)
    · intro x hx
      rcases List.mem_cons.mp hx with rfl | hx
      · exact le_trans h3 (min_le_right _ _)
      · exact h4 x hx

theorem foldl_max_value {l : List (Val f)} (hl : ∀ x ∈ l, isFinite x = true) {a : Val f} (ha : isFinite a = true) :
    isFinite (l.foldl Ieee.max a) = true ∧ (l.foldl Ieee.max a = a ∨ l.foldl Ieee.max a ∈ l) ∧
      valueOf a ≤ valueOf (l.foldl Ieee.max a) ∧ ∀ x ∈ l, valueOf x ≤ valueOf (l.foldl Ieee.max a) := by
  induction l generalizing a with
  | nil => exact ⟨ha, .inl rfl, le_refl _, by simp⟩
  | cons y l ih =>
    have hy := hl y List.mem_cons_self
    have hm := max_value ha hy
    obtain ⟨h1, h2, h3, h4⟩ := ih (fun x hx => hl x (List.mem_cons_of_mem _ hx)) hm.1
    rw [hm.2] at h3
    simp only [List.foldl_cons]
    refine ⟨h1, ?_, le_trans (le_max_left _ _) h3, ?_⟩
    · rcases h2 with h2 | h2
      · rw [h2]
        rcases max_cases ha hy with ⟨h, _⟩ | ⟨h, _⟩
        · exact .inl h
        · exact .inr (by rw [h]; exact List.mem_cons_self)
      · exact .inr (List.mem_cons_of_mem _ h2)
    · intro x hx
      rcases List.mem_cons.mp hx with rfl | hx
      · exact le_trans (le_max_right _ _) h3
      · exact h4 x hx

/-! ### Float arrays -/

theorem pack_max : (pack false b32.max : Val b32) = .fin false b32.max (by decide +kernel) := by
  rw [pack, dif_pos (by decide +kernel)]
theorem pack_min : (pack true b32.max : Val b32) = .fin true b32.max (by decide +kernel) := by
  rw [pack, dif_pos (by decide +kernel)]

theorem valueOf_pack_max : isFinite (pack false b32.max : Val b32) = true ∧ valueOf (pack false b32.max : Val b32) = maxV b32 := by
  rw [pack_max]
  refine ⟨rfl, ?_⟩
  rw [valueOf_fin]; simp [sgn, maxV]

theorem valueOf_pack_min : isFinite (pack true b32.max : Val b32) = true ∧ valueOf (pack true b32.max : Val b32) = -maxV b32 := by
  rw [pack_min]
  refine ⟨rfl, ?_⟩
  rw [valueOf_fin]; simp [sgn, maxV]

/-- Minimum and maximum of an array of moderate numbers. -/
def rangeOf (l : List (Val b32)) : Val b32 × Val b32 := (l.foldl Ieee.min (pack false b32.max), l.foldl Ieee.max (pack true b32.max))

theorem floatRange_ops (lib : Libm) (l : List (Val b32)) : floatRange (ops lib) l = rangeOf l := rfl

theorem rangeOf_value {l : List (Val b32)} (hne : l ≠ []) (hl : ∀ x ∈ l, isFinite x = true ∧ |valueOf x| < maxV b32) :
    (rangeOf l).1 ∈ l ∧ (rangeOf l).2 ∈ l ∧ ∀ x ∈ l, valueOf (rangeOf l).1 ≤ valueOf x ∧ valueOf x ≤ valueOf (rangeOf l).2 := by
  obtain ⟨x, hx⟩ := List.exists_mem_of_ne_nil l hne
  have hmx := valueOf_pack_max
  have hmn := valueOf_pack_min
  obtain ⟨_, a2, _, a4⟩ := foldl_min_value (fun x hx => (hl x hx).1) hmx.1
  obtain ⟨_, b2, _, b4⟩ := foldl_max_value (fun x hx => (hl x hx).1) hmn.1
  have hxb := abs_lt.mp (hl x hx).2
  refine ⟨a2.resolve_left (fun h => ?_), b2.resolve_left (fun h => ?_), fun y hy => ⟨a4 y hy, b4 y hy⟩⟩
  · have := a4 x hx
    rw [h, hmx.2] at this
    linarith
  · have := b4 x hx
    rw [h, hmn.2] at this
    linarith

end Tmf.Ieee
