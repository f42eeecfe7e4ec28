import Verif.Spec.Endless
import Verif.Lemmas.Degenerate
import Verif.Lemmas.Export
/-
C111: vertices with an infinite coordinate.
-/

set_option exponentiation.threshold 2000

namespace Tmf.Ieee
open Spec

/-! ### The shortest edge has no sign -/

theorem mul_self_unsigned (x : Val b32) : isSignNegative (mul x x) = false := by
  cases x with
  | nan => rfl
  | inf s => cases s <;> rfl
  | fin s n h => exact mul_self_sign rfl

theorem add_unsigned {x y : Val b32} (sx : isSignNegative x = false) (sy : isSignNegative y = false) : isSignNegative (add x y) = false := by
  cases x with
  | nan => cases y <;> rfl
  | inf s =>
    cases (sx : s = false)
    cases y with
    | nan => rfl
    | inf t => cases (sy : t = false); rfl
    | fin t m hm => rfl
  | fin s n hn =>
    cases y with
    | nan => rfl
    | inf t => cases (sy : t = false); rfl
    | fin t m hm => exact add_sign rfl rfl sx sy

theorem sqrt_unsigned {x : Val b32} (sx : isSignNegative x = false) : isSignNegative (sqrt x) = false := by
  cases x with
  | nan => rfl
  | inf s => cases (sx : s = false); rfl
  | fin s n hn =>
    cases (sx : s = false)
    simp only [sqrt, Bool.false_eq_true, if_false]
    split
    · rfl
    · exact rounded_sign _ _ _

theorem min_unsigned {x y : Val b32} (sx : isSignNegative x = false) (sy : isSignNegative y = false) :
    isSignNegative (Ieee.min x y) = false := by
  cases x with
  | nan => cases y <;> exact sy
  | inf s =>
    cases y with
    | nan => exact sx
    | inf t => simp only [Ieee.min]; split <;> assumption
    | fin t m hm => simp only [Ieee.min]; split <;> assumption
  | fin s n hn =>
    cases y with
    | nan => exact sx
    | inf t => simp only [Ieee.min]; split <;> assumption
    | fin t m hm => simp only [Ieee.min]; split <;> assumption

theorem distance_unsigned (lib : Libm) (a c : Vec3 (Val b32)) : isSignNegative (distance (ops lib) a c) = false :=
  sqrt_unsigned (add_unsigned (add_unsigned (mul_self_unsigned _) (mul_self_unsigned _)) (mul_self_unsigned _))

theorem edgeLoop_unsigned (lib : Libm) {vs : List (Vec3 (Val b32))} : ∀ (t : List Nat) (acc : Val b32) {e : Val b32},
    isSignNegative acc = false → shortestEdgeLoop (ops lib) vs t acc = .ok e → isSignNegative e = false
  | [], acc, e, ha, h => by cases h; exact ha
  | [_], acc, e, ha, h => by cases h; exact ha
  | [_, _], acc, e, ha, h => by cases h; exact ha
  | i :: j :: k :: rest, acc, e, ha, h => by
    rw [shortestEdgeLoop] at h
    obtain ⟨v0, -, h⟩ := Outcome.bind_eq_ok.mp h
    obtain ⟨v1, -, h⟩ := Outcome.bind_eq_ok.mp h
    obtain ⟨v2, -, h⟩ := Outcome.bind_eq_ok.mp h
    exact edgeLoop_unsigned lib rest _ (min_unsigned ha (min_unsigned (distance_unsigned lib _ _)
      (min_unsigned (distance_unsigned lib _ _) (distance_unsigned lib _ _)))) h

/-- Whatever the vertices, the shortest edge is a finite number without a sign, if there is one. -/
theorem edge_plain (lib : Libm) {t : Option (List Nat)} {vs : Option (List (Vec3 (Val b32)))} {e : Val b32}
    (h : calcShortestEdge (ops lib) t vs = .ok e) : ∃ n hn, e = .fin false n hn := by
  have done : ∀ {x : Val b32}, isSignNegative x = false → assertFinite (ops lib) x = .ok e → ∃ n hn, e = .fin false n hn := by
    intro x hx h
    unfold assertFinite at h
    split at h
    · rename_i hf
      cases h
      obtain ⟨s, n, hn, rfl⟩ := finite_cases hf
      cases (hx : s = false)
      exact ⟨n, hn, rfl⟩
    · cases h
  have hlit : isSignNegative (lit 1 1 : Val b32) = false := rounded_sign _ _ _
  have hfin : isFinite (lit 1 1 : Val b32) = true := by decide +kernel
  have hten : ∀ {x : Val b32}, isFinite x = true → isSignNegative x = false → ∃ n hn, x = .fin false n hn := by
    intro x hx hs
    obtain ⟨s, n, hn, rfl⟩ := finite_cases hx
    cases (hs : s = false)
    exact ⟨n, hn, rfl⟩
  cases t with
  | none => exact done hlit h
  | some t =>
    cases t with
    | nil => cases h; exact hten hfin hlit
    | cons i t =>
      cases vs with
      | none => cases h; exact hten hfin hlit
      | some vs =>
        obtain ⟨x, hx, h⟩ := Outcome.bind_eq_ok.mp h
        exact done (edgeLoop_unsigned lib _ _ rfl hx) h

/-! ### Boxes without end -/

theorem min_low (x : Val b32) : Ieee.min (.inf true) x = .inf true := by
  cases x with
  | nan => rfl
  | inf s => cases s <;> rfl
  | fin s n h => rfl

theorem min_low' (x : Val b32) : Ieee.min x (.inf true) = .inf true := by
  cases x with
  | nan => rfl
  | inf s => cases s <;> rfl
  | fin s n h => rfl

theorem max_high (x : Val b32) : Ieee.max (.inf false) x = .inf false := by
  cases x with
  | nan => rfl
  | inf s => cases s <;> rfl
  | fin s n h => rfl

theorem max_high' (x : Val b32) : Ieee.max x (.inf false) = .inf false := by
  cases x with
  | nan => rfl
  | inf s => cases s <;> rfl
  | fin s n h => rfl

/-- The greater of anything and a finite number is not below all numbers. -/
theorem max_finite (x : Val b32) {y : Val b32} (h : isFinite y = true) :
    Ieee.max x y = .inf false ∨ isFinite (Ieee.max x y) = true := by
  obtain ⟨t, m, hm, rfl⟩ := finite_cases h
  cases x with
  | nan => exact .inr rfl
  | inf s => cases s <;> simp [Ieee.max, lt, isFinite]
  | fin s n hn => right; simp only [Ieee.max]; split <;> rfl

theorem min_finite (x : Val b32) {y : Val b32} (h : isFinite y = true) :
    Ieee.min x y = .inf true ∨ isFinite (Ieee.min x y) = true := by
  obtain ⟨t, m, hm, rfl⟩ := finite_cases h
  cases x with
  | nan => exact .inr rfl
  | inf s => cases s <;> simp [Ieee.min, lt, isFinite]
  | fin s n hn => right; simp only [Ieee.min]; split <;> rfl

theorem size_low {hi : Val b32} (h : hi = .inf false ∨ isFinite hi = true) : sizeOf (.inf true) hi = .inf false := by
  rcases h with rfl | h
  · rfl
  · obtain ⟨t, m, hm, rfl⟩ := finite_cases h
    exact max_high _

theorem size_high {lo : Val b32} (h : lo = .inf true ∨ isFinite lo = true) : sizeOf lo (.inf false) = .inf false := by
  rcases h with rfl | h
  · rfl
  · obtain ⟨t, m, hm, rfl⟩ := finite_cases h
    exact max_high _

/-- An axis without end asks for 255 bits. -/
theorem width_endless {lib : Libm} (hlog : AccurateLog2 lib) {pr : Val b32} {n : Nat} {hn : b32.Rep n} (hp : isFinite pr = true) (p0 : 0 < valueOf pr) :
    bitsFor lib (div (lit 1 0) (mul (div (.fin false n hn) (.inf false)) pr)) = 255 := by
  have e : div (.fin false n hn : Val b32) (.inf false) = div (.fin false 0 (by decide +kernel)) (.fin false (2 ^ 149) (by decide +kernel)) := by
    show (rounded false 0 1 : Val b32) = _
    decide +kernel
  rw [e]
  exact width_zero hlog rfl (by rw [valueOf_fin, show b32.scale = 149 from rfl]; norm_num [sgn]) hp p0

/-- What holds from some vertex on. -/
theorem fold_reaches {P : VBox (Val b32) → Prop} {Q : Vec3 (Val b32) → Prop} (step : ∀ s v, P s → P (boxStep s v))
    (hit : ∀ s v, Q v → P (boxStep s v)) : ∀ (l : List (Vec3 (Val b32))) (s : VBox (Val b32)), (P s ∨ ∃ v ∈ l, Q v) →
      P (l.foldl boxStep s)
  | [], s, h => by
    rcases h with h | ⟨v, hv, -⟩
    · exact h
    · cases hv
  | w :: l, s, h => by
    refine fold_reaches step hit l _ ?_
    rcases h with h | ⟨v, hv, hq⟩
    · exact .inl (step _ _ h)
    · rcases List.mem_cons.mp hv with rfl | hv
      · exact .inl (hit _ _ hq)
      · exact .inr ⟨v, hv, hq⟩

/-- What the last vertex brings about. -/
theorem fold_last {P : VBox (Val b32) → Prop} {l : List (Vec3 (Val b32))} (hne : l ≠ []) (hit : ∀ s, ∀ v ∈ l, P (boxStep s v))
    (s : VBox (Val b32)) : P (l.foldl boxStep s) := by
  obtain ⟨init, last, rfl⟩ : ∃ init last, l = init ++ [last] := ⟨_, _, (List.dropLast_append_getLast hne).symm⟩
  rw [List.foldl_append]
  exact hit _ _ (by simp)

/-- The box of a piece with such an infinite coordinate has no end on the first or the second axis. -/
theorem box_endless {l : List (Vec3 (Val b32))} {s : VBox (Val b32)} {lib : Libm} (h : Endless l) (hs : vertexBox (ops lib) l = .ok s) :
    sizeOf s.minX s.maxX = .inf false ∨ sizeOf s.minY s.maxY = .inf false := by
  cases l with
  | nil => cases hs
  | cons v0 l =>
    have hs : (v0 :: l).foldl boxStep ⟨v0.1, v0.1, v0.2.1, v0.2.1, v0.2.2, v0.2.2⟩ = s := Outcome.ok.inj hs
    cases h with
    | above v hv h hz =>
      right
      have h1 : s.maxY = .inf false := by
        rw [← hs]
        refine fold_reaches (P := fun s => s.maxY = .inf false) (Q := fun v => v.1 = .inf false ∨ v.2.1 = .inf false) ?_ ?_ _ _ (.inr ⟨v, hv, h⟩)
        · intro s v h
          show Ieee.max (Ieee.max s.maxY v.2.1) v.1 = _
          rw [h, max_high, max_high]
        · rintro s v (h | h)
          · show Ieee.max (Ieee.max s.maxY v.2.1) v.1 = _
            rw [h, max_high']
          · show Ieee.max (Ieee.max s.maxY v.2.1) v.1 = _
            rw [h, max_high', max_high]
      have h2 : s.minY = .inf true ∨ isFinite s.minY = true := by
        rw [← hs]
        exact fold_last (P := fun s => s.minY = .inf true ∨ isFinite s.minY = true) (by simp) (fun s v hv => min_finite _ (hz v hv)) _
      rw [h1]
      exact size_high h2
    | left v hv h hy =>
      left
      have h1 : s.minX = .inf true := by
        rw [← hs]
        refine fold_reaches (P := fun s => s.minX = .inf true) (Q := fun v => v.1 = .inf true) ?_ ?_ _ _ (.inr ⟨v, hv, h⟩)
        · intro s v h
          show Ieee.min s.minX v.1 = _
          rw [h, min_low]
        · intro s v h
          show Ieee.min s.minX v.1 = _
          rw [h, min_low']
      have h2 : s.maxX = .inf false ∨ isFinite s.maxX = true := by
        rw [← hs]
        exact fold_last (P := fun s => s.maxX = .inf false ∨ isFinite s.maxX = true) (by simp) (fun s v hv => max_finite _ (hy v hv)) _
      rw [h1]
      exact size_low h2
    | behind v hv h hx =>
      right
      have h1 : s.minY = .inf true ∧ s.minZ = .inf true := by
        rw [← hs]
        refine fold_reaches (P := fun s => s.minY = .inf true ∧ s.minZ = .inf true) (Q := fun v => v.2.2 = .inf true) ?_ ?_ _ _
          (.inr ⟨v, hv, h⟩)
        · rintro s v ⟨-, h⟩
          show Ieee.min s.minZ v.2.2 = _ ∧ Ieee.min (Ieee.min s.minZ v.2.2) v.2.1 = _
          rw [h, min_low, min_low]
          exact ⟨rfl, rfl⟩
        · intro s v h
          show Ieee.min s.minZ v.2.2 = _ ∧ Ieee.min (Ieee.min s.minZ v.2.2) v.2.1 = _
          rw [h, min_low', min_low]
          exact ⟨rfl, rfl⟩
      have h2 : s.maxY = .inf false ∨ isFinite s.maxY = true := by
        rw [← hs]
        exact fold_last (P := fun s => s.maxY = .inf false ∨ isFinite s.maxY = true) (by simp) (fun s v hv => max_finite _ (hx v hv)) _
      rw [h1.1]
      exact size_low h2

/-- If a vertex before the last has `y = -∞`, the box has no end on the second axis. -/
theorem box_sunk {lib : Libm} {l : List (Vec3 (Val b32))} {s : VBox (Val b32)} (h : SunkBefore l) (hs : vertexBox (ops lib) l = .ok s) :
    sizeOf s.minY s.maxY = .inf false := by
  cases l with
  | nil => cases hs
  | cons v0 l =>
    have hs : (v0 :: l).foldl boxStep ⟨v0.1, v0.1, v0.2.1, v0.2.1, v0.2.2, v0.2.2⟩ = s := Outcome.ok.inj hs
    have h2 : s.maxY = .inf false ∨ isFinite s.maxY = true := by
      rw [← hs]
      exact fold_last (P := fun s => s.maxY = .inf false ∨ isFinite s.maxY = true) (by simp) (fun s v hv => max_finite _ (h.plain v hv)) _
    have h1 : s.minY = .inf true := by
      rw [← hs, ← List.dropLast_append_getLast (l := v0 :: l) (by simp), List.foldl_append]
      have : ((v0 :: l).dropLast.foldl boxStep ⟨v0.1, v0.1, v0.2.1, v0.2.1, v0.2.2, v0.2.2⟩).minZ = .inf true := by
        refine fold_reaches (P := fun s => s.minZ = .inf true) (Q := fun v => v.2.1 = .inf true) ?_ ?_ _ _ (.inr h.sunk)
        · intro s v h
          show Ieee.min (Ieee.min s.minZ v.2.2) v.2.1 = _
          rw [h, min_low, min_low]
        · intro s v h
          show Ieee.min (Ieee.min s.minZ v.2.2) v.2.1 = _
          rw [h, min_low']
      show Ieee.min (List.foldl boxStep _ _).minZ _ = _
      rw [this, min_low]
    rw [h1]
    exact size_low h2

/-! ### The third axis -/

theorem part_endless (y m : Val b32) (hm : ∃ k hk, k ≠ 0 ∧ m = .fin false k hk) : toU64 (mul (div y (.inf false)) m) = 0 := by
  obtain ⟨k, hk, k0, rfl⟩ := hm
  cases y with
  | nan => rfl
  | inf t => rfl
  | fin t n hn =>
    have hz : (rounded (t != false) 0 1 : Val b32) = .fin t 0 (by decide +kernel) := by cases t <;> decide +kernel
    have h1 : div (.fin t n hn : Val b32) (.inf false) = .fin t 0 (by decide +kernel) := hz
    rw [h1]
    have hr : b32.round 0 (2 ^ b32.scale) = 0 := by decide +kernel
    have h2 : mul (.fin t 0 (by decide +kernel) : Val b32) (.fin false k hk) = pack (t != false) (b32.round (0 * k) (2 ^ b32.scale)) := rfl
    rw [h2, Nat.zero_mul, hr, pack, dif_pos (by decide +kernel)]
    simp [toU64]

theorem mask_plain {p : Nat} (hp1 : 1 ≤ p) (hp : p ≤ 31) : ∃ k hk, k ≠ 0 ∧ (ofNat (2 ^ p - 1) : Val b32) = .fin false k hk := by
  have hm : isFinite (ofNat (2 ^ p - 1) : Val b32) = true ∧ isSignNegative (ofNat (2 ^ p - 1) : Val b32) = false ∧
      valueOf (ofNat (2 ^ p - 1) : Val b32) ≠ 0 := by
    interval_cases p <;> decide +kernel
  obtain ⟨h1, h2, h3⟩ := hm
  obtain ⟨s, n, hn, e⟩ := finite_cases h1
  rw [e] at h2 h3 ⊢
  cases (h2 : s = false)
  refine ⟨n, hn, ?_, rfl⟩
  rintro rfl
  exact h3 (by rw [valueOf_fin]; simp)

/-- On an axis without end, every coordinate is lost. -/
theorem coord_lost {p : Nat} (hp1 : 1 ≤ p) (hp : p ≤ 31) {lo hi : Val b32} (x : Val b32) (hlo : lo = .inf true ∨ isFinite lo = true)
    (hhi : hi = .inf false ∨ isFinite hi = true) (h : lo = .inf true ∨ hi = .inf false) : coordQ p lo hi x = .nan := by
  have hsize : sizeOf lo hi = .inf false := by
    rcases h with rfl | rfl
    · exact size_low hhi
    · exact size_high hlo
  rw [coordQ, hsize, part_endless _ _ (mask_plain hp1 hp), Nat.zero_mod]
  have hd : (div (ofNat 0) (ofNat (2 ^ p - 1)) : Val b32) = .fin false 0 (by decide +kernel) := by
    interval_cases p <;> decide +kernel
  rw [hd]
  rcases h with rfl | rfl
  · rcases hhi with rfl | h
    · rfl
    · obtain ⟨s, n, hn, rfl⟩ := finite_cases h
      rfl
  · rcases hlo with rfl | h
    · rfl
    · obtain ⟨s, n, hn, rfl⟩ := finite_cases h
      rfl

/-- The box of a piece whose infinite coordinates are `y = -∞` and `z = +∞`. -/
theorem box_deep {lib : Libm} {l : List (Vec3 (Val b32))} {s : VBox (Val b32)} (hs : vertexBox (ops lib) l = .ok s) (h : Deep l) :
    (s.minZ = .inf true ∨ isFinite s.minZ = true) ∧ (s.maxZ = .inf false ∨ isFinite s.maxZ = true) ∧
      (s.minZ = .inf true ∨ s.maxZ = .inf false) := by
  cases l with
  | nil => cases hs
  | cons v0 l =>
    have hs : (v0 :: l).foldl boxStep ⟨v0.1, v0.1, v0.2.1, v0.2.1, v0.2.2, v0.2.2⟩ = s := Outcome.ok.inj hs
    refine ⟨?_, ?_, ?_⟩
    · rw [← hs]
      refine fold_last (P := fun s => s.minZ = .inf true ∨ isFinite s.minZ = true) (by simp) (fun s v hv => ?_) _
      show Ieee.min (Ieee.min s.minZ v.2.2) v.2.1 = _ ∨ _
      rcases h.y v hv with e | e
      · left
        rw [e, min_low']
      · exact min_finite _ e
    · rw [← hs]
      refine fold_last (P := fun s => s.maxZ = .inf false ∨ isFinite s.maxZ = true) (by simp) (fun s v hv => ?_) _
      show Ieee.max s.maxZ v.2.2 = _ ∨ _
      rcases h.z v hv with e | e
      · left
        rw [e, max_high']
      · exact max_finite _ e
    · obtain ⟨v, hv, e | e⟩ := h.some
      · left
        rw [← hs]
        refine fold_reaches (P := fun s => s.minZ = .inf true) (Q := fun v => v.2.1 = .inf true) ?_ ?_ _ _ (.inr ⟨v, hv, e⟩)
        · intro s v h
          show Ieee.min (Ieee.min s.minZ v.2.2) v.2.1 = _
          rw [h, min_low, min_low]
        · intro s v h
          show Ieee.min (Ieee.min s.minZ v.2.2) v.2.1 = _
          rw [h, min_low']
      · right
        rw [← hs]
        refine fold_reaches (P := fun s => s.maxZ = .inf false) (Q := fun v => v.2.2 = .inf false) ?_ ?_ _ _ (.inr ⟨v, hv, e⟩)
        · intro s v h
          show Ieee.max s.maxZ v.2.2 = _
          rw [h, max_high]
        · intro s v h
          show Ieee.max s.maxZ v.2.2 = _
          rw [h, max_high']

end Tmf.Ieee
