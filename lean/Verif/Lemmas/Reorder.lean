import Verif.Model.Reorder
import Verif.Spec.Reorder
import Verif.Lemmas.Arrays
import Verif.Lemmas.Assemble
import Mathlib.Data.List.Nodup
import Mathlib.Data.List.NodupEquivFin
import Mathlib.Data.Fintype.Card
/-
Lemmas about `optimize_triangle_indices`.
-/

namespace Tmf
open Spec

section
variable {κ : Type} [DecidableEq κ]

/-- One step of `firstUses`. -/
def useStep (seen : List κ) (i : κ) : List κ := if i ∈ seen then seen else seen ++ [i]

theorem firstUses_eq (l : List κ) : firstUses l = l.foldl useStep [] := rfl

theorem useStep_nodup {seen : List κ} (h : seen.Nodup) (i : κ) : (useStep seen i).Nodup := by
  unfold useStep
  split_ifs with hi
  · exact h
  · exact List.Nodup.append h (List.nodup_singleton i) (by simpa using hi)

theorem foldl_useStep_nodup (l : List κ) : ∀ {seen : List κ}, seen.Nodup → (l.foldl useStep seen).Nodup := by
  induction l with
  | nil => intro seen h; exact h
  | cons i l ih => intro seen h; exact ih (useStep_nodup h i)

theorem mem_foldl_useStep (l : List κ) : ∀ {seen : List κ} {x : κ},
    x ∈ l.foldl useStep seen ↔ x ∈ seen ∨ x ∈ l := by
  induction l with
  | nil => intro seen x; simp
  | cons i l ih =>
    intro seen x
    rw [List.foldl_cons, ih]
    unfold useStep
    split_ifs with hi
    · simp only [List.mem_cons]
      constructor
      · rintro (h | h)
        · exact .inl h
        · exact .inr (.inr h)
      · rintro (h | rfl | h)
        · exact .inl h
        · exact .inl hi
        · exact .inr h
    · simp only [List.mem_append, List.mem_cons, List.not_mem_nil, or_false]
      exact or_assoc

theorem firstUses_nodup (l : List κ) : (firstUses l).Nodup := foldl_useStep_nodup l List.nodup_nil

theorem mem_firstUses {l : List κ} {x : κ} : x ∈ firstUses l ↔ x ∈ l := by
  rw [firstUses_eq, mem_foldl_useStep]; simp

/-- A list of distinct numbers below `n` has at most `n` entries. -/
theorem nodup_length_le {l : List Nat} {n : Nat} (h : l.Nodup) (hn : ∀ i ∈ l, i < n) : l.length ≤ n := by
  have : l ⊆ List.range n := fun i hi => List.mem_range.mpr (hn i hi)
  simpa using (List.subperm_of_subset h this).length_le

theorem foldl_useStep_map {μ : Type} [DecidableEq μ] {f : κ → μ} (l : List κ) : ∀ {seen : List κ},
    (∀ x ∈ seen ++ l, ∀ y ∈ seen ++ l, f x = f y → x = y) →
    (l.map f).foldl useStep (seen.map f) = (l.foldl useStep seen).map f := by
  induction l with
  | nil => intro seen _; rfl
  | cons i l ih =>
    intro seen hf
    rw [List.map_cons, List.foldl_cons, List.foldl_cons]
    have hmem : f i ∈ seen.map f ↔ i ∈ seen := by
      constructor
      · intro h
        obtain ⟨j, hj, e⟩ := List.mem_map.mp h
        rw [← hf j (by simp [hj]) i (by simp) e]; exact hj
      · exact fun h => List.mem_map_of_mem h
    have e : useStep (seen.map f) (f i) = (useStep seen i).map f := by
      unfold useStep
      by_cases hi : i ∈ seen
      · rw [if_pos hi, if_pos (hmem.mpr hi)]
      · rw [if_neg hi, if_neg (fun h => hi (hmem.mp h)), List.map_append, List.map_singleton]
    rw [e]
    apply ih
    intro x hx y hy
    have key : ∀ z, z ∈ useStep seen i ++ l → z ∈ seen ++ i :: l := by
      intro z hz
      unfold useStep at hz
      split_ifs at hz <;> simp at hz ⊢ <;> tauto
    exact hf x (key x hx) y (key y hy)

theorem firstUses_map {μ : Type} [DecidableEq μ] {f : κ → μ} {l : List κ} (hf : ∀ x ∈ l, ∀ y ∈ l, f x = f y → x = y) :
    firstUses (l.map f) = (firstUses l).map f := by
  have := foldl_useStep_map (f := f) l (seen := []) (by simpa using hf)
  simpa [firstUses_eq] using this

theorem map_idxOf_self {κ : Type} [BEq κ] [LawfulBEq κ] {l : List κ} (h : l.Nodup) : l.map (l.idxOf ·) = List.range l.length := by
  apply List.ext_getElem
  · simp
  · intro k h₁ h₂
    simp only [List.getElem_map, List.getElem_range]
    exact h.idxOf_getElem k _

end

/-- The state of the loop after the elements `used` were seen. -/
structure MapState {α : Type} (data : List α) (used : List Nat) (map : List (Option Nat)) (mapped : List α) : Prop where
  nodup : used.Nodup
  inside : ∀ i ∈ used, i < data.length
  length : map.length = data.length
  mapEq : ∀ i, i < data.length → map[i]? = some (if i ∈ used then some (used.idxOf i) else none)
  mapped : mapped.map some = used.map (fun i => data[i]?)

theorem MapState.mapped_length {α : Type} {data : List α} {used : List Nat} {map : List (Option Nat)} {mapped : List α}
    (h : MapState data used map mapped) : mapped.length = used.length := by
  simpa using congrArg List.length h.mapped

theorem mapLoop_spec {α : Type} {data : List α} (l : List Nat) : ∀ {used : List Nat} {map : List (Option Nat)} {mapped : List α},
    MapState data used map mapped → (∀ i ∈ l, i < data.length) →
    ∃ map' mapped', mapLoop data l map mapped used.length = .ok (map', mapped') ∧
      MapState data (l.foldl useStep used) map' mapped' := by
  induction l with
  | nil => intro used map mapped h _; exact ⟨map, mapped, rfl, h⟩
  | cons i l ih =>
    intro used map mapped h hl
    have hi : i < data.length := hl i List.mem_cons_self
    have hm := h.mapEq i hi
    have hl' : ∀ i ∈ l, i < data.length := fun j hj => hl j (List.mem_cons_of_mem _ hj)
    rw [List.foldl_cons, mapLoop, hm]
    unfold useStep
    by_cases hu : i ∈ used
    · rw [if_pos hu, if_pos hu]
      exact ih h hl'
    · rw [if_neg hu, if_neg hu]
      have hd : data[i]? = some data[i] := List.getElem?_eq_getElem hi
      rw [hd]
      have hst : MapState data (used ++ [i]) (map.set i (some used.length)) (mapped ++ [data[i]]) := by
        refine ⟨?_, ?_, ?_, ?_, ?_⟩
        · exact List.Nodup.append h.nodup (List.nodup_singleton i) (by simpa using hu)
        · intro j hj
          rcases List.mem_append.mp hj with hj | hj
          · exact h.inside j hj
          · rw [List.mem_singleton.mp hj]; exact hi
        · rw [List.length_set]; exact h.length
        · intro j hj
          by_cases e : i = j
          · subst e
            rw [List.getElem?_set_self (by rw [h.length]; exact hi), if_pos (by simp),
              List.idxOf_append_of_notMem hu]
            simp
          · rw [List.getElem?_set_ne e, h.mapEq j hj]
            by_cases hj' : j ∈ used
            · rw [if_pos hj', if_pos (by simp [hj']), List.idxOf_append_of_mem hj']
            · rw [if_neg hj', if_neg (by simp [hj', Ne.symm e])]
        · simp [h.mapped, hd]
      have := ih hst hl'
      rw [List.length_append, List.length_singleton] at this
      exact this

/-- What `optimize_triangle_indices` computes. -/
theorem optimize_eq {α : Type} {data : List α} {indices : List Nat} (hi : InRange data.length indices)
    (hne : indices ≠ []) : ∃ data', optimizeTriangleIndices indices data =
      .ok (indices.map ((firstUses indices).idxOf ·), data') ∧
      data'.map some = (firstUses indices).map (fun i => data[i]?) := by
  obtain ⟨j, hj⟩ := List.exists_mem_of_ne_nil _ hne
  have hdne : data ≠ [] := by
    rintro rfl
    exact absurd (hi j hj).1 (by simp)
  have h0 : MapState data [] (List.replicate data.length none) [] :=
    ⟨List.nodup_nil, by simp, by simp, by intro i hi; simp [List.getElem?_replicate, hi], rfl⟩
  obtain ⟨map, mapped, hm, hs⟩ := mapLoop_spec indices h0 (fun i h => (hi i h).1)
  refine ⟨mapped, ?_, hs.mapped⟩
  have hnew : ∀ i ∈ indices, newIndex map i = .ok ((firstUses indices).idxOf i) := by
    intro i h
    have hmem : i ∈ firstUses indices := mem_firstUses.mpr h
    have hlt : (firstUses indices).idxOf i < 2 ^ 32 := by
      have h1 := List.idxOf_lt_length_of_mem hmem
      have h2 := nodup_length_le (firstUses_nodup indices) (n := 2 ^ 32)
        (fun x hx => (hi x (mem_firstUses.mp hx)).2)
      omega
    have := hs.mapEq i (hi i h).1
    rw [← firstUses_eq, if_pos hmem] at this
    unfold newIndex
    rw [this]
    exact congrArg Outcome.ok (Nat.mod_eq_of_lt hlt)
  unfold optimizeTriangleIndices
  rw [if_neg (by simp [hne, hdne])]
  show ((mapLoop data indices (List.replicate data.length none) [] ([] : List Nat).length) >>= _) = _
  rw [hm, Outcome.bind_ok]
  show (Outcome.mapAll (newIndex map) indices >>= _) = _
  rw [mapAll_of_ok hnew, Outcome.bind_ok]

theorem getElem?_of_map_some {α : Type} {d : List α} {f : Nat → Option α} {u : List Nat}
    (h : d.map some = u.map f) (k : Nat) (hk : k < u.length) : d[k]? = f u[k] := by
  have := congrArg (fun l => l[k]?) h
  simp only [List.getElem?_map, List.getElem?_eq_getElem hk, Option.map_some] at this
  cases e : d[k]? with
  | none => rw [e] at this; cases this
  | some x => rw [e] at this; simpa using this

theorem optimize_reordered {α : Type} {data : List α} {indices : List Nat} (hi : InRange data.length indices)
    (hne : indices ≠ []) : ∃ indices' data', optimizeTriangleIndices indices data = .ok (indices', data') ∧
      Reordered data indices data' indices' := by
  obtain ⟨data', h, hd⟩ := optimize_eq hi hne
  have hlen : data'.length = (firstUses indices).length := by simpa using congrArg List.length hd
  have hidx : ∀ i ∈ indices, (firstUses indices).idxOf i < data'.length := by
    intro i h
    rw [hlen]; exact List.idxOf_lt_length_of_mem (mem_firstUses.mpr h)
  have hfu : firstUses (indices.map ((firstUses indices).idxOf ·)) = List.range data'.length := by
    rw [firstUses_map, map_idxOf_self (firstUses_nodup _), hlen]
    intro x hx y hy e
    exact (List.idxOf_inj (mem_firstUses.mpr hx)).mp e
  have h32 : data'.length ≤ 2 ^ 32 := by
    rw [hlen]; exact nodup_length_le (firstUses_nodup indices) (fun x hx => (hi x (mem_firstUses.mp hx)).2)
  refine ⟨_, data', h, ?_, ?_, hfu, ?_, ?_⟩
  · unfold lookups
    rw [List.map_map]
    apply List.map_congr_left
    intro i h
    have hm := mem_firstUses.mpr h
    have hl := List.idxOf_lt_length_of_mem hm
    show data'[(firstUses indices).idxOf i]? = _
    rw [getElem?_of_map_some hd _ hl, List.getElem_idxOf hl]
  · intro k hk
    rw [← mem_firstUses, hfu]
    exact List.mem_range.mpr hk
  · rw [hlen]; exact nodup_length_le (firstUses_nodup indices) (fun x hx => (hi x (mem_firstUses.mp hx)).1)
  · intro i h
    obtain ⟨j, hj, rfl⟩ := List.mem_map.mp h
    exact ⟨hidx j hj, lt_of_lt_of_le (hidx j hj) h32⟩

/-- Once elements are numbered in order of first use nothing changes any more. -/
theorem optimize_again {α : Type} {data : List α} {indices : List Nat} (hi : InRange data.length indices)
    (ho : firstUses indices = List.range data.length) :
    optimizeTriangleIndices indices data = .ok (indices, data) := by
  by_cases hne : indices = []
  · unfold optimizeTriangleIndices
    rw [if_pos (.inl hne)]
  · obtain ⟨data', h, hd⟩ := optimize_eq hi hne
    rw [h, ho]
    have e1 : indices.map ((List.range data.length).idxOf ·) = indices := by
      conv_rhs => rw [← List.map_id indices]
      apply List.map_congr_left
      intro i h
      have hi' := (hi i h).1
      have := (List.nodup_range (n := data.length)).idxOf_getElem i (by simpa using hi')
      simpa using this
    have e2 : data' = data := by
      apply List.ext_getElem?
      intro k
      by_cases hk : k < data.length
      · rw [ho] at hd
        rw [getElem?_of_map_some hd k (by simpa using hk)]
        simp
      · have : data'.length = data.length := by
          have := congrArg List.length hd
          rw [ho] at this; simpa using this
        rw [List.getElem?_eq_none (by omega), List.getElem?_eq_none (by omega)]
    rw [e1, e2]

theorem lookups_some {α : Type} {d : List α} {t : List Nat} {l : List α} (h : lookups d t = l.map some) :
    ∀ acc, Mesh.bufferLoop d t acc = some (acc ++ l) := by
  induction t generalizing l with
  | nil =>
    intro acc
    cases l with
    | nil => simp [Mesh.bufferLoop]
    | cons x l => simp [lookups] at h
  | cons i t ih =>
    intro acc
    cases l with
    | nil => simp [lookups] at h
    | cons x l =>
      simp only [lookups, List.map_cons, List.cons.injEq] at h
      rw [Mesh.bufferLoop, h.1]
      simpa using ih h.2 (acc ++ [x])

theorem lookups_inRange {α : Type} {d : List α} {t : List Nat} (h : InRange d.length t) :
    ∃ l : List α, lookups d t = l.map some := by
  induction t with
  | nil => exact ⟨[], rfl⟩
  | cons i t ih =>
    obtain ⟨l, hl⟩ := ih (fun j hj => h j (List.mem_cons_of_mem _ hj))
    have hi := (h i List.mem_cons_self).1
    exact ⟨d[i] :: l, by rw [List.map_cons, ← hl]; simp [lookups, hi]⟩

theorem bufferLoop_same {α : Type} {d d' : List α} {t t' : List Nat} (h : InRange d.length t)
    (e : lookups d' t' = lookups d t) : Mesh.bufferLoop d' t' [] = Mesh.bufferLoop d t [] := by
  obtain ⟨l, hl⟩ := lookups_inRange h
  rw [lookups_some hl, lookups_some (e.trans hl)]

theorem reorderPair_ok {α : Type} {data : Option (List α)} {indices : Option (List Nat)} (h : PairInRange data indices)
    (hne : indices ≠ some []) : ∃ data' indices', reorderPair data indices = .ok (data', indices') ∧
      PairReordered data indices data' indices' ∧ reorderPair data' indices' = .ok (data', indices') := by
  match data, indices with
  | none, _ => exact ⟨_, _, rfl, ⟨rfl, rfl⟩, rfl⟩
  | some _, none => exact ⟨_, _, rfl, ⟨rfl, rfl⟩, rfl⟩
  | some d, some t =>
    have hr := h d t rfl rfl
    obtain ⟨t', d', e, hre⟩ := optimize_reordered hr (by simpa using hne)
    refine ⟨some d', some t', ?_, ⟨d', t', rfl, rfl, hre⟩, ?_⟩
    · rw [reorderPair, e]; rfl
    · rw [reorderPair, optimize_again hre.inside hre.order]; rfl

/-- Buffers of a reordered pair. -/
theorem PairReordered.buffer {α : Type} {data data' : Option (List α)} {indices indices' : Option (List Nat)}
    (h : PairInRange data indices) (hr : PairReordered data indices data' indices') :
    (do let d ← data'; let t ← indices'; Mesh.bufferLoop d t []) = (do let d ← data; let t ← indices; Mesh.bufferLoop d t []) := by
  match data, indices with
  | none, _ => rw [hr.1, hr.2]
  | some _, none => rw [hr.1, hr.2]
  | some d, some t =>
    obtain ⟨d', t', rfl, rfl, hre⟩ := hr
    exact bufferLoop_same (h d t rfl rfl) hre.same

/-- Pairs of a mesh with empty index arrays stay as they are. -/
theorem reorderPair_empty {α : Type} (data : Option (List α)) : reorderPair data (some []) = .ok (data, some []) := by
  cases data with
  | none => rfl
  | some d => simp [reorderPair, optimizeTriangleIndices]

theorem pruneMin_spec (l : List Nat) : ∀ {n m : Nat}, pruneMin l n = some m → m ≤ n ∧ ∀ i ∈ l, m ≤ i := by
  induction l with
  | nil => intro n m h; cases h; simp
  | cons i l ih =>
    intro n m h
    rw [pruneMin] at h
    split_ifs at h with h0
    obtain ⟨h1, h2⟩ := ih h
    refine ⟨by omega, ?_⟩
    intro j hj
    rcases List.mem_cons.mp hj with rfl | hj
    · omega
    · exact h2 j hj

theorem pruneMin_none (l : List Nat) : ∀ {n : Nat}, pruneMin l n = none → 0 ∈ l := by
  induction l with
  | nil => intro n h; cases h
  | cons i l ih =>
    intro n h
    rw [pruneMin] at h
    split_ifs at h with h0
    · simp [h0]
    · exact List.mem_cons_of_mem _ (ih h)

theorem pruneMin_mem (l : List Nat) : ∀ {n m : Nat}, pruneMin l n = some m → m = n ∨ m ∈ l := by
  induction l with
  | nil => intro n m h; cases h; simp
  | cons i l ih =>
    intro n m h
    rw [pruneMin] at h
    split_ifs at h with h0
    rcases ih h with e | e
    · rcases Nat.le_total n i with hle | hle
      · left; omega
      · right; rw [e, Nat.min_eq_right hle]; exact List.mem_cons_self
    · exact .inr (List.mem_cons_of_mem _ e)

end Tmf
