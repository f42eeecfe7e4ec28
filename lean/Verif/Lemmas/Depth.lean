import Verif.Lemmas.TrisGain
/-
How deep the calls of `opt_tris` nest: lemmas.
-/

namespace Tmf

theorem Best.update_same {best : Best} {s : Int} (h : best.score = some s) (hs : -88 ≤ s) (i : Nat) :
    best.update i (-88) = best := by
  unfold Best.update
  rw [h]
  dsimp only
  rw [if_neg (by omega)]

theorem scanMax_append (b : Build) (T : Nat) (l : List Nat) : ∀ (a : List Nat) (i m : Nat) (best : Best),
    scanMax b T i m (a ++ l) best = (scanMax b T i m a best).bind fun best' => scanMax b T (i + a.length) (a.foldl max m) l best' := by
  intro a
  induction a with
  | nil => intro i m best; rfl
  | cons x a ih =>
    intro i m best
    show (calcSpiltScore b i (T, max m x)).bind (fun score => scanMax b T (i + 1) (max m x) (a ++ l) (best.update i score)) =
      ((calcSpiltScore b i (T, max m x)).bind (fun score => scanMax b T (i + 1) (max m x) a (best.update i score))).bind _
    cases calcSpiltScore b i (T, max m x) with
    | ok s =>
      show scanMax b T (i + 1) (max m x) (a ++ l) (best.update i s) = (scanMax b T (i + 1) (max m x) a (best.update i s)).bind _
      rw [ih, List.length_cons, List.foldl_cons, Nat.add_assoc, Nat.add_comm 1]
    | err e => rfl
    | panic => rfl

theorem scanMin_append (b : Build) (T : Nat) (l : List Nat) : ∀ (a : List Nat) (i m : Nat) (best : Best),
    scanMin b T i m (a ++ l) best = (scanMin b T i m a best).bind fun best' => scanMin b T (i + a.length) (a.foldl min m) l best' := by
  intro a
  induction a with
  | nil => intro i m best; rfl
  | cons x a ih =>
    intro i m best
    show (calcSpiltScore b i (min m x, T)).bind (fun score => scanMin b T (i + 1) (min m x) (a ++ l) (best.update i score)) =
      ((calcSpiltScore b i (min m x, T)).bind (fun score => scanMin b T (i + 1) (min m x) a (best.update i score))).bind _
    cases calcSpiltScore b i (min m x, T) with
    | ok s =>
      show scanMin b T (i + 1) (min m x) (a ++ l) (best.update i s) = (scanMin b T (i + 1) (min m x) a (best.update i s)).bind _
      rw [ih, List.length_cons, List.foldl_cons, Nat.add_assoc, Nat.add_comm 1]
    | err e => rfl
    | panic => rfl

/-- Once the running maximum is the maximum, the best cut stays. -/
theorem scanMax_top (b : Build) {T : Nat} (hT : T < 2 ^ 64) {best : Best} {s : Int} (h : best.score = some s) (hs : -88 ≤ s) :
    ∀ (l : List Nat) (i : Nat), (∀ x ∈ l, x ≤ T) → scanMax b T i T l best = .ok best := by
  intro l
  induction l with
  | nil => intro i _; rfl
  | cons x l ih =>
    intro i hl
    rw [scanMax, Nat.max_eq_left (hl x (by simp))]
    show (calcSpiltScore b i (T, T)).bind _ = _
    rw [calcSpiltScore_ok b i le_rfl hT]
    show scanMax b T (i + 1) T l (best.update i _) = _
    rw [Nat.sub_self, Nat.zero_mul]
    show scanMax b T (i + 1) T l (best.update i (-88)) = _
    rw [Best.update_same h hs]
    exact ih _ fun y hy => hl y (by simp [hy])

/-- Once the running minimum is the minimum, the best cut stays. -/
theorem scanMin_bottom (b : Build) {T : Nat} (hT : T < 2 ^ 64) {best : Best} {s : Int} (h : best.score = some s) (hs : -88 ≤ s) :
    ∀ (l : List Nat) (i : Nat), (∀ x ∈ l, T ≤ x) → scanMin b T i T l best = .ok best := by
  intro l
  induction l with
  | nil => intro i _; rfl
  | cons x l ih =>
    intro i hl
    rw [scanMin, Nat.min_eq_left (hl x (by simp))]
    show (calcSpiltScore b i (T, T)).bind _ = _
    rw [calcSpiltScore_ok b i le_rfl hT]
    show scanMin b T (i + 1) T l (best.update i _) = _
    rw [Nat.sub_self, Nat.zero_mul]
    show scanMin b T (i + 1) T l (best.update i (-88)) = _
    rw [Best.update_same h hs]
    exact ih _ fun y hy => hl y (by simp [hy])

theorem maxIndex_eq {l : List Nat} {n : Nat} (hn : n ∈ l) (h : ∀ i ∈ l, i ≤ n) : maxIndex l = n :=
  le_antisymm (maxIndex_le h) ((foldl_max_spec l 0).2.1 n hn)

theorem minIndex_eq {l : List Nat} {n : Nat} (hn : n ∈ l) (h : ∀ i ∈ l, n ≤ i) : minIndex l = n :=
  le_antisymm (minIndex_le hn) (le_minIndex (List.ne_nil_of_mem hn) h)

/-- A cut by the maximum that is found before the maximum is reached. -/
theorem trisSplit_max (b : Build) {a l : List Nat} {T i : Nat} {s : Int} (hT : T < 2 ^ 64) (hm : T ∈ a) (hl : ∀ x ∈ a ++ l, x ≤ T)
    (h : scanMax b T 0 0 a ⟨none, 0⟩ = .ok ⟨some s, i⟩) (hs : 0 < s) : trisSplit b (a ++ l) = .ok (some i) := by
  have hne : a ++ l ≠ [] := List.ne_nil_of_mem (List.mem_append_left _ hm)
  have ht : a.foldl max 0 = T := maxIndex_eq hm fun x hx => hl x (List.mem_append_left _ hx)
  rw [trisSplit]
  dsimp only
  rw [if_neg hne, maxIndex_eq (List.mem_append_left _ hm) hl, scanMax_append, h]
  show (scanMax b T (0 + a.length) (a.foldl max 0) l ⟨some s, i⟩).bind _ = _
  rw [ht, scanMax_top b hT rfl (by omega) l _ fun x hx => hl x (List.mem_append_right _ hx)]
  show (match Best.split ⟨some s, i⟩ with | some i => _ | none => _) = _
  rw [Best.split]
  dsimp only
  rw [if_pos hs]

/-- A cut by the minimum, where the array begins with its maximum but for indices that are not cut off. -/
theorem trisSplit_min (b : Build) {a l : List Nat} {T B i j : Nat} {s t : Int} (hT : T < 2 ^ 32) (hm : T ∈ a)
    (hl : ∀ x ∈ a ++ l, x ≤ T) (h : scanMax b T 0 0 a ⟨none, 0⟩ = .ok ⟨some t, j⟩) (ht : t ≤ 0) (ht' : -88 ≤ t) (hB : B ∈ a)
    (hl' : ∀ x ∈ a ++ l, B ≤ x) (h' : scanMin b B 0 (2 ^ 32 - 1) a ⟨none, 0⟩ = .ok ⟨some s, i⟩) (hs : 0 < s) :
    trisSplit b (a ++ l) = .ok (some i) := by
  have hne : a ++ l ≠ [] := List.ne_nil_of_mem (List.mem_append_left _ hm)
  have e1 : a.foldl max 0 = T := maxIndex_eq hm fun x hx => hl x (List.mem_append_left _ hx)
  have e2 : a.foldl min (2 ^ 32 - 1) = B := by
    cases a with
    | nil => cases hm
    | cons x a =>
      have hx : x ≤ 2 ^ 32 - 1 := by have := hl x (by simp); omega
      rw [List.foldl_cons, Nat.min_eq_right hx]
      exact minIndex_eq hB fun x hx => hl' x (List.mem_append_left _ hx)
  have hBT : B < 2 ^ 64 := lt_of_le_of_lt (hl' T (List.mem_append_left _ hm)) (lt_trans hT (by decide))
  rw [trisSplit]
  dsimp only
  rw [if_neg hne, if_neg hne, maxIndex_eq (List.mem_append_left _ hm) hl, minIndex_eq (List.mem_append_left _ hB) hl',
    scanMax_append, h]
  show (scanMax b T (0 + a.length) (a.foldl max 0) l ⟨some t, j⟩).bind _ = _
  rw [e1, scanMax_top b (lt_trans hT (by decide)) rfl ht' l _ fun x hx => hl x (List.mem_append_right _ hx)]
  show (match Best.split ⟨some t, j⟩ with | some i => _ | none => _) = _
  rw [Best.split]
  dsimp only
  rw [if_neg (by omega)]
  dsimp only
  rw [scanMin_append, h']
  show (scanMin b B (0 + a.length) (a.foldl min (2 ^ 32 - 1)) l ⟨some s, i⟩).bind _ = _
  rw [e2, scanMin_bottom b hBT rfl (by omega) l _ fun x hx => hl' x (List.mem_append_right _ hx)]
  show Outcome.ok (Best.split ⟨some s, i⟩) = _
  rw [Best.split]
  dsimp only
  rw [if_pos hs]

end Tmf
