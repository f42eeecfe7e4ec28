import Verif.Lemmas.OptTris
/-
What each cut of an index array gains.
-/

namespace Tmf

/-- Bits between the widths of the largest and the smallest index, for all indices. -/
def spread (l : List Nat) : Nat := (calcPrec (maxIndex l) - calcPrec (minIndex l)) * l.length

/-- A score found for a cut is not above the gain `g` of the cut. -/
def Best.Sound (best : Best) (g : Nat → Nat) : Prop := ∀ s, best.score = some s → s ≤ ((g best.index : Nat) : Int) - 88

theorem Best.Sound.update {best : Best} {g : Nat → Nat} (h : best.Sound g) {i k : Nat} (hk : k ≤ g i) :
    (best.update i (((k : Nat) : Int) - 88)).Sound g := by
  have key : (⟨some (((k : Nat) : Int) - 88), i⟩ : Best).Sound g := by
    intro s hs
    simp only [Option.some.injEq] at hs
    subst hs
    show _ ≤ ((g i : Nat) : Int) - 88
    omega
  unfold Best.update
  split
  · exact key
  · split
    · exact key
    · exact h

theorem Best.Sound.split {best : Best} {g : Nat → Nat} (h : best.Sound g) {i : Nat} (hs : best.split = some i) : 89 ≤ g i := by
  unfold Best.split at hs
  split at hs
  · next s hsc =>
    split at hs
    · next hpos =>
      simp only [Option.some.injEq] at hs
      have := h s hsc
      subst hs
      omega
    · simp at hs
  · simp at hs

/-- Gain of a cut by the running maximum. -/
def maxGain (l : List Nat) (T i : Nat) : Nat := (calcPrec T - calcPrec (maxIndex (l.take i))) * i

/-- Gain of a cut by the running minimum. -/
def minGain (l : List Nat) (T i : Nat) : Nat := (calcPrec (minIndex (l.take i)) - calcPrec T) * i

theorem foldl_max_mono (l : List Nat) : ∀ a, a ≤ l.foldl max a := fun a => (foldl_max_spec l a).1

theorem maxIndex_append (l : List Nat) (x : Nat) : maxIndex (l ++ [x]) = max (maxIndex l) x := by
  simp [maxIndex, List.foldl_append]

theorem maxIndex_le {l : List Nat} {n : Nat} (h : ∀ i ∈ l, i ≤ n) : maxIndex l ≤ n := by
  have := maxIndex_lt (l := l) (n := n + 1) (by omega) (fun i hi => by have := h i hi; omega)
  omega

theorem le_minIndex {l : List Nat} {n : Nat} (hl : l ≠ []) (h : ∀ i ∈ l, n ≤ i) : n ≤ minIndex l := h _ (minIndex_mem hl)

theorem scanMax_sound (b : Build) {T : Nat} (hT : T < 2 ^ 64) {all : List Nat} :
    ∀ (l pre : List Nat) (best best' : Best), all = pre ++ l → (∀ x ∈ all, x ≤ T) → best.Sound (maxGain all T) →
      scanMax b T pre.length (maxIndex pre) l best = .ok best' → best'.Sound (maxGain all T) := by
  intro l
  induction l with
  | nil => intro pre best best' _ _ hb h; cases h; exact hb
  | cons x l ih =>
    intro pre best best' e hl hb h
    have hm : max (maxIndex pre) x ≤ T := by
      refine max_le (maxIndex_le fun i hi => hl i ?_) (hl x ?_) <;> rw [e] <;> simp [*]
    simp only [scanMax, calcSpiltScore_ok b pre.length hm hT, Outcome.bind_ok] at h
    have e' : all = (pre ++ [x]) ++ l := by rw [e]; simp
    refine ih (pre ++ [x]) _ _ e' hl (hb.update ?_) (by rw [maxIndex_append, List.length_append]; exact h)
    rw [maxGain, e, List.take_left' rfl]
    exact Nat.mul_le_mul_right _ (Nat.sub_le_sub_left (calcPrec_mono (le_max_left _ _) (lt_of_le_of_lt hm hT)) _)

theorem scanMin_sound (b : Build) {T : Nat} {all : List Nat} :
    ∀ (l pre : List Nat) (m : Nat) (best best' : Best), all = pre ++ l → (∀ x ∈ all, T ≤ x) → T ≤ m → m < 2 ^ 64 →
      (∀ x ∈ all, x < 2 ^ 64) → (∀ x ∈ pre, m ≤ x) → best.Sound (minGain all T) →
      scanMin b T pre.length m l best = .ok best' → best'.Sound (minGain all T) := by
  intro l
  induction l with
  | nil => intro pre m best best' _ _ _ _ _ _ hb h; cases h; exact hb
  | cons x l ih =>
    intro pre m best best' e hl hTm hm64 h64 hpre hb h
    have hx : T ≤ x := hl x (by rw [e]; simp)
    have hm : T ≤ min m x := le_min hTm hx
    simp only [scanMin, calcSpiltScore_ok b pre.length hm (lt_of_le_of_lt (min_le_left _ _) hm64), Outcome.bind_ok] at h
    have e' : all = (pre ++ [x]) ++ l := by rw [e]; simp
    refine ih (pre ++ [x]) _ _ _ e' hl hm (lt_of_le_of_lt (min_le_left _ _) hm64) h64 ?_ (hb.update ?_)
      (by rw [List.length_append]; exact h)
    · intro y hy
      rcases List.mem_append.mp hy with hy | hy
      · exact le_trans (min_le_left _ _) (hpre y hy)
      · rw [List.mem_singleton.mp hy]; exact min_le_right _ _
    · rw [minGain, e, List.take_left' rfl]
      rcases eq_or_ne pre [] with rfl | hne
      · simp
      · have h1 : min m x ≤ minIndex pre := le_minIndex hne fun i hi => le_trans (min_le_left _ _) (hpre i hi)
        refine Nat.mul_le_mul_right _ (Nat.sub_le_sub_right (calcPrec_mono h1 ?_) _)
        exact h64 _ (by rw [e]; exact List.mem_append_left _ (minIndex_mem hne))

/-- Each cut takes away at least 89 bits of the spread. -/
theorem trisSplit_gain {b : Build} {l : List Nat} (hl : ∀ i ∈ l, i < 2 ^ 32) {i : Nat} (h : trisSplit b l = .ok (some i)) :
    spread (l.take i) + spread (l.drop i) + 89 ≤ spread l ∧
      calcPrec (maxIndex (l.take i)) * i + calcPrec (maxIndex (l.drop i)) * (l.length - i) ≤ calcPrec (maxIndex l) * l.length := by
  obtain ⟨o, e, ho⟩ := trisSplit_ok b l hl
  rw [h] at e
  cases e
  obtain ⟨i0, i1⟩ := ho i rfl
  have hne : l ≠ [] := by rintro rfl; simp at i1
  have hmax : maxIndex l < 2 ^ 64 := lt_of_lt_of_le (maxIndex_lt (by positivity) hl) (by decide)
  have h64 : ∀ x ∈ l, x < 2 ^ 64 := fun x hx => lt_of_lt_of_le (hl x hx) (by decide)
  have ht : l.take i ≠ [] := by rw [← List.length_pos_iff, List.length_take]; omega
  have hd : l.drop i ≠ [] := by rw [← List.length_pos_iff, List.length_drop]; omega
  have a1 : calcPrec (maxIndex (l.take i)) ≤ calcPrec (maxIndex l) :=
    calcPrec_mono (maxIndex_le fun x hx => le_maxIndex (List.mem_of_mem_take hx)) hmax
  have a2 : calcPrec (maxIndex (l.drop i)) ≤ calcPrec (maxIndex l) :=
    calcPrec_mono (maxIndex_le fun x hx => le_maxIndex (List.mem_of_mem_drop hx)) hmax
  have a3 : calcPrec (minIndex l) ≤ calcPrec (minIndex (l.take i)) :=
    calcPrec_mono (le_minIndex ht fun x hx => minIndex_le (List.mem_of_mem_take hx)) (h64 _ (List.mem_of_mem_take (minIndex_mem ht)))
  have a4 : calcPrec (minIndex l) ≤ calcPrec (minIndex (l.drop i)) :=
    calcPrec_mono (le_minIndex hd fun x hx => minIndex_le (List.mem_of_mem_drop hx)) (h64 _ (List.mem_of_mem_drop (minIndex_mem hd)))
  have a5 : calcPrec (minIndex (l.take i)) ≤ calcPrec (maxIndex (l.take i)) :=
    calcPrec_mono (le_maxIndex (minIndex_mem ht)) (lt_of_le_of_lt (maxIndex_le fun x hx => le_maxIndex (List.mem_of_mem_take hx)) hmax)
  have hg : 89 ≤ maxGain l (maxIndex l) i ∨ 89 ≤ minGain l (minIndex l) i := by
    unfold trisSplit at h
    simp only [if_neg hne] at h
    obtain ⟨b1, e1, h⟩ := Outcome.bind_eq_ok.mp h
    have s1 := scanMax_sound b hmax l [] _ _ rfl (fun x hx => le_maxIndex hx) (by intro s hs; cases hs) e1
    cases h1 : b1.split with
    | some j =>
      rw [h1] at h
      cases h
      exact .inl (s1.split h1)
    | none =>
      rw [h1] at h
      obtain ⟨b2, e2, h⟩ := Outcome.bind_eq_ok.mp h
      refine .inr (Best.Sound.split ?_ (by simpa using h))
      refine scanMin_sound b l [] _ _ _ rfl (fun x hx => minIndex_le hx) ?_ (by decide) h64 (by simp) (by intro s hs; cases hs) e2
      have := minIndex_lt (l := l) (n := 2 ^ 32) (by positivity) hl
      omega
  obtain ⟨k, hk⟩ : ∃ k, l.length = i + k := ⟨l.length - i, by omega⟩
  have l1 : (l.take i).length = i := by rw [List.length_take]; omega
  have l2 : (l.drop i).length = k := by rw [List.length_drop]; omega
  simp only [spread, l1, l2, hk, maxGain, minGain] at hg ⊢
  generalize calcPrec (maxIndex (l.take i)) = p1 at *
  generalize calcPrec (maxIndex (l.drop i)) = p2 at *
  generalize calcPrec (maxIndex l) = p at *
  generalize calcPrec (minIndex (l.take i)) = q1 at *
  generalize calcPrec (minIndex (l.drop i)) = q2 at *
  generalize calcPrec (minIndex l) = q at *
  refine ⟨?_, ?_⟩
  · have e2 : (p2 - q2) * k ≤ (p - q) * k := Nat.mul_le_mul_right _ (by omega)
    rw [Nat.mul_add]
    rcases hg with hg | hg
    · have : (p1 - q1) * i + (p - p1) * i ≤ (p - q) * i := by
        rw [← Nat.add_mul]
        exact Nat.mul_le_mul_right _ (by omega)
      omega
    · have : (p1 - q1) * i + (q1 - q) * i ≤ (p - q) * i := by
        rw [← Nat.add_mul]
        exact Nat.mul_le_mul_right _ (by omega)
      omega
  · rw [Nat.mul_add, Nat.add_sub_cancel_left]
    exact Nat.add_le_add (Nat.mul_le_mul_right _ a1) (Nat.mul_le_mul_right _ a2)

/-- The number of pieces, and the bits of their indices. -/
theorem optTrisFuel_gain (b : Build) : ∀ (fuel : Nat) (l : List Nat) (ps : List (List Nat)), (∀ i ∈ l, i < 2 ^ 32) →
    optTrisFuel b fuel l = .ok ps → 89 * ps.length ≤ spread l + 89 ∧
      (ps.map fun p => calcPrec (maxIndex p) * p.length).sum ≤ calcPrec (maxIndex l) * l.length := by
  intro fuel
  induction fuel with
  | zero => intro l ps _ h; cases h
  | succ fuel ih =>
    intro l ps hl h
    rw [optTrisFuel] at h
    obtain ⟨o, ho, h⟩ := Outcome.bind_eq_ok.mp h
    cases o with
    | none => cases h; simp
    | some i =>
      obtain ⟨p1, e1, h⟩ := Outcome.bind_eq_ok.mp h
      obtain ⟨p2, e2, h⟩ := Outcome.bind_eq_ok.mp h
      cases h
      obtain ⟨g1, g2⟩ := trisSplit_gain hl ho
      obtain ⟨o, e, hi⟩ := trisSplit_ok b l hl
      rw [ho] at e
      cases e
      have hi := hi i rfl
      obtain ⟨a1, b1⟩ := ih _ _ (fun x hx => hl x (List.mem_of_mem_take hx)) e1
      obtain ⟨a2, b2⟩ := ih _ _ (fun x hx => hl x (List.mem_of_mem_drop hx)) e2
      rw [List.length_take, Nat.min_eq_left (by omega)] at b1
      rw [List.length_drop] at b2
      rw [List.length_append, List.map_append, List.sum_append]
      omega

theorem spread_le {l : List Nat} (hl : ∀ i ∈ l, i < 2 ^ 32) : spread l ≤ l.length * (Nat.log2 (l.foldr max 0) + 1) := by
  have hm : maxIndex l ≤ l.foldr max 0 := by
    refine maxIndex_le fun i hi => ?_
    induction l with
    | nil => cases hi
    | cons x l ih =>
      rw [List.foldr_cons]
      rcases List.mem_cons.mp hi with rfl | hi
      · exact le_max_left _ _
      · exact le_trans (ih (fun j hj => hl j (List.mem_cons_of_mem _ hj)) hi) (le_max_right _ _)
  have h64 : maxIndex l < 2 ^ 64 := lt_of_lt_of_le (maxIndex_lt (by positivity) hl) (by decide)
  have h1 : calcPrec (maxIndex l) ≤ Nat.log2 (l.foldr max 0) + 1 := calcPrec_le h64 (lt_of_le_of_lt hm Nat.lt_log2_self)
  rw [spread, Nat.mul_comm]
  exact Nat.mul_le_mul_left _ (le_trans (Nat.sub_le _ _) h1)

end Tmf
