import Verif.Lemmas.Triangles
import Verif.Model.OptTris
/-
Lemmas about splitting index arrays.
-/

namespace Tmf

theorem calcSpiltScore_ok (b : Build) (len : Nat) {x y : Nat} (h : y ≤ x) (hx : x < 2 ^ 64) :
    calcSpiltScore b len (x, y) = .ok ((((calcPrec x - calcPrec y) * len : Nat) : Int) - 88) := by
  have := calcPrec_mono h hx
  simp only [calcSpiltScore]
  rw [if_neg (by omega)]

/-- What is known about the best split found so far when scanning `n` elements. -/
def Best.Good (best : Best) (n : Nat) : Prop :=
  ∀ s, best.score = some s → best.index < n ∧ (0 < s → 0 < best.index)

theorem Best.Good.update {best : Best} {n : Nat} (h : best.Good n) {i : Nat} (hi : i < n) (g : Nat) :
    (best.update i (((g * i : Nat) : Int) - 88)).Good n := by
  have key : (⟨some (((g * i : Nat) : Int) - 88), i⟩ : Best).Good n := by
    intro s hs
    simp only [Option.some.injEq] at hs
    refine ⟨hi, fun h0 => ?_⟩
    rcases Nat.eq_zero_or_pos i with rfl | h
    · simp at hs; omega
    · exact h
  unfold Best.update
  split
  · exact key
  · split
    · exact key
    · exact h

theorem Best.Good.mono {best : Best} {n m : Nat} (h : best.Good n) (hnm : n ≤ m) : best.Good m :=
  fun s hs => ⟨lt_of_lt_of_le (h s hs).1 hnm, (h s hs).2⟩

theorem scanMax_ok (b : Build) {T : Nat} (hT : T < 2 ^ 64) :
    ∀ (l : List Nat) (i m : Nat) (best : Best), m ≤ T → (∀ x ∈ l, x ≤ T) → best.Good (i + l.length) →
      ∃ best', scanMax b T i m l best = .ok best' ∧ best'.Good (i + l.length) := by
  intro l
  induction l with
  | nil => intro i m best _ _ hg; exact ⟨best, rfl, hg⟩
  | cons x l ih =>
    intro i m best hm hl hg
    have hx := hl x (by simp)
    have hmx : max m x ≤ T := by omega
    simp only [scanMax, calcSpiltScore_ok b i hmx hT, Outcome.bind_ok]
    have hlen : i + (x :: l).length = i + 1 + l.length := by simp; omega
    rw [hlen] at hg ⊢
    exact ih (i + 1) _ _ hmx (fun y hy => hl y (by simp [hy])) (hg.update (by omega) _)

theorem scanMin_ok (b : Build) {T : Nat} :
    ∀ (l : List Nat) (i m : Nat) (best : Best), T ≤ m → m < 2 ^ 64 → (∀ x ∈ l, T ≤ x) →
      best.Good (i + l.length) →
      ∃ best', scanMin b T i m l best = .ok best' ∧ best'.Good (i + l.length) := by
  intro l
  induction l with
  | nil => intro i m best _ _ _ hg; exact ⟨best, rfl, hg⟩
  | cons x l ih =>
    intro i m best hm hm64 hl hg
    have hx := hl x (by simp)
    have hmx : T ≤ min m x := by omega
    simp only [scanMin, calcSpiltScore_ok b i hmx (by omega), Outcome.bind_ok]
    have hlen : i + (x :: l).length = i + 1 + l.length := by simp; omega
    rw [hlen] at hg ⊢
    exact ih (i + 1) _ _ hmx (by omega) (fun y hy => hl y (by simp [hy])) (hg.update (by omega) _)

theorem Best.split_some {best : Best} {n i : Nat} (h : best.Good n) (hs : best.split = some i) :
    0 < i ∧ i < n := by
  unfold Best.split at hs
  split at hs
  · next s hsc =>
    split at hs
    · next hpos =>
      simp only [Option.some.injEq] at hs
      have := h s hsc
      subst hs
      exact ⟨this.2 hpos, this.1⟩
    · simp at hs
  · simp at hs

theorem trisSplit_ok (b : Build) (l : List Nat) (hl : ∀ i ∈ l, i < 2 ^ 32) :
    ∃ o, trisSplit b l = .ok o ∧ ∀ i, o = some i → 0 < i ∧ i < l.length := by
  have h0 : (⟨none, 0⟩ : Best).Good (0 + l.length) := by intro s hs; simp at hs
  have hmax : (if l = [] then 1 else maxIndex l) < 2 ^ 64 := by
    split
    · decide
    · exact lt_of_lt_of_le (maxIndex_lt (by positivity) hl) (by decide)
  obtain ⟨b1, e1, g1⟩ := scanMax_ok b hmax l 0 0 _ (by omega)
    (by
      intro x hx
      rw [if_neg (List.ne_nil_of_mem hx)]
      exact le_maxIndex hx) h0
  have hmin : (if l = [] then 1 else minIndex l) ≤ 2 ^ 32 - 1 := by
    split
    · decide
    · have := minIndex_lt (by positivity) hl; omega
  obtain ⟨b2, e2, g2⟩ := scanMin_ok b l 0 (2 ^ 32 - 1) _ hmin (by decide)
    (by
      intro x hx
      rw [if_neg (List.ne_nil_of_mem hx)]
      exact minIndex_le hx) h0
  unfold trisSplit
  simp only [e1, Outcome.bind_ok]
  rw [Nat.zero_add] at g1 g2
  cases h1 : b1.split with
  | some i => exact ⟨_, rfl, fun j hj => by simp only [Option.some.injEq] at hj; subst hj; exact b1.split_some g1 h1⟩
  | none =>
    simp only [e2, Outcome.bind_ok]
    exact ⟨_, rfl, fun j hj => b2.split_some g2 hj⟩

theorem optTrisFuel_ok (b : Build) : ∀ (fuel : Nat) (l : List Nat), l.length < fuel →
    (∀ i ∈ l, i < 2 ^ 32) →
    ∃ ps, optTrisFuel b fuel l = .ok ps ∧ ps.flatten = l ∧ ps ≠ [] ∧ (l ≠ [] → ∀ p ∈ ps, p ≠ []) := by
  intro fuel
  induction fuel with
  | zero => intro l h; omega
  | succ fuel ih =>
    intro l hlen hl
    obtain ⟨o, e, ho⟩ := trisSplit_ok b l hl
    rw [optTrisFuel, e]
    simp only [Outcome.bind_ok]
    cases o with
    | none => exact ⟨[l], rfl, by simp, by simp, fun h p hp => by simp at hp; subst hp; exact h⟩
    | some i =>
      obtain ⟨h0, hn⟩ := ho i rfl
      obtain ⟨p1, e1, f1, n1, a1⟩ := ih (l.take i) (by simp; omega) (fun x hx => hl x (List.mem_of_mem_take hx))
      obtain ⟨p2, e2, f2, n2, a2⟩ := ih (l.drop i) (by simp; omega) (fun x hx => hl x (List.mem_of_mem_drop hx))
      dsimp only
      rw [e1, e2]
      refine ⟨p1 ++ p2, rfl, by simp [f1, f2], by simp [n1], fun _ p hp => ?_⟩
      rcases List.mem_append.mp hp with hp | hp
      · apply a1 _ p hp
        intro h
        have := congrArg List.length h
        simp only [List.length_take, List.length_nil] at this
        omega
      · apply a2 _ p hp
        intro h
        have := congrArg List.length h
        simp only [List.length_drop, List.length_nil] at this
        omega

theorem optTris_ok (b : Build) (l : List Nat) (hl : ∀ i ∈ l, i < 2 ^ 32) :
    ∃ ps, optTris b l = .ok ps ∧ ps.flatten = l ∧ ps ≠ [] ∧ (l ≠ [] → ∀ p ∈ ps, p ≠ []) :=
  optTrisFuel_ok b _ l (by omega) hl

end Tmf
