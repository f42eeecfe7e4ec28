import Verif.Lemmas.Depth
/-
C85: how deep the calls of `opt_tris` nest.
-/

namespace Tmf.Props
variable {b : Build}

/-- The calls of `opt_tris` nest (at least) `d` deep: it calls itself on the two parts of an array. -/
inductive Nested (b : Build) : List Nat → Nat → Prop
  | one (l : List Nat) : Nested b l 1
  | first {l : List Nat} {i d : Nat} : trisSplit b l = .ok (some i) → Nested b (l.take i) d → Nested b l (d + 1)
  | second {l : List Nat} {i d : Nat} : trisSplit b l = .ok (some i) → Nested b (l.drop i) d → Nested b l (d + 1)

/-- `optTrisFuel` is `opt_tris` on a stack for so many calls: it fails when the calls nest deeper, and else gives the
result of `opt_tris`. -/
theorem C85_stack (n : Nat) : ∀ l : List Nat, (∀ i ∈ l, i < 2 ^ 32) →
    (optTrisFuel b n l = .panic ∧ Nested b l (n + 1)) ∨ (optTrisFuel b n l = optTris b l ∧ ∀ d, Nested b l d → d ≤ n) := by
  -- more room does not change a result
  have mono : ∀ (n : Nat) (l : List Nat) (ps : List (List Nat)), optTrisFuel b n l = .ok ps → ∀ m, n ≤ m → optTrisFuel b m l = .ok ps := by
    intro n
    induction n with
    | zero => intro l ps h; cases h
    | succ n ih =>
      intro l ps h m hm
      obtain ⟨m, rfl⟩ : ∃ k, m = k + 1 := ⟨m - 1, by omega⟩
      rw [optTrisFuel] at h ⊢
      obtain ⟨o, ho, h⟩ := Outcome.bind_eq_ok.mp h
      show (trisSplit b l).bind _ = _
      rw [ho]
      cases o with
      | none => exact h
      | some i =>
        obtain ⟨p1, e1, h⟩ := Outcome.bind_eq_ok.mp h
        obtain ⟨p2, e2, h⟩ := Outcome.bind_eq_ok.mp h
        show (optTrisFuel b m (l.take i)).bind _ = _
        rw [ih _ _ e1 m (by omega)]
        show (optTrisFuel b m (l.drop i)).bind _ = _
        rw [ih _ _ e2 m (by omega)]
        exact h
  have eqv : ∀ (n : Nat) (l : List Nat) (ps : List (List Nat)), (∀ i ∈ l, i < 2 ^ 32) → optTrisFuel b n l = .ok ps →
      optTris b l = .ok ps := by
    intro n l ps hl h
    obtain ⟨qs, e, -⟩ := optTris_ok b l hl
    have h1 := mono _ _ _ h (max n (l.length + 1)) (le_max_left _ _)
    rw [mono _ _ _ e (max n (l.length + 1)) (le_max_right _ _)] at h1
    rw [e, h1]
  induction n with
  | zero => intro l _; exact Or.inl ⟨rfl, .one l⟩
  | succ n ih =>
    intro l hl
    obtain ⟨o, ho, hi⟩ := trisSplit_ok b l hl
    have e : optTrisFuel b (n + 1) l = (trisSplit b l).bind fun split => match split with
      | some i => (optTrisFuel b n (l.take i)).bind fun r1 => (optTrisFuel b n (l.drop i)).bind fun r2 => .ok (r1 ++ r2)
      | none => .ok [l] := rfl
    rw [ho] at e
    cases o with
    | none =>
      refine Or.inr ⟨?_, ?_⟩
      · rw [eqv _ _ _ hl e]; exact e
      · intro d hd
        cases hd with
        | one => omega
        | first h _ => rw [ho] at h; cases h
        | second h _ => rw [ho] at h; cases h
    | some i =>
      have h1 := fun x (hx : x ∈ l.take i) => hl x (List.mem_of_mem_take hx)
      have h2 := fun x (hx : x ∈ l.drop i) => hl x (List.mem_of_mem_drop hx)
      obtain ⟨q1, k1, -⟩ := optTris_ok b _ h1
      obtain ⟨q2, k2, -⟩ := optTris_ok b _ h2
      change _ = (optTrisFuel b n (l.take i)).bind fun r1 => (optTrisFuel b n (l.drop i)).bind fun r2 => .ok (r1 ++ r2) at e
      rcases ih _ h1 with ⟨a1, c1⟩ | ⟨a1, c1⟩
      · rw [a1] at e
        exact Or.inl ⟨e, .first ho c1⟩
      · rw [a1, k1] at e
        change _ = (optTrisFuel b n (l.drop i)).bind fun r2 => .ok (q1 ++ r2) at e
        rcases ih _ h2 with ⟨a2, c2⟩ | ⟨a2, c2⟩
        · rw [a2] at e
          exact Or.inl ⟨e, .second ho c2⟩
        · rw [a2, k2] at e
          refine Or.inr ⟨?_, ?_⟩
          · rw [eqv _ _ _ hl e]; exact e
          · intro d hd
            cases hd with
            | one => omega
            | first h hd => rw [ho] at h; cases h; exact Nat.succ_le_succ (c1 _ hd)
            | second h hd => rw [ho] at h; cases h; exact Nat.succ_le_succ (c2 _ hd)

/-- Each nested call has lost 89 bits of the spread. -/
theorem nested_spread {l : List Nat} {d : Nat} (h : Nested b l d) (hl : ∀ i ∈ l, i < 2 ^ 32) : 89 * d ≤ spread l + 89 := by
  induction h with
  | one l => omega
  | first hs _ ih =>
    have := ih fun x hx => hl x (List.mem_of_mem_take hx)
    have := (trisSplit_gain hl hs).1
    omega
  | second hs _ ih =>
    have := ih fun x hx => hl x (List.mem_of_mem_drop hx)
    have := (trisSplit_gain hl hs).1
    omega

/-- C85 (partial: grows with the array): the calls nest at most as deep as one and a 89th of the bits of the array. A stack for so
many calls is enough. -/
theorem C85_partial {l : List Nat} (hl : ∀ i ∈ l, i < 2 ^ 32) {n : Nat}
    (hn : l.length * (Nat.log2 (l.foldr max 0) + 1) / 89 + 1 ≤ n) :
    optTrisFuel b n l = optTris b l ∧ ∀ d, Nested b l d → d ≤ n := by
  rcases C85_stack (b := b) n l hl with ⟨-, h⟩ | h
  · have h1 := nested_spread h hl
    have h2 := spread_le hl
    omega
  · exact h

/-- Nine indices, the first smaller than the others. -/
def rise : List Nat := 512 :: List.replicate 8 (2 ^ 19)

/-- Nine indices, the first larger than the others. -/
def fall : List Nat := 512 :: List.replicate 8 0

/-- `n` times nine indices, up and down in turns, then 27 more. -/
def zigzag : Bool → Nat → List Nat
  | up, n => (if up then rise else fall) ++ match n with
    | 0 => (if up then fall ++ rise else rise ++ fall)
    | n + 1 => zigzag (!up) n

theorem zigzag_succ (up : Bool) (n : Nat) : zigzag up (n + 1) = (if up then rise else fall) ++ zigzag (!up) n := by rw [zigzag]

theorem zigzag_zero (up : Bool) : zigzag up 0 = (if up then rise ++ (fall ++ rise) else fall ++ (rise ++ fall)) := by
  cases up <;> rfl

theorem zigzag_mem (up : Bool) (n : Nat) : ∀ i ∈ zigzag up n, i ≤ 2 ^ 19 := by
  induction n generalizing up with
  | zero => cases up <;> decide +kernel
  | succ n ih =>
    intro i hi
    rw [zigzag_succ] at hi
    rcases List.mem_append.mp hi with hi | hi
    · have : ∀ i ∈ (if up then rise else fall), i ≤ 2 ^ 19 := by cases up <;> decide +kernel
      exact this i hi
    · exact ih _ i hi

/-- The second nine indices go the other way, and others follow. -/
theorem zigzag_next (up : Bool) (n : Nat) : ∃ l, zigzag up n = (if up then rise ++ fall else fall ++ rise) ++ l := by
  cases n with
  | zero => exact ⟨if up then rise else fall, by cases up <;> rfl⟩
  | succ n =>
    cases n with
    | zero => exact ⟨if up then rise ++ fall else fall ++ rise, by cases up <;> rfl⟩
    | succ n => exact ⟨zigzag up n, by rw [zigzag_succ, zigzag_succ]; cases up <;> simp⟩

/-- Both are cut after the first nine. -/
theorem zigzag_cut (up : Bool) (n : Nat) : trisSplit b (zigzag up n) = .ok (some 9) := by
  obtain ⟨l, e⟩ := zigzag_next up n
  have h := zigzag_mem up n
  rw [e] at h ⊢
  cases up with
  | true =>
    refine trisSplit_min b (T := 2 ^ 19) (B := 0) (t := -88) (j := 0) (s := 2) (by decide) (by decide) h ?_ (by decide) (by decide)
      (by decide) (fun _ _ => Nat.zero_le _) ?_ (by decide)
    · cases b <;> decide +kernel
    · cases b <;> decide +kernel
  | false =>
    refine trisSplit_max b (T := 2 ^ 19) (s := 2) (by decide) (by decide) h ?_ (by decide)
    cases b <;> decide +kernel

theorem zigzag_nested (n : Nat) : ∀ up, Nested b (zigzag up n) (n + 2) := by
  induction n with
  | zero => intro up; exact .second (zigzag_cut up 0) (.one _)
  | succ n ih =>
    intro up
    refine .second (zigzag_cut up _) ?_
    rw [zigzag_succ, List.drop_append_of_le_length (by cases up <;> decide)]
    rw [show (if up then rise else fall).drop 9 = [] by cases up <;> rfl]
    exact ih _

theorem zigzag_length (up : Bool) (n : Nat) : (zigzag up n).length = 9 * n + 27 := by
  induction n generalizing up with
  | zero => cases up <;> rfl
  | succ n ih =>
    rw [zigzag_succ, List.length_append, ih, show (if up then rise else fall).length = 9 by cases up <;> rfl]
    omega

/-- C85 is false: no stack is large enough for all index arrays. Arrays that jump between three ranges of indices are cut off nine
indices at a time, and each of these cuts is one more nested call: it takes a stack for 1 + n calls to save 9 * n + 27 indices. -/
theorem C85_violated (n : Nat) : ∃ l, l.length = 9 * n + 27 ∧ (∀ i ∈ l, i < 2 ^ 20) ∧ Nested b l (n + 2) ∧
    optTrisFuel b (n + 1) l = .panic ∧ ∃ ps, optTris b l = .ok ps := by
  have hm := fun i hi => lt_of_le_of_lt (zigzag_mem true n i hi) (show 2 ^ 19 < 2 ^ 20 by decide)
  have hm' : ∀ i ∈ zigzag true n, i < 2 ^ 32 := fun i hi => lt_trans (hm i hi) (by decide)
  obtain ⟨ps, e, -⟩ := optTris_ok b _ hm'
  refine ⟨zigzag true n, zigzag_length _ _, hm, zigzag_nested n true, ?_, ps, e⟩
  rcases C85_stack (b := b) (n + 1) _ hm' with ⟨h, -⟩ | ⟨-, h⟩
  · exact h
  · have := h _ (zigzag_nested n true)
    omega

/-- C85 (partial), for all 32-bit indices: at most one call and 32 nested calls for 89 indices. -/
theorem C85_linear_partial {l : List Nat} (hl : ∀ i ∈ l, i < 2 ^ 32) {d : Nat} (h : Nested b l d) : 89 * d ≤ 32 * l.length + 89 := by
  have h1 := nested_spread h hl
  have h2 := spread_le hl
  have h3 : l.foldr max 0 < 2 ^ 32 := by
    clear h h1 h2
    induction l with
    | nil => decide
    | cons x l ih => exact max_lt (hl x (by simp)) (ih fun i hi => hl i (by simp [hi]))
  have h4 : Nat.log2 (l.foldr max 0) + 1 ≤ 32 := by
    by_cases h0 : l.foldr max 0 = 0
    · rw [h0]; decide
    · exact (Nat.log2_lt h0).mpr h3
  have := Nat.mul_le_mul_left l.length h4
  omega

/-- The hypotheses can be met: 45 indices, with four nested calls. -/
example : (∀ i ∈ zigzag true 2, i < 2 ^ 32) ∧ Nested .checked (zigzag true 2) 4 ∧ (zigzag true 2).length = 45 ∧
    optTrisFuel .checked 3 (zigzag true 2) = .panic ∧ optTrisFuel .checked 11 (zigzag true 2) =
      .ok [rise, fall, rise, fall, rise] := by
  refine ⟨fun i hi => lt_of_le_of_lt (zigzag_mem true 2 i hi) (by decide), zigzag_nested 2 true, rfl, ?_, ?_⟩ <;> decide +kernel

end Tmf.Props
