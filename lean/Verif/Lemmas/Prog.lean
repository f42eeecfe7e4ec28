import Verif.Lemmas.Bytes
/-
Programs that read through `read_exact`: independence of chunking, of what follows the bytes
used, and behaviour on truncated input.
-/

namespace Tmf

theorem Source.readExactLoop_spec : ∀ (fuel n : Nat) (acc : List UInt8) (s : Source), n ≤ fuel →
    (n ≤ s.bytes.length → ∃ s', Source.readExactLoop fuel n acc s = .ok (acc ++ s.bytes.take n, s') ∧
      s'.bytes = s.bytes.drop n ∧ s'.broken = s.broken) ∧
    (s.bytes.length < n → Source.readExactLoop fuel n acc s = .err s.endError) := by
  intro fuel
  induction fuel with
  | zero =>
    intro n acc s hn
    obtain rfl : n = 0 := by omega
    simp [readExactLoop]
  | succ fuel ih =>
    intro n acc s hn
    cases n with
    | zero => simp [readExactLoop]
    | succ n =>
      have hpos := s.chunk_pos (n := n + 1) (by omega)
      have hle := s.chunk_le (n + 1)
      by_cases he : s.bytes = []
      · constructor
        · intro h; rw [he] at h; simp at h
        · intro _
          unfold readExactLoop Source.read Source.endError
          cases hb : s.broken <;> simp [he]
      · have hlen : 0 < s.bytes.length := List.length_pos_iff.mpr he
        have hread : s.read (n + 1) = .ok (s.bytes.take (s.chunk (n + 1)),
            { s with bytes := s.bytes.drop (s.chunk (n + 1)), sched := s.sched.tail }) := by
          rw [Source.read, if_neg (by simp [he])]
        have hne : s.bytes.take (s.chunk (n + 1)) ≠ [] := by
          rw [← List.length_pos_iff, List.length_take]; omega
        unfold readExactLoop
        rw [hread]
        simp only [Outcome.bind_ok, if_neg hne]
        obtain ⟨h1, h2⟩ := ih (n + 1 - (s.bytes.take (s.chunk (n + 1))).length)
          (acc ++ s.bytes.take (s.chunk (n + 1)))
          { s with bytes := s.bytes.drop (s.chunk (n + 1)), sched := s.sched.tail }
          (by rw [List.length_take]; omega)
        constructor
        · intro h
          obtain ⟨s', e, hb, hbr⟩ := h1 (by simp only [List.length_take, List.length_drop]; omega)
          refine ⟨s', ?_, ?_, hbr⟩
          · rw [e]
            simp only [List.length_take, List.append_assoc]
            congr 3
            have : min (s.chunk (n + 1)) s.bytes.length = s.chunk (n + 1) := by omega
            rw [this]
            conv_rhs => rw [show n + 1 = s.chunk (n + 1) + (n + 1 - s.chunk (n + 1)) by omega, List.take_add]
          · rw [hb]
            simp only [List.length_take, List.drop_drop]
            congr 1
            omega
        · intro h
          rw [h2 (by simp only [List.length_take, List.length_drop]; omega)]
          rfl

theorem Source.readExact_ok {s : Source} {n : Nat} (h : n ≤ s.bytes.length) :
    ∃ s', s.readExact n = .ok (s.bytes.take n, s') ∧ s'.bytes = s.bytes.drop n ∧ s'.broken = s.broken := by
  simpa [Source.readExact] using (Source.readExactLoop_spec n n [] s (le_refl n)).1 h

theorem Source.readExact_err {s : Source} {n : Nat} (h : s.bytes.length < n) :
    s.readExact n = .err s.endError :=
  (Source.readExactLoop_spec n n [] s (le_refl n)).2 h

namespace Prog
variable {α β : Type}

/-- Running against a reader that ends with end of file is the same as running against a slice. -/
theorem run_eq (p : Prog α) : ∀ (s : Source), s.broken = false →
    match p.runSlice s.bytes with
    | .ok (a, rest) => ∃ s', p.run s = .ok (a, s') ∧ s'.bytes = rest ∧ s'.broken = false
    | .err e => p.run s = .err e
    | .panic => p.run s = .panic := by
  induction p with
  | ret a => intro s hs; exact ⟨s, rfl, rfl, hs⟩
  | fail e => intro s _; rfl
  | panic => intro s _; rfl
  | readExact n k ih =>
    intro s hs
    rw [runSlice_readExact]
    by_cases h : n ≤ s.bytes.length
    · rw [if_pos h]
      obtain ⟨s', e, hb, hbr⟩ := Source.readExact_ok h
      simp only [run, e]
      have := ih (s.bytes.take n) s' (by rw [hbr, hs])
      rw [hb] at this
      exact this
    · rw [if_neg h]
      simp only [run, Source.readExact_err (Nat.lt_of_not_le h), Source.endError, hs]
      rfl

/-- Two readers with the same content give the same result. -/
theorem run_congr (p : Prog α) : ∀ (s t : Source), s.bytes = t.bytes → s.broken = t.broken →
    Outcome.Rel (fun x y => x.1 = y.1 ∧ x.2.bytes = y.2.bytes ∧ x.2.broken = y.2.broken) (p.run s) (p.run t) := by
  induction p with
  | ret a => intro s t h1 h2; exact ⟨rfl, h1, h2⟩
  | fail e => intro s t _ _; exact rfl
  | panic => intro s t _ _; trivial
  | readExact n k ih =>
    intro s t h1 h2
    by_cases h : n ≤ s.bytes.length
    · obtain ⟨s', e, hb, hbr⟩ := Source.readExact_ok h
      obtain ⟨t', e', hb', hbr'⟩ := Source.readExact_ok (h1 ▸ h)
      simp only [run, e, e']
      rw [h1]
      exact ih _ _ _ (by rw [hb, hb', h1]) (by rw [hbr, hbr', h2])
    · have h' : ¬ n ≤ t.bytes.length := h1 ▸ h
      simp only [run, Source.readExact_err (Nat.lt_of_not_le h), Source.readExact_err (Nat.lt_of_not_le h'),
        Source.endError, h2]
      exact rfl

/-- A run that succeeds uses a prefix of the input; what follows does not matter, and every proper
prefix of what it used makes it fail with end of file. -/
theorem runSlice_prefix (p : Prog α) : ∀ {l : List UInt8} {a : α} {rest : List UInt8},
    p.runSlice l = .ok (a, rest) → ∃ used, l = used ++ rest ∧
      (∀ l', p.runSlice (used ++ l') = .ok (a, l')) ∧
      (∀ n, n < used.length → p.runSlice (used.take n) = .err eof) := by
  induction p with
  | ret a =>
    intro l a' rest h
    simp only [runSlice_ret, Outcome.ok.injEq, Prod.mk.injEq] at h
    obtain ⟨rfl, rfl⟩ := h
    exact ⟨[], rfl, fun _ => rfl, by simp⟩
  | fail e => intro l a' rest h; simp at h
  | panic => intro l a' rest h; simp at h
  | readExact n k ih =>
    intro l a rest h
    rw [runSlice_readExact] at h
    split at h
    · next hn =>
      obtain ⟨used, hu, h1, h2⟩ := ih _ h
      refine ⟨l.take n ++ used, ?_, ?_, ?_⟩
      · rw [List.append_assoc, ← hu, List.take_append_drop]
      · intro l'
        rw [List.append_assoc, runSlice_readExact_append _ (by simp [hn])]
        exact h1 l'
      · intro m hm
        by_cases hmn : m < n
        · rw [runSlice_readExact, if_neg]
          rw [List.length_take]; omega
        · have hlt : (l.take n).length = n := by simp [hn]
          rw [List.take_append, hlt, List.take_of_length_le (by omega), runSlice_readExact_append _ hlt]
          apply h2
          simp only [List.length_append, hlt] at hm
          omega
    · simp at h

/-- A run that fails for lack of input, or panics, or fails otherwise, on more input. -/
theorem runSlice_append (p : Prog α) (l suffix : List UInt8) :
    match p.runSlice l with
    | .ok (a, rest) => p.runSlice (l ++ suffix) = .ok (a, rest ++ suffix)
    | .err e => e = eof ∨ p.runSlice (l ++ suffix) = .err e
    | .panic => p.runSlice (l ++ suffix) = .panic := by
  induction p generalizing l with
  | ret a => rfl
  | fail e => right; rfl
  | panic => rfl
  | readExact n k ih =>
    rw [runSlice_readExact]
    by_cases h : n ≤ l.length
    · rw [if_pos h]
      have := ih (l.take n) (l.drop n)
      rw [runSlice_readExact, if_pos (by simp; omega), List.take_append_of_le_length h,
        List.drop_append_of_le_length h]
      exact this
    · rw [if_neg h]; left; rfl

end Prog

end Tmf
