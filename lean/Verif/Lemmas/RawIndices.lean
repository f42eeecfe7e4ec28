import Verif.Model.RawIndices
import Verif.Model.Basic
/-
Filling slots is reading a list.
-/

namespace Tmf

theorem Slots.write_at (pre : Slots) (s : Option Nat) (tail : Slots) (x : Nat) {i : Nat} (h : i = pre.length) :
    Slots.write (pre ++ s :: tail) i x = .ok (pre ++ some x :: tail) := by
  subst h
  rw [Slots.write, if_pos (by simp)]
  simp

theorem fillPairs_eq (k : Nat) (b : Build) (prec min : Nat) : ∀ (n index : Nat) (r : BitReader) (pre tail : Slots),
    pre.length = index * 2 → n * 2 ≤ tail.length →
    fillPairs k b prec min n index r (pre ++ tail) =
      (readIndexPairsIn k b prec min n r).bind fun p => .ok (pre ++ p.1.map some ++ tail.drop (n * 2), p.2)
  | 0, _, r, pre, tail, _, _ => by simp [fillPairs, readIndexPairsIn, Outcome.bind]
  | n + 1, index, r, pre, tail, h, ht => by
    match tail, ht with
    | [], ht => simp at ht
    | [_], ht => simp only [List.length_cons, List.length_nil] at ht; omega
    | s :: t :: tail, ht =>
      rw [fillPairs, readIndexPairsIn]
      show Outcome.bind (r.read2 prec) _ = Outcome.bind (Outcome.bind (r.read2 prec) _) _
      cases r.read2 prec with
      | panic => rfl
      | err e => rfl
      | ok p =>
        obtain ⟨⟨i1, i2⟩, r⟩ := p
        show Outcome.bind (addMinIn k b i1 min) _ = Outcome.bind (Outcome.bind (addMinIn k b i1 min) _) _
        cases addMinIn k b i1 min with
        | panic => rfl
        | err e => rfl
        | ok x =>
          show Outcome.bind (Slots.write _ _ _) _ = Outcome.bind (Outcome.bind _ _) _
          rw [Slots.write_at pre s (t :: tail) x h.symm]
          show Outcome.bind (addMinIn k b i2 min) _ = Outcome.bind (Outcome.bind (addMinIn k b i2 min) _) _
          cases addMinIn k b i2 min with
          | panic => rfl
          | err e => rfl
          | ok y =>
            show Outcome.bind (Slots.write _ _ _) _ = Outcome.bind (Outcome.bind _ _) _
            have e : pre ++ some x :: t :: tail = (pre ++ [some x]) ++ t :: tail := by simp
            rw [e, Slots.write_at (pre ++ [some x]) t tail y (by simp [h])]
            show fillPairs k b prec min n (index + 1) r _ = _
            have e2 : pre ++ [some x] ++ some y :: tail = (pre ++ [some x, some y]) ++ tail := by simp
            rw [e2, fillPairs_eq k b prec min n (index + 1) r _ tail (by simp [h, Nat.add_mul])
              (by simp only [List.length_cons] at ht; omega)]
            cases readIndexPairsIn k b prec min n r with
            | panic => rfl
            | err e => rfl
            | ok q =>
              have e3 : (n + 1) * 2 = n * 2 + 1 + 1 := by omega
              simp [Outcome.bind, e3]

theorem readIndexPairsIn_length (k : Nat) (b : Build) (prec min : Nat) : ∀ (n : Nat) (r : BitReader) {l : List Nat} {r' : BitReader},
    readIndexPairsIn k b prec min n r = .ok (l, r') → l.length = n * 2
  | 0, r, l, r', h => by
    rw [readIndexPairsIn] at h
    cases h; rfl
  | n + 1, r, l, r', h => by
    rw [readIndexPairsIn] at h
    simp only [Outcome.bind_eq_ok] at h
    obtain ⟨⟨⟨i1, i2⟩, r1⟩, -, x, -, y, -, ⟨l1, r2⟩, h1, h2⟩ := h
    cases h2
    simp [readIndexPairsIn_length k b prec min n r1 h1, Nat.add_mul]

/-- Reading all indices writes the first `length` slots. -/
theorem fillSlots_eq {k : Nat} (b : Build) {prec : Nat} (hp : prec ≠ 0) (min length : Nat) (bytes : List UInt8) (buf : Slots)
    (h : length ≤ buf.length) : fillSlots k b prec min length bytes buf =
      (readIndicesIn k b prec min length (.new (.slice bytes))).bind fun l => .ok (l.map some ++ buf.drop length) := by
  have h0 := fillPairs_eq k b prec min (length / 2) 0 (.new (.slice bytes)) [] buf rfl (by omega)
  rw [List.nil_append] at h0
  rw [fillSlots, if_neg hp, readIndicesIn, h0]
  cases hr : readIndexPairsIn k b prec min (length / 2) (.new (.slice bytes)) with
  | panic => rfl
  | err e => rfl
  | ok p =>
    obtain ⟨l, r⟩ := p
    have hl := readIndexPairsIn_length k b prec min _ _ hr
    show (if length % 2 ≠ 0 then _ else _) = Outcome.bind (if length % 2 ≠ 0 then _ else _) _
    by_cases ho : length % 2 ≠ 0
    · rw [if_pos ho, if_pos ho]
      show Outcome.bind (r.read prec) _ = Outcome.bind (Outcome.bind (r.read prec) _) _
      cases r.read prec with
      | panic => rfl
      | err e => rfl
      | ok q =>
        show Outcome.bind (addMinIn k b q.1 min) _ = Outcome.bind (Outcome.bind (addMinIn k b q.1 min) _) _
        cases addMinIn k b q.1 min with
        | panic => rfl
        | err e => rfl
        | ok x =>
          show Slots.write _ _ _ = .ok _
          have hd : ∃ s, buf.drop (length / 2 * 2) = s :: buf.drop length := by
            have := List.drop_eq_getElem_cons (l := buf) (i := length / 2 * 2) (by omega)
            rw [show length / 2 * 2 + 1 = length by omega] at this
            exact ⟨_, this⟩
          obtain ⟨s, hs⟩ := hd
          rw [List.nil_append, hs, Slots.write_at _ s _ x (by simp [hl]; omega)]
          simp
    · rw [if_neg ho, if_neg ho]
      show Outcome.ok _ = Outcome.ok _
      rw [show length / 2 * 2 = length by omega]
      rfl

theorem readIndicesIn_length {k : Nat} {b : Build} {prec min length : Nat} {r : BitReader} {l : List Nat}
    (h : readIndicesIn k b prec min length r = .ok l) : l.length = length := by
  rw [readIndicesIn] at h
  simp only [Outcome.bind_eq_ok] at h
  obtain ⟨⟨l1, r1⟩, h1, h2⟩ := h
  have hl := readIndexPairsIn_length k b prec min _ _ h1
  by_cases ho : length % 2 ≠ 0
  · rw [if_pos ho] at h2
    simp only [Outcome.bind_eq_ok] at h2
    obtain ⟨⟨i, r2⟩, -, x, -, h3⟩ := h2
    cases h3
    simp [hl]; omega
  · rw [if_neg ho] at h2
    cases h2
    show l1.length = length
    omega

end Tmf
