import Verif.Lemmas.RawIndices
import Verif.Lemmas.IndexWidth
/-
C83: the loader only exposes memory that was written to.
-/

namespace Tmf.Props

variable {k : Nat} {b : Build} {ctx : DecodeCtx} {alloc : Nat → Slots}

/-- What the loader leaves in a vector, by the indices it read. -/
theorem raw_eq (h : ∀ n, n ≤ (alloc n).length) (data : List Nat) (bytes : List UInt8) :
    readDefaultTrianglesRaw k b ctx alloc data bytes =
      (readDefaultTrianglesIn k b ctx bytes).bind fun l => .ok ((data ++ l).map some |>.take l.length) := by
  rw [readDefaultTrianglesRaw, readDefaultTrianglesIn]
  cases (readTrianglesHeader ctx).runSlice bytes with
  | panic => rfl
  | err e => rfl
  | ok p =>
    obtain ⟨⟨precision, length, min⟩, rest⟩ := p
    show Outcome.bind (fillSlots k b precision min length rest (alloc length)) _ = Outcome.bind (if precision = 0 then _ else _) _
    by_cases hp : precision = 0
    · rw [if_pos hp, fillSlots, if_pos hp]
      show Outcome.ok _ = Outcome.ok _
      congr 1
      have e : ((alloc length).map fun _ => some 0) = List.replicate length (some 0) ++ List.replicate ((alloc length).length - length) (some 0) := by
        rw [List.map_const', ← List.replicate_add]
        congr 1
        have := h length
        omega
      rw [e, List.map_append, List.map_replicate, List.length_replicate, ← List.append_assoc,
        List.take_append_of_le_length (by simp)]
    · rw [if_neg hp, fillSlots_eq b hp min length rest _ (h length)]
      cases hr : readIndicesIn k b precision min length (.new (.slice rest)) with
      | panic => rfl
      | err e => rfl
      | ok l =>
        have hl := readIndicesIn_length hr
        show Outcome.ok _ = Outcome.ok _
        congr 1
        rw [← List.append_assoc, ← List.map_append, List.take_append_of_le_length (by simp [hl]), hl]

/-- C83: whatever `reserve` finds in memory, as long as it is as much as asked for, the loader reads the same
indices as the function on lists, and no write is outside the memory. -/
theorem C83_same (h : ∀ n, n ≤ (alloc n).length) (bytes : List UInt8) :
    readDefaultTrianglesRaw k b ctx alloc [] bytes = (readDefaultTrianglesIn k b ctx bytes).bind fun l => .ok (l.map some) := by
  rw [raw_eq h]
  congr 1
  funext l
  rw [List.nil_append, List.take_of_length_le (by simp)]

/-- C83 with the default type of indices. -/
theorem C83_default (h : ∀ n, n ≤ (alloc n).length) (bytes : List UInt8) :
    readDefaultTrianglesRaw 32 b ctx alloc [] bytes = (readDefaultTriangles b ctx bytes).bind fun l => .ok (l.map some) := by
  rw [C83_same h, readDefaultTrianglesIn_default]

/-- C83: every slot that `set_len` makes part of the vector was written to, and the vector is as long as the file
says and not longer than its memory; also if the vector was not empty. -/
theorem C83_initialised (h : ∀ n, n ≤ (alloc n).length) {data : List Nat} {bytes : List UInt8} {slots : Slots}
    (hr : readDefaultTrianglesRaw k b ctx alloc data bytes = .ok slots) :
    (∀ s ∈ slots, s ≠ none) ∧ slots.length ≤ data.length + (alloc slots.length).length ∧
      ∃ precision min rest, (readTrianglesHeader ctx).runSlice bytes = .ok ((precision, slots.length, min), rest) := by
  rw [raw_eq h] at hr
  obtain ⟨l, hl, hs⟩ := Outcome.bind_eq_ok.mp hr
  cases hs
  have hlen : (((data ++ l).map some).take l.length).length = l.length := by simp
  refine ⟨fun s hs => ?_, ?_, ?_⟩
  · obtain ⟨x, -, rfl⟩ := List.mem_map.mp (List.mem_of_mem_take hs)
    exact Option.some_ne_none x
  · have := h l.length
    rw [hlen]
    omega
  · rw [hlen]
    rw [readDefaultTrianglesIn] at hl
    obtain ⟨⟨⟨precision, length, min⟩, rest⟩, h1, h2⟩ := Outcome.bind_eq_ok.mp hl
    refine ⟨precision, min, rest, ?_⟩
    have : l.length = length := by
      dsimp only at h2
      by_cases hp : precision = 0
      · rw [if_pos hp] at h2
        cases h2
        simp
      · rw [if_neg hp] at h2
        exact readIndicesIn_length h2
    rw [this]
    exact h1

/-- C83: the indices do not depend on what was in the memory, nor on how much more of it there is than asked for. -/
theorem C83_memory {alloc' : Nat → Slots} (h : ∀ n, n ≤ (alloc n).length) (h' : ∀ n, n ≤ (alloc' n).length) (data : List Nat)
    (bytes : List UInt8) : readDefaultTrianglesRaw k b ctx alloc data bytes = readDefaultTrianglesRaw k b ctx alloc' data bytes := by
  rw [raw_eq h, raw_eq h']

/-! ### Examples -/

/-- Memory with one slot more than asked for, nothing written to any of them. -/
def freshSlots (n : Nat) : Slots := List.replicate (n + 1) none

example : ∀ n, n ≤ (freshSlots n).length := by intro n; simp [freshSlots]

/-- Three indices of 8 bits. -/
example : readDefaultTrianglesRaw 32 .checked ⟨false⟩ freshSlots [] [8, 3, 0, 0, 0, 0, 0, 0, 0, 5, 6, 7] =
    .ok [some 5, some 6, some 7] := by decide +kernel

/-- Indices of no bits. -/
example : readDefaultTrianglesRaw 32 .checked ⟨false⟩ freshSlots [] [0, 3, 0, 0, 0, 0, 0, 0, 0] =
    .ok [some 0, some 0, some 0] := by decide +kernel

/-- A file that ends early: the vector is left as it was, and no slot is exposed. -/
example : readDefaultTrianglesRaw 32 .checked ⟨false⟩ freshSlots [] [8, 3, 0, 0, 0, 0, 0, 0, 0, 5] = .err eof := by
  decide +kernel

end Tmf.Props
