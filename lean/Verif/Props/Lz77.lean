import Verif.Lemmas.Lz77
import Verif.Lemmas.Triangles
import Verif.Spec.Arrays
/-
C45: the LZ77 stage.
-/

namespace Tmf.Props
open Spec

/-- C45 (widths up to 63 bits; 64 is refuted below). Compressing an array whose values and length fit the width, and decompressing the result,
returns the array, whatever bytes follow and however the source is chunked. -/
theorem C45_roundtrip_partial (b b' : Build) (prec : Nat) (hp : prec ≤ 63) (data : List Nat) (hv : ∀ v ∈ data, v < 2 ^ prec)
    (hl : data.length ≤ 2 ^ prec) (suffix : List UInt8) (sched : List Nat) (broken : Bool) :
    ∃ bytes, saveCompressedArray b prec data = .ok bytes ∧
      readCompressedArray b' prec data.length ⟨bytes ++ suffix, sched, broken⟩ = .ok data := by
  unfold saveCompressedArray readCompressedArray
  obtain ⟨w, e, hi, hc⟩ := BitWriter.writeAll_spec b (lzFields prec data data.length 0)
    (lzFields_width prec data (by omega) _ _) BitWriter.inv_new
  rw [saveCompressedLoop_eq, e]
  refine ⟨w.finish, rfl, ?_⟩
  obtain ⟨pad, _, hf⟩ := BitWriter.finish_bits hi
  have hlen := congrArg List.length hf
  rw [hc] at hf hlen
  simp only [BitWriter.content_new, List.nil_append, List.length_append, length_byteBits, List.length_replicate] at hf hlen
  refine readCompressedLoop_ok b' (by omega) data hv hl data.length _ 0 _ (List.replicate pad false ++ byteBits suffix)
    (by omega) (by omega) ?_ (BitReader.inv_new _) ?_
  · simp only [List.length_append]; omega
  · rw [BitReader.rem_new]; simp [hf]

/-- Values and length fit, and the run of fives is compressed to an overlapping match. -/
example : (∀ v ∈ [1, 5, 5, 5, 5, 5, 5, 2], v < 2 ^ 3) ∧ [1, 5, 5, 5, 5, 5, 5, 2].length ≤ 2 ^ 3 ∧
    findLongestMatch [1, 5, 5, 5, 5, 5, 5, 2] 2 127 = (1, 5) := by decide

/-- C45, index arrays: the width, the length and the smallest index are stored in front (1, 8 and 8 bytes), and what is read back plus
the smallest index are the indices. -/
theorem C45_triangles_partial (b b' : Build) (l : List Nat) (maxIdx : Nat) (hm : ∀ i ∈ l, i ≤ maxIdx) (hx : maxIdx < 2 ^ 63)
    (hl : l.length ≤ maxIdx + 1) (suffix : List UInt8) (sched : List Nat) (broken : Bool) :
    ∃ w least bytes diffs, Fits maxIdx w ∧ (∀ w', Fits maxIdx w' → w ≤ w') ∧ (∀ i ∈ l, least ≤ i) ∧ (l ≠ [] → least ∈ l) ∧
      saveTrianglesLzz b l maxIdx = .ok (leBytes 1 w ++ leBytes 8 l.length ++ leBytes 8 least ++ bytes) ∧
      readCompressedArray b' w l.length ⟨bytes ++ suffix, sched, broken⟩ = .ok diffs ∧ diffs.map (least + ·) = l := by
  have h64 : maxIdx < 2 ^ 64 := lt_trans hx (by decide)
  have hw := (calcPrec_spec h64).1
  have hp : calcPrec maxIdx ≤ 63 := calcPrec_le h64 hx
  obtain ⟨bytes, e1, e2⟩ := C45_roundtrip_partial b b' (calcPrec maxIdx) hp (l.map (· - minIndex l))
    (by
      intro v hv
      obtain ⟨i, hi, rfl⟩ := List.mem_map.mp hv
      exact lt_of_le_of_lt (le_trans (Nat.sub_le _ _) (hm i hi)) hw)
    (by rw [List.length_map]; exact le_trans hl hw) suffix sched broken
  rw [List.length_map] at e2
  refine ⟨calcPrec maxIdx, minIndex l, bytes, _, hw, fun w' h => calcPrec_le h64 h, fun i hi => minIndex_le hi,
    fun h => minIndex_mem h, ?_, e2, ?_⟩
  · rw [saveTrianglesLzz]
    rw [e1]
    rfl
  · rw [List.map_map]
    conv_rhs => rw [← List.map_id l]
    refine List.map_congr_left fun i hi => ?_
    have := minIndex_le hi
    show minIndex l + (i - minIndex l) = i
    omega

/-- The hypotheses can be met, with a repetition. -/
example : (∀ i ∈ [5, 6, 5, 6, 5, 6], i ≤ 6) ∧ [5, 6, 5, 6, 5, 6].length ≤ 6 + 1 ∧
    saveTrianglesLzz .checked [5, 6, 5, 6, 5, 6] 6 = .ok ([3, 6, 0, 0, 0, 0, 0, 0, 0, 5, 0, 0, 0, 0, 0, 0, 0] ++ [137, 68]) := by
  refine ⟨by decide, by decide, ?_⟩
  decide +kernel

/-- The length must fit: with one bit per value, a run of five zeros is stored as a match of length
`4 mod 2`, and the array cannot be read back. -/
theorem C45_length_needed (b b' : Build) : ∃ data : List Nat, (∀ v ∈ data, v < 2 ^ 1) ∧
    ∃ bytes, saveCompressedArray b 1 data = .ok bytes ∧
      readCompressedArray b' 1 data.length (.slice bytes) ≠ .ok data :=
  ⟨[0, 0, 0, 0, 0], by decide, _, by cases b <;> rfl, by cases b' <;> decide⟩

/-- C45 is false at 64 bits, where the reader delivers zeros. -/
theorem C45_width64_violated (b b' : Build) : ∃ data : List Nat, (∀ v ∈ data, v < 2 ^ 64) ∧ data.length ≤ 2 ^ 64 ∧
    ∃ bytes, saveCompressedArray b 64 data = .ok bytes ∧
      readCompressedArray b' 64 data.length (.slice bytes) ≠ .ok data :=
  ⟨[1], by decide, by decide, _, by cases b <;> rfl, by cases b' <;> decide⟩

end Tmf.Props
