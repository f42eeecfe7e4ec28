import Verif.Lemmas.TrisGain
import Verif.Props.FileSize
/-
C43: what cutting index arrays does to the size of a file.
-/

namespace Tmf.Props
open Spec DecodedSegment
variable {fo : FloatOps} {fb : F64Bytes fo} {b : Build} {prec : PrecisionInfo fo.F}

theorem packed_sum (l : List Nat) : (l.map packed).sum ≤ packed l.sum + (l.length - 1) := by
  induction l with
  | nil => exact Nat.zero_le _
  | cons n l ih =>
    cases l with
    | nil => simp
    | cons m l =>
      simp only [List.map_cons, List.sum_cons, List.length_cons, packed] at ih ⊢
      omega

theorem packed_mono {m n : Nat} (h : m ≤ n) : packed m ≤ packed n := by
  simp only [packed]
  omega

/-- The bytes an index array takes as one segment. -/
def indexSegment (l : List Nat) : Nat := 6 + indexSize (maxIndex l) l.length

/-- C43 (partial: not smaller, but not much larger): every cut adds at most 24 bytes, and there is at most one cut for
89 bits of indices. -/
theorem C43_few_cuts_partial {l : List Nat} (hl : ∀ i ∈ l, i < 2 ^ 32) {ps : List (List Nat)} (h : optTris b l = .ok ps) :
    (ps.map indexSegment).sum + 24 ≤ indexSegment l + 24 * ps.length ∧ 89 * ps.length ≤ l.length * calcPrec (maxIndex l) + 89 := by
  obtain ⟨h1, h2⟩ := optTrisFuel_gain b _ _ _ hl h
  have h3 : spread l ≤ l.length * calcPrec (maxIndex l) := by
    rw [spread, Nat.mul_comm]
    exact Nat.mul_le_mul_left _ (Nat.sub_le _ _)
  refine ⟨?_, by omega⟩
  have h4 : (ps.map indexSegment).sum = 23 * ps.length + ((ps.map fun p => calcPrec (maxIndex p) * p.length).map packed).sum := by
    clear h h1 h2
    induction ps with
    | nil => rfl
    | cons p ps ih =>
      simp only [List.map_cons, List.sum_cons, List.length_cons, ih, indexSegment, indexSize, Nat.mul_comm p.length]
      omega
  have h5 := packed_sum (ps.map fun p => calcPrec (maxIndex p) * p.length)
  have h6 := packed_mono h2
  have h7 : 1 ≤ ps.length := by
    obtain ⟨qs, e, -, hn, -⟩ := optTris_ok b l hl
    rw [h] at e
    cases e
    exact List.length_pos_iff.mpr hn
  rw [List.length_map] at h5
  rw [h4, indexSegment, indexSize, Nat.mul_comm l.length]
  omega

/-- C43, so cutting makes an index array at most four times as large. -/
theorem C43_four_times_partial {l : List Nat} (hl : ∀ i ∈ l, i < 2 ^ 32) {ps : List (List Nat)} (h : optTris b l = .ok ps) :
    (ps.map indexSegment).sum ≤ 4 * indexSegment l := by
  obtain ⟨h1, h2⟩ := C43_few_cuts_partial hl h
  simp only [indexSegment, indexSize, packed] at h1 ⊢
  omega

/-- 46 zeros and one three. -/
def fewBits : List Nat := List.replicate 46 0 ++ [3]

theorem fewBits_cut : optTris b fewBits = .ok [List.replicate 45 0, [0, 3]] := by
  cases b <;> decide +kernel

/-- The hypotheses of both can be met, with a cut. -/
example : (∀ i ∈ fewBits, i < 2 ^ 32) ∧ optTris b fewBits = .ok [List.replicate 45 0, [0, 3]] ∧
    ([List.replicate 45 0, [0, 3]].map indexSegment).sum = 47 ∧ indexSegment fewBits = 35 :=
  ⟨by decide, fewBits_cut, by decide +kernel, by decide +kernel⟩

/-- 46 threes and a zero. -/
def highFirst : List Nat := List.replicate 46 3 ++ [0]

/-- C43 is false for both kinds of cuts: 47 indices that take 35 bytes in one segment are written in two segments that take 47 bytes. (The
gain of 90 bits is more than the 11 bytes the exporter counts for a segment, but a segment takes 23 bytes.) The second
reason for a cut, a larger minimum, does not save anything: all widths come from the maximum. -/
theorem C43_minimum_violated : ∃ l l' ps ps', optTris b l = .ok ps ∧ indexSegment l < (ps.map indexSegment).sum ∧
    optTris b l' = .ok ps' ∧ indexSegment l' < (ps'.map indexSegment).sum ∧
    (ps'.map fun p => p.length * calcPrec (maxIndex p)).sum = l'.length * calcPrec (maxIndex l') := by
  refine ⟨fewBits, highFirst, [List.replicate 45 0, [0, 3]], [List.replicate 45 3, [3, 0]], fewBits_cut, by decide +kernel, ?_,
    by decide +kernel, by decide +kernel⟩
  cases b <;> decide +kernel

/-- The same in whole files, in every build: the mesh with these indices takes 67 bytes and would take 55 with one
segment. -/
theorem C43_file_violated : ∃ m : Mesh fo.F, ∃ bytes, tmfBytes fo fb b prec [(m, [65])] = .ok bytes ∧
    m.vertexTriangles = some fewBits ∧ bytes.length = 67 ∧ 15 + (4 + 1) + indexSegment fewBits = 55 := by
  refine ⟨{ (Mesh.empty : Mesh fo.F) with vertexTriangles := some fewBits }, _,
    tmfBytes_of fo fb b prec (enc := [[⟨.vertexTriangle, .none, leBytes 1 0 ++ leBytes 8 45 ++ leBytes 8 0⟩,
      ⟨.vertexTriangle, .none, leBytes 1 2 ++ leBytes 8 2 ++ leBytes 8 0 ++ [48]⟩]]) ?_, rfl, rfl, by decide +kernel⟩
  have h1 : calcShortestEdge fo (some fewBits) none = .ok (fo.lit 1 1) := rfl
  have h2 : mergeSegments (meshSegs { (Mesh.empty : Mesh fo.F) with vertexTriangles := some fewBits }) = .ok [triVertex fewBits] := rfl
  have h3 : saveTriangles b (List.replicate 45 0) (maxIndex (List.replicate 45 0)) = .ok (leBytes 1 0 ++ leBytes 8 45 ++ leBytes 8 0) := by
    cases b <;> decide +kernel
  have h4 : saveTriangles b [0, 3] (maxIndex [0, 3]) = .ok (leBytes 1 2 ++ leBytes 8 2 ++ leBytes 8 0 ++ [48]) := by
    cases b <;> decide +kernel
  rw [Outcome.mapAll, encodeMesh]
  dsimp only [Mesh.getVertexTriangles, Mesh.getVertices]
  simp only [Mesh.empty] at h2 ⊢
  simp only [h1, h2, Outcome.bind_ok, Outcome.mapAll, optimize, fewBits_cut, List.map_cons, List.map_nil, List.flatten_cons, List.flatten_nil,
    List.append_nil, encode, h3, h4]

end Tmf.Props
