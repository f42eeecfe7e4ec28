import Verif.Lemmas.DecodedSize
import Verif.Lemmas.FileRoundTrip
/-
C44: how large a decoded segment can be.
-/

namespace Tmf.Props
open Spec

variable (fo : FloatOps) (fb : F64Bytes fo)

/-- C44 (part: segments whose elements take bits). A segment of `n` bytes decodes to at most
`8 n` elements. Missing: widths for which the bit reader takes nothing from the stream, where
the claim is false, see below. -/
theorem C44_decoded_size_partial {b : Build} {ctx : DecodeCtx} {seg : EncodedSegment} {d : DecodedSegment fo.F}
    (e : seg.decode fo fb b ctx = .ok d) (h : TakesBits seg.segType seg.data) : d.elements ≤ 8 * seg.data.length :=
  decode_size e h

/-- Three indices of two bits each. -/
example (b : Build) : (⟨.vertexTriangle, .none, [2] ++ leBytes 8 3 ++ leBytes 8 0 ++ [0x18]⟩ : EncodedSegment).decode
    fo fb b ⟨true⟩ = .ok (.triVertex [0, 1, 2]) ∧
    TakesBits .vertexTriangle ([2] ++ leBytes 8 3 ++ leBytes 8 0 ++ [0x18]) :=
  ⟨by cases b <;> rfl, by simp [TakesBits, PairWidth, byteAt]⟩

/-- C44 is false for uvs of width 0: nine bytes decode to any number of elements up to 2^31. -/
theorem C44_violated_uvs (b : Build) (ctx : DecodeCtx) {n : Nat} (hn : n ≤ 2 ^ 31) :
    (⟨.uv, .none, [0] ++ leBytes 8 n⟩ : EncodedSegment).decode fo fb b ctx =
      .ok (.uv (List.replicate n (fo.zero, fo.zero))) := by
  have h : readUvsHeader.runSlice ([0] ++ leBytes 8 n) = .ok ((0, n), []) := by
    rw [readUvsHeader, Prog.runSlice_bind, show ([0] : List UInt8) = leBytes 1 0 from rfl, Prog.runSlice_readU8 0 (by decide)]
    simp only [Outcome.bind_ok]
    rw [Prog.runSlice_bind]
    have := Prog.runSlice_readU64 n (show n < 2 ^ 64 by omega) []
    rw [List.append_nil] at this
    rw [this]
    simp only [Outcome.bind_ok]
    rw [if_neg (by simp [MAX_SEG_SIZE]; omega)]
    rfl
  simp only [EncodedSegment.decode, readUvs, h, Outcome.bind_ok, if_true]

theorem readIndexPairs_zero (b : Build) {w : Nat} (hw : w = 0 ∨ 64 ≤ w) :
    ∀ (k : Nat) (r : BitReader), readIndexPairs b w 0 k r = .ok (List.replicate (2 * k) 0, r)
  | 0, r => rfl
  | k + 1, r => by
    have hr : r.read w = .ok (0, r) := by unfold BitReader.read; rw [if_pos (by omega)]
    have h2 : r.read2 w = .ok ((0, 0), r) := by
      rcases hw with rfl | hw
      · rfl
      · rw [read2_large (by omega), hr, Outcome.bind_ok, hr, Outcome.bind_ok]
    have ha : addMin b 0 0 = .ok 0 := by cases b <;> rfl
    rw [readIndexPairs, h2, Outcome.bind_ok]
    dsimp only
    rw [ha, Outcome.bind_ok, Outcome.bind_ok, readIndexPairs_zero b hw k r]
    rfl

theorem readIndices_zero (b : Build) {w : Nat} (hw : w = 0 ∨ 64 ≤ w) (n : Nat) (r : BitReader) :
    readIndices b w 0 n r = .ok (List.replicate n 0) := by
  have hr : r.read w = .ok (0, r) := by unfold BitReader.read; rw [if_pos (by omega)]
  have ha : addMin b 0 0 = .ok 0 := by cases b <;> rfl
  rw [readIndices, readIndexPairs_zero b hw, Outcome.bind_ok]
  dsimp only
  split
  · rw [hr, Outcome.bind_ok]
    dsimp only
    rw [ha, Outcome.bind_ok]
    refine congrArg Outcome.ok ?_
    rw [← List.replicate_succ', show 2 * (n / 2) + 1 = n by omega]
  · rw [show 2 * (n / 2) = n by omega]

/-- C44 is false for index arrays of width 0 and of widths from 64 on: seventeen bytes decode to
any number of elements up to 2^31. -/
theorem C44_violated_indices (b : Build) {w n : Nat} (hw : w = 0 ∨ 64 ≤ w) (hw' : w < 256) (hn : n ≤ 2 ^ 31) :
    (⟨.vertexTriangle, .none, leBytes 1 w ++ leBytes 8 n ++ leBytes 8 0⟩ : EncodedSegment).decode fo fb b ⟨true⟩ =
      .ok (.triVertex (List.replicate n 0)) := by
  have h : (readTrianglesHeader ⟨true⟩).runSlice (leBytes 1 w ++ leBytes 8 n ++ leBytes 8 0) = .ok ((w, n, 0), []) := by
    have := readTrianglesHeader_declares (L := .new) (width := w) (len := n) (min := 0) hw' (by omega) (by decide) []
    rw [if_neg (by simp [MAX_SEG_SIZE]; omega)] at this
    rw [List.append_nil] at this
    exact this
  simp only [EncodedSegment.decode, decodeIndices, readDefaultTriangles, h, Outcome.bind_ok]
  by_cases h0 : w = 0
  · rw [if_pos h0]; rfl
  · rw [if_neg h0, readIndices_zero b hw]
    rfl

/-- C44 is false for whole files: for every `n` up to 2^31 there is a file of 35 bytes that loads
as a mesh of `n` uvs. -/
theorem C44_violated_file {n : Nat} (hn : n ≤ 2 ^ 31) : ∃ bytes : List UInt8, bytes.length = 35 ∧
    ∀ b sched, ∃ m : Mesh fo.F, readTmf fo fb b ⟨bytes, sched, false⟩ = .ok [(m, [65])] ∧
      m.uvs = some (List.replicate n (fo.zero, fo.zero)) := by
  let rm : RawMesh := ⟨[65], [⟨5, 0, [0] ++ leBytes 8 n⟩]⟩
  refine ⟨fileBytes 2 [rm], ?_, fun b sched => ?_⟩
  · rfl
  · have hf : RawMesh.Framed (layoutOf 2) rm := by
      refine ⟨⟨show 1 < 2 ^ 16 by decide, ⟨['A'], rfl⟩⟩, show 1 < 2 ^ 16 by decide, fun s hs => ?_⟩
      rcases List.mem_singleton.mp hs with rfl
      exact ⟨show 5 < 256 by decide, .inl rfl, show 9 ≤ 2 ^ 31 by decide⟩
    have := readTmf_file fo fb b (minMinor := 2) (le_refl 2) (meshes := [rm])
      (by intro m hm; rcases List.mem_singleton.mp hm with rfl; exact hf) (by simp) [] sched
    rw [List.append_nil] at this
    rw [this]
    refine ⟨{ (Mesh.empty : Mesh fo.F) with uvs := some (List.replicate n (fo.zero, fo.zero)) }, ?_, rfl⟩
    have ha : assembleMesh fo fb b ⟨true⟩ [⟨.uv, .none, [0] ++ leBytes 8 n⟩] =
        .ok { (Mesh.empty : Mesh fo.F) with uvs := some (List.replicate n (fo.zero, fo.zero)) } := by
      unfold assembleMesh
      rw [List.map_cons, List.map_nil, C44_violated_uvs fo fb b ⟨true⟩ hn]
      rfl
    simp only [Outcome.mapAll, rawMesh]
    have : (ctxOf (layoutOf 2)).decode = ⟨true⟩ := rfl
    rw [this]
    have : rm.segs.map encodedOf = [⟨.uv, .none, [0] ++ leBytes 8 n⟩] := rfl
    rw [this, ha]
    rfl

end Tmf.Props
