import Verif.Model.DecodeParts
/-
C84: branches marked as unreachable never run.
-/

namespace Tmf.Props
open DecodedSegment

variable {fo : FloatOps} {fb : F64Bytes fo} {b : Build} {ctx : DecodeCtx}

/-- C84, loader: for every segment, of every type, `decode` gives what it gives without the branches marked as
unreachable. -/
theorem C84_decode (seg : EncodedSegment) : seg.decodeCalls fo fb b ctx = seg.decode fo fb b ctx := by
  obtain ⟨t, c, d⟩ := seg
  cases t <;> simp [EncodedSegment.decodeCalls, EncodedSegment.decode, decodeVertexSeg, decodeUvSeg, decodeNormalSeg, decodeCustomSeg,
    decodeTriangleSeg, SectionType.isTriangle]

/-- C84, exporter: merging two segments gives what it gives without `unwrap`, and never reaches the `todo!` of
`shared_kind`. -/
theorem C84_merge {F : Type} (self other : DecodedSegment F) :
    self.mergeCalls other = self.merge other ∧ self.mergeCalls other ≠ .panic := by
  cases other <;> cases self <;>
    simp [mergeCalls, merge, mergeArmCalls, mergeArm, asTriangles, unwrap, sharedKind] <;> split <;> simp

/-- C84: the branches are there. Each function stops the program when it is called with a segment of another
type. -/
theorem C84_guards (seg : EncodedSegment) :
    (seg.segType ≠ .vertex → decodeVertexSeg fo fb seg = .panic) ∧ (seg.segType ≠ .uv → decodeUvSeg fo seg = .panic) ∧
      (seg.segType ≠ .normal → decodeNormalSeg fo seg = .panic) ∧
      (seg.segType.isTriangle = false → (decodeTriangleSeg b ctx seg : Outcome ImportError (DecodedSegment fo.F)) = .panic) ∧
      (seg.segType = .sharedTriangle → ∀ l, decodeIndices b ctx seg = .ok l →
        (decodeTriangleSeg b ctx seg : Outcome ImportError (DecodedSegment fo.F)) = .panic) := by
  refine ⟨fun h => if_neg h, fun h => if_neg h, fun h => if_neg h, fun h => ?_, fun h l hl => ?_⟩
  · rw [decodeTriangleSeg, h]; rfl
  · rw [decodeTriangleSeg, h, hl]; rfl

/-! ### Examples -/

/-- The index arrays of vertices and normals are shared, those of uv coordinates are not looked at. -/
example : (triVertex [0, 1, 2] : DecodedSegment Nat).mergeCalls (triNormal [0, 1, 2]) = .ok (shared 3 [0, 1, 2], nothing) ∧
    (triVertex [0, 1, 2] : DecodedSegment Nat).mergeCalls (triUv [0, 1, 2]) = .ok (triVertex [0, 1, 2], triUv [0, 1, 2]) := by
  decide

/-- Shared indices would stop `decode_triangle_seg`, but `decode` does not call it. -/
example : (decodeTriangleSeg .checked ⟨false⟩ ⟨.sharedTriangle, .none, [0, 1, 0, 0, 0, 0, 0, 0, 0]⟩ : Outcome ImportError (DecodedSegment Nat)) = .panic ∧
    (decodeShared .checked ⟨false⟩ ⟨.sharedTriangle, .none, [3, 0, 1, 0, 0, 0, 0, 0, 0, 0]⟩ : Outcome ImportError (DecodedSegment Nat)) =
      .ok (.shared 3 [0]) := by decide +kernel

end Tmf.Props
