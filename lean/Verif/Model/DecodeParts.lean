import Verif.Model.Segments
/-
`decode` and `merge` as they are spread over functions in the code, with the branches that are marked as
unreachable: src/tmf.rs:43-52,209-285,406-453 and src/tmf_importer.rs:205-257,297-338. `Model/Segments` has the
same functions without these branches.
-/

namespace Tmf

/-- `is_triangle`, src/tmf.rs:43-52. -/
def SectionType.isTriangle : SectionType → Bool
  | vertexTriangle | normalTriangle | uvTriangle | tangentTriangle | sharedTriangle => true
  | _ => false

variable (fo : FloatOps) (fb : F64Bytes fo) (b : Build) (ctx : DecodeCtx)

/-- `decode_vertex_seg`, src/tmf_importer.rs:205-216. -/
def decodeVertexSeg (seg : EncodedSegment) : Outcome ImportError (DecodedSegment fo.F) :=
  if seg.segType = .vertex then do
    let l ← readVertices fo fb seg.data
    .ok (.vertex l)
  else .panic

/-- `decode_uv_seg`, src/tmf_importer.rs:217-224. -/
def decodeUvSeg (seg : EncodedSegment) : Outcome ImportError (DecodedSegment fo.F) :=
  if seg.segType = .uv then do
    let l ← readUvs fo seg.data
    .ok (.uv l)
  else .panic

/-- `decode_normal_seg`, src/tmf_importer.rs:225-236. -/
def decodeNormalSeg (seg : EncodedSegment) : Outcome ImportError (DecodedSegment fo.F) :=
  if seg.segType = .normal then do
    let l ← readNormals fo seg.data
    .ok (.normal l)
  else .panic

/-- `decode_custom_seg`, src/tmf_importer.rs:237-257. -/
def decodeCustomSeg (seg : EncodedSegment) : Outcome ImportError (DecodedSegment fo.F) :=
  if seg.segType = .customIndex ∨ seg.segType = .customFloat ∨ seg.segType = .customInteger ∨ seg.segType = .customColor then do
    let s ← CustomSeg.read fo fb b ctx seg.segType seg.data
    .ok (.custom s)
  else .panic

/-- `decode_triangle_seg`, src/tmf_importer.rs:297-338. -/
def decodeTriangleSeg {F : Type} (seg : EncodedSegment) : Outcome ImportError (DecodedSegment F) :=
  if seg.segType.isTriangle then do
    let l ← decodeIndices b ctx seg
    match seg.segType with
    | .vertexTriangle => .ok (.triVertex l)
    | .normalTriangle => .ok (.triNormal l)
    | .uvTriangle => .ok (.triUv l)
    | .tangentTriangle => .ok (.triTangent l)
    | _ => .panic
  else .panic

/-- `decode`, src/tmf.rs:406-453. -/
def EncodedSegment.decodeCalls (seg : EncodedSegment) : Outcome ImportError (DecodedSegment fo.F) :=
  match seg.segType with
  | .invalid => .ok .nothing
  | .vertex => decodeVertexSeg fo fb seg
  | .normal => decodeNormalSeg fo seg
  | .uv => decodeUvSeg fo seg
  | .tangent => do
    let l ← readTangents fo seg.data
    .ok (.tangent l)
  | .vertexTriangle | .normalTriangle | .uvTriangle | .tangentTriangle => decodeTriangleSeg b ctx seg
  | .customIndex | .customInteger | .customFloat | .customColor => decodeCustomSeg fo fb b ctx seg
  | .sharedTriangle => decodeShared b ctx seg

namespace DecodedSegment
variable {F : Type}

/-- `Option::unwrap`. -/
def unwrap {α : Type} : Option α → Outcome ExportError α
  | some x => .ok x
  | Option.none => .panic

/-- The arms of `merge`, src/tmf.rs:214-260. -/
def mergeArmCalls (self : DecodedSegment F) (kind : Nat) (l : List Nat) (other : DecodedSegment F) :
    Outcome ExportError (DecodedSegment F × DecodedSegment F) := do
  let t ← unwrap other.asTriangles
  if l ≠ t then .ok (self, other)
  else do
    let k ← other.sharedKind
    .ok (shared (kind ||| k) l, nothing)

/-- `merge`, src/tmf.rs:209-263. -/
def mergeCalls (self other : DecodedSegment F) : Outcome ExportError (DecodedSegment F × DecodedSegment F) :=
  if other.asTriangles.isNone then .ok (self, other)
  else match self with
    | shared kind l => mergeArmCalls self kind l other
    | triVertex l => mergeArmCalls self 1 l other
    | triNormal l => mergeArmCalls self 2 l other
    | triUv l => mergeArmCalls self 4 l other
    | _ => .ok (self, other)

end DecodedSegment

end Tmf
