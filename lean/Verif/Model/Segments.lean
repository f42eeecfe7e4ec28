import Verif.Model.Custom
import Verif.Model.OptTris
import Verif.Model.OptVertices
/-
Segments: src/tmf.rs:81-490 and the `decode_*_seg` functions of src/tmf_importer.rs:205-338.
-/

namespace Tmf

/-- `CompressionType`, src/tmf.rs:81-87. -/
inductive CompressionType where
  | none
  | ommited
  | unalignedLZZ
  | sequence
deriving Repr, DecidableEq

/-- `compresion_type as u8`, src/tmf.rs:81-87. -/
def CompressionType.toU8 : CompressionType → Nat
  | none => 0
  | ommited => 1
  | unalignedLZZ => 2
  | sequence => 255

/-- `CompressionType::from_u8`, src/tmf.rs:88-98. -/
def CompressionType.fromU8 (n : Nat) : Outcome ImportError CompressionType :=
  match n with
  | 0 => .ok none
  | 1 => .ok ommited
  | 2 => .ok unalignedLZZ
  | 255 => .ok sequence
  | n => .err (.compressionTypeUnknown n)

/-- `DecodedSegment`, src/tmf.rs:100-112. `SharedSegmentKind` (src/tmf.rs:158-192) is its mask
byte. -/
inductive DecodedSegment (F : Type) where
  | nothing
  | vertex (l : List (Vec3 F))
  | normal (l : List (Vec3 F))
  | uv (l : List (Vec2 F))
  | tangent (l : List (Tangent F))
  | triVertex (l : List Nat)
  | triNormal (l : List Nat)
  | triUv (l : List Nat)
  | triTangent (l : List Nat)
  | shared (mask : Nat) (l : List Nat)
  | custom (seg : CustomSeg F)
deriving Repr, DecidableEq

/-- `EncodedSegment`, src/tmf.rs:113-117. -/
structure EncodedSegment where
  segType : SectionType
  compression : CompressionType
  data : List UInt8
deriving Repr, DecidableEq

namespace DecodedSegment
variable {F : Type}

/-- `get_vertex`, src/tmf.rs:166-168. -/
def hasVertex (mask : Nat) : Bool := mask &&& 1 != 0
/-- `get_normal`, src/tmf.rs:172-174. -/
def hasNormal (mask : Nat) : Bool := mask &&& 2 != 0
/-- `get_uv`, src/tmf.rs:178-180. -/
def hasUv (mask : Nat) : Bool := mask &&& 4 != 0

/-- `as_triangles`, src/tmf.rs:264-270. -/
def asTriangles : DecodedSegment F → Option (List Nat)
  | triVertex l => some l
  | triNormal l => some l
  | _ => Option.none

/-- `shared_kind`, src/tmf.rs:271-285; `todo!()` panics. -/
def sharedKind : DecodedSegment F → Outcome ExportError Nat
  | triVertex _ => .ok 1
  | triNormal _ => .ok 2
  | _ => .panic

/-- The arm of `merge` for a segment with mask `kind` and indices `l`, e.g. src/tmf.rs:214-221:
the new self and other. -/
def mergeArm (self : DecodedSegment F) (kind : Nat) (l : List Nat) (other : DecodedSegment F)
    (t : List Nat) : Outcome ExportError (DecodedSegment F × DecodedSegment F) :=
  if l ≠ t then .ok (self, other)
  else do
    let k ← other.sharedKind
    .ok (shared (kind ||| k) l, nothing)

/-- `merge`, src/tmf.rs:209-263: the new self and the new other. -/
def merge (self other : DecodedSegment F) : Outcome ExportError (DecodedSegment F × DecodedSegment F) :=
  match other.asTriangles with
  | Option.none => .ok (self, other)
  | some t =>
    match self with
    | shared kind l => mergeArm self kind l other t
    | triVertex l => mergeArm self 1 l other t
    | triNormal l => mergeArm self 2 l other t
    | triUv l => mergeArm self 4 l other t
    | _ => .ok (self, other)

/-- `is_something`, src/tmf.rs:286-288. -/
def isSomething : DecodedSegment F → Bool
  | nothing => false
  | _ => true

/-- `optimize`, src/tmf.rs:289-342. -/
def optimize (fo : FloatOps) (b : Build) : DecodedSegment fo.F → Outcome ExportError (List (DecodedSegment fo.F))
  | triVertex l => do let ps ← optTris b l; .ok (ps.map triVertex)
  | triUv l => do let ps ← optTris b l; .ok (ps.map triUv)
  | triNormal l => do let ps ← optTris b l; .ok (ps.map triNormal)
  | triTangent l => do let ps ← optTris b l; .ok (ps.map triTangent)
  | vertex l => do let ps ← optVertices fo b l; .ok (ps.map vertex)
  | shared kind l => do let ps ← optTris b l; .ok (ps.map (shared kind))
  | seg => .ok [seg]

/-- `encode`, src/tmf.rs:343-405: type and data, compression `None`. -/
def encode (fo : FloatOps) (fb : F64Bytes fo) (b : Build) (prec : PrecisionInfo fo.F) (edge : fo.F) :
    DecodedSegment fo.F → Outcome ExportError EncodedSegment
  | vertex l => do let d ← saveVertices fo fb b l prec.vertex edge; .ok ⟨.vertex, .none, d⟩
  | tangent l => do let d ← saveTangents fo b l prec.tangent; .ok ⟨.tangent, .none, d⟩
  | normal l => do let d ← saveNormals fo b l prec.normal; .ok ⟨.normal, .none, d⟩
  | uv l => do let d ← saveUvs fo b l prec.uv; .ok ⟨.uv, .none, d⟩
  | triVertex l => do let d ← saveTriangles b l (maxIndex l); .ok ⟨.vertexTriangle, .none, d⟩
  | triNormal l => do let d ← saveTriangles b l (maxIndex l); .ok ⟨.normalTriangle, .none, d⟩
  | triUv l => do let d ← saveTriangles b l (maxIndex l); .ok ⟨.uvTriangle, .none, d⟩
  | triTangent l => do let d ← saveTriangles b l (maxIndex l); .ok ⟨.tangentTriangle, .none, d⟩
  | custom seg => do let d ← seg.encode fo fb b; .ok ⟨seg.data.sectionType, .none, d⟩
  | shared mask l => do
    let d ← saveTriangles b l (maxIndex l)
    .ok ⟨.sharedTriangle, .none, leBytes 1 mask ++ d⟩
  | nothing => .ok ⟨.invalid, .none, []⟩

/-- `apply`, src/tmf.rs:454-489. -/
def apply (mesh : Mesh F) : DecodedSegment F → Mesh F
  | vertex l => mesh.appendVertices l
  | normal l => mesh.appendNormals l
  | uv l => mesh.appendUvs l
  | triVertex l => mesh.appendVertexTriangles l
  | triNormal l => mesh.appendNormalTriangles l
  | triUv l => mesh.appendUvTriangles l
  | custom seg => mesh.addCustomDataSeg seg
  | tangent l => mesh.appendTangents l
  | triTangent l => mesh.appendTangentTriangles l
  | nothing => mesh
  | shared mask l =>
    let mesh := if hasVertex mask then mesh.appendVertexTriangles l else mesh
    let mesh := if hasNormal mask then mesh.appendNormalTriangles l else mesh
    if hasUv mask then mesh.appendUvTriangles l else mesh

end DecodedSegment

/-- The compression check and index reading of `decode_triangle_seg`,
src/tmf_importer.rs:304-321: `Sequence` is reported with the code of `Ommited`. -/
def decodeIndices (b : Build) (ctx : DecodeCtx) (seg : EncodedSegment) : Outcome ImportError (List Nat) :=
  match seg.compression with
  | .none => readDefaultTriangles b ctx seg.data
  | .sequence => .err (.unsuportedCompressionType CompressionType.ommited.toU8)
  | .ommited => .err (.unsuportedCompressionType CompressionType.ommited.toU8)
  | .unalignedLZZ => .err (.unsuportedCompressionType CompressionType.unalignedLZZ.toU8)

/-- The shared-triangle branch of `decode`, src/tmf.rs:433-452. -/
def decodeShared {F : Type} (b : Build) (ctx : DecodeCtx) (seg : EncodedSegment) :
    Outcome ImportError (DecodedSegment F) :=
  match seg.data with
  | [] => .err eof
  | mask :: rest =>
    match seg.compression with
    | .none => do
      let l ← readDefaultTriangles b ctx rest
      .ok (.shared mask.toNat l)
    | c => .err (.unsuportedCompressionType c.toU8)

/-- `decode`, src/tmf.rs:406-453 with src/tmf_importer.rs:205-257,297-338. The compression of
segments that hold no triangles is not looked at. -/
def EncodedSegment.decode (fo : FloatOps) (fb : F64Bytes fo) (b : Build) (ctx : DecodeCtx) (seg : EncodedSegment) :
    Outcome ImportError (DecodedSegment fo.F) :=
  match seg.segType with
  | .invalid => .ok .nothing
  | .vertex => do let l ← readVertices fo fb seg.data; .ok (.vertex l)
  | .normal => do let l ← readNormals fo seg.data; .ok (.normal l)
  | .uv => do let l ← readUvs fo seg.data; .ok (.uv l)
  | .tangent => do let l ← readTangents fo seg.data; .ok (.tangent l)
  | .vertexTriangle => do let l ← decodeIndices b ctx seg; .ok (.triVertex l)
  | .normalTriangle => do let l ← decodeIndices b ctx seg; .ok (.triNormal l)
  | .uvTriangle => do let l ← decodeIndices b ctx seg; .ok (.triUv l)
  | .tangentTriangle => do let l ← decodeIndices b ctx seg; .ok (.triTangent l)
  | .customIndex | .customInteger | .customFloat | .customColor => do
    let s ← CustomSeg.read fo fb b ctx seg.segType seg.data
    .ok (.custom s)
  | .sharedTriangle => decodeShared b ctx seg

end Tmf
