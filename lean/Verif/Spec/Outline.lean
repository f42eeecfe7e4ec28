import Verif.Spec.Damage
import Verif.Spec.FileFormat
import Mathlib.Data.List.Forall2
/-
The outline of a mesh: which arrays it has and how long they are.
-/

namespace Tmf

/-- The minimum stored in an index array whose head begins at `start`; files before 0.2 have none. -/
def storedMin (ctx : DecodeCtx) (start : Nat) (data : List UInt8) : Nat :=
  if ctx.readMin then leNat ((data.drop (start + 9)).take 8) else 0

/-- The minimum of an index array leaves room in 64 bits for every value of its width. -/
def IndexRoom (ctx : DecodeCtx) (kind : SectionType) (data : List UInt8) : Prop :=
  let room (start : Nat) := storedMin ctx start data + 2 ^ byteAt data start ≤ 2 ^ 64
  match kind with
  | .vertexTriangle | .normalTriangle | .uvTriangle | .tangentTriangle => room 0
  | .sharedTriangle => room 1
  | .customIndex | .customInteger => room (1 + byteAt data 0)
  | .invalid | .vertex | .normal | .uv | .tangent | .customFloat | .customColor => True

/-- The same name, the same kind of data and as many values. -/
inductive SameCustom {F : Type} : CustomSeg F → CustomSeg F → Prop where
  | index (name : List UInt8) (l l' : List Nat) (m m' : Nat) (h : l'.length = l.length) :
      SameCustom ⟨name, .index l m⟩ ⟨name, .index l' m'⟩
  | integer (name : List UInt8) (l l' : List Nat) (m m' : Nat) (h : l'.length = l.length) :
      SameCustom ⟨name, .integer l m⟩ ⟨name, .integer l' m'⟩
  | float (name : List UInt8) (l l' : List F) (p : F) (h : l'.length = l.length) :
      SameCustom ⟨name, .float l p⟩ ⟨name, .float l' p⟩
  | color (name : List UInt8) (l l' : List (Vec4 F)) (p : F) (h : l'.length = l.length) :
      SameCustom ⟨name, .color l p⟩ ⟨name, .color l' p⟩

/-- Two meshes with the same arrays, each as long as the other's, and the same custom segments in the
same order. -/
structure SameOutline {F : Type} (m m' : Mesh F) : Prop where
  vertices : m'.vertices.map List.length = m.vertices.map List.length
  normals : m'.normals.map List.length = m.normals.map List.length
  uvs : m'.uvs.map List.length = m.uvs.map List.length
  tangents : m'.tangents.map List.length = m.tangents.map List.length
  vertexTriangles : m'.vertexTriangles.map List.length = m.vertexTriangles.map List.length
  normalTriangles : m'.normalTriangles.map List.length = m.normalTriangles.map List.length
  uvTriangles : m'.uvTriangles.map List.length = m.uvTriangles.map List.length
  tangentTriangles : m'.tangentTriangles.map List.length = m.tangentTriangles.map List.length
  customData : List.Forall₂ SameCustom m.customData m'.customData

namespace Spec

/-- A segment whose packed data was overwritten: the type, the length and the head are as before. -/
structure DamagedSeg (ctx : DecodeCtx) (s s' : RawSeg) : Prop where
  kind : s'.kind = s.kind
  comp : s'.comp = s.comp
  len : s'.data.length = s.data.length
  head : s'.data.take (bodyStart ctx (SectionType.fromU16 s.kind) s.data) =
    s.data.take (bodyStart ctx (SectionType.fromU16 s.kind) s.data)

/-- A mesh in which the packed data of any of the segments was overwritten. -/
structure DamagedMesh (ctx : DecodeCtx) (m m' : RawMesh) : Prop where
  name : m'.name = m.name
  segs : List.Forall₂ (DamagedSeg ctx) m.segs m'.segs

end Spec

end Tmf
