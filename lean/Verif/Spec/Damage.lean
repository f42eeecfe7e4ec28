import Verif.Model.Segments
import Verif.Spec.DecodedSize
/-
Where the elements of a stored array lie, and what it means that damage stays there.
-/

namespace Tmf

/-- How many bytes of a segment's data come before the packed elements. -/
def bodyStart (ctx : DecodeCtx) (kind : SectionType) (data : List UInt8) : Nat :=
  let index := 9 + if ctx.readMin then 8 else 0
  match kind with
  | .invalid => 0
  | .vertex => 59
  | .normal | .tangent | .uv => 9
  | .vertexTriangle | .normalTriangle | .uvTriangle | .tangentTriangle => index
  | .sharedTriangle => 1 + index
  | .customIndex | .customInteger => 1 + byteAt data 0 + index
  | .customFloat => 1 + byteAt data 0 + 25
  | .customColor => 1 + byteAt data 0 + 9

/-- The bits one element takes, as the head of the segment says. -/
def elementBits (kind : SectionType) (data : List UInt8) : Nat :=
  match kind with
  | .invalid => 0
  | .vertex => byteAt data 56 + byteAt data 57 + byteAt data 58
  | .normal => 3 + 2 * byteAt data 8
  | .tangent => 4 + 2 * byteAt data 8
  | .uv => 2 * byteAt data 0
  | .vertexTriangle | .normalTriangle | .uvTriangle | .tangentTriangle => byteAt data 0
  | .sharedTriangle => byteAt data 1
  | .customIndex | .customInteger => byteAt data (1 + byteAt data 0)
  | .customFloat => byteAt data (1 + byteAt data 0 + 24)
  | .customColor => 4 * byteAt data (1 + byteAt data 0 + 8)

/-- Widths at which two values are read as they were written. -/
def GoodWidth (w : Nat) : Prop := w < 64 ∧ w ≠ 32

/-- The width is good wherever two values are read together. -/
def GoodWidths (kind : SectionType) (data : List UInt8) : Prop :=
  match kind with
  | .normal => GoodWidth (byteAt data 8)
  | .uv | .vertexTriangle | .normalTriangle | .uvTriangle | .tangentTriangle => GoodWidth (byteAt data 0)
  | .sharedTriangle => GoodWidth (byteAt data 1)
  | .customIndex | .customInteger => GoodWidth (byteAt data (1 + byteAt data 0))
  | .customColor => GoodWidth (byteAt data (1 + byteAt data 0 + 8))
  | .invalid | .vertex | .tangent | .customFloat => True

/-- The bytes from `start` on in which element `i` of `k` bits has a bit are the same. -/
def Untouched (start k i : Nat) (data data' : List UInt8) : Prop :=
  ∀ j, i * k < 8 * (j + 1) → 8 * j < (i + 1) * k → data[start + j]? = data'[start + j]?

/-- Only element `i` of the array; the kind, the shared mask, the name and the precision stay. -/
def DecodedSegment.pick {F : Type} (i : Nat) : DecodedSegment F → DecodedSegment F
  | vertex l => vertex l[i]?.toList
  | normal l => normal l[i]?.toList
  | uv l => uv l[i]?.toList
  | tangent l => tangent l[i]?.toList
  | triVertex l => triVertex l[i]?.toList
  | triNormal l => triNormal l[i]?.toList
  | triUv l => triUv l[i]?.toList
  | triTangent l => triTangent l[i]?.toList
  | shared mask l => shared mask l[i]?.toList
  | custom ⟨name, .index l _⟩ => custom ⟨name, .index l[i]?.toList 0⟩
  | custom ⟨name, .integer l _⟩ => custom ⟨name, .integer l[i]?.toList 0⟩
  | custom ⟨name, .float l p⟩ => custom ⟨name, .float l[i]?.toList p⟩
  | custom ⟨name, .color l p⟩ => custom ⟨name, .color l[i]?.toList p⟩
  | nothing => nothing

/-- Two meshes that differ only in what segments of the given type hold. -/
structure SameElsewhere {F : Type} (kind : SectionType) (m m' : Mesh F) : Prop where
  vertices : kind ≠ .vertex → m.vertices = m'.vertices
  normals : kind ≠ .normal → m.normals = m'.normals
  uvs : kind ≠ .uv → m.uvs = m'.uvs
  tangents : kind ≠ .tangent → m.tangents = m'.tangents
  vertexTriangles : kind ∉ [.vertexTriangle, .sharedTriangle] → m.vertexTriangles = m'.vertexTriangles
  normalTriangles : kind ∉ [.normalTriangle, .sharedTriangle] → m.normalTriangles = m'.normalTriangles
  uvTriangles : kind ∉ [.uvTriangle, .sharedTriangle] → m.uvTriangles = m'.uvTriangles
  tangentTriangles : kind ≠ .tangentTriangle → m.tangentTriangles = m'.tangentTriangles
  customData : kind ∉ [.customIndex, .customInteger, .customFloat, .customColor] → m.customData = m'.customData

end Tmf
