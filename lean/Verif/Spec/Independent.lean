import Verif.Spec.SegmentOrder
import Verif.Model.Export
/-
What an array of a mesh is stored from.
-/

namespace Tmf.Spec

/-- The two meshes, saved with the two settings, agree in all that may decide how an array is stored: the array, the setting for its kind
and, for vertices, the triangles between them, whose shortest edge the precision refers to. The indices of vertices, normals and uvs go
together, since equal index arrays are stored once. -/
def SameSource {F : Type} (a : MeshArray) (prec prec' : PrecisionInfo F) (m m' : Mesh F) : Prop :=
  match a with
  | .vertices => m'.vertices = m.vertices ∧ m'.vertexTriangles = m.vertexTriangles ∧ prec'.vertex = prec.vertex
  | .normals => m'.normals = m.normals ∧ prec'.normal = prec.normal
  | .uvs => m'.uvs = m.uvs ∧ prec'.uv = prec.uv
  | .tangents => m'.tangents = m.tangents ∧ prec'.tangent = prec.tangent
  | .vertexTriangles | .normalTriangles | .uvTriangles =>
    m'.vertexTriangles = m.vertexTriangles ∧ m'.normalTriangles = m.normalTriangles ∧ m'.uvTriangles = m.uvTriangles
  | .tangentTriangles => m'.tangentTriangles = m.tangentTriangles
  | .custom => m'.customData = m.customData

/-- The two meshes have the same array. -/
def EqualArray {F : Type} (a : MeshArray) (m m' : Mesh F) : Prop :=
  match a with
  | .vertices => m'.vertices = m.vertices
  | .normals => m'.normals = m.normals
  | .uvs => m'.uvs = m.uvs
  | .tangents => m'.tangents = m.tangents
  | .vertexTriangles => m'.vertexTriangles = m.vertexTriangles
  | .normalTriangles => m'.normalTriangles = m.normalTriangles
  | .uvTriangles => m'.uvTriangles = m.uvTriangles
  | .tangentTriangles => m'.tangentTriangles = m.tangentTriangles
  | .custom => m'.customData = m.customData

end Tmf.Spec
