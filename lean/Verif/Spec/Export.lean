import Verif.Spec.Convert
/-
C79: what is needed of meshes to export them after they were stored.
-/

namespace Tmf.Spec

/-- A mesh with at least one triangle, normals and uvs. The numbers can be anything. -/
structure Exportable {F : Type} (m : Mesh F) : Prop where
  faces : HasFaces m
  nonempty : m.vertexTriangles ≠ some []
  vertices : m.vertices.isSome
  normals : m.normals.isSome
  uvs : m.uvs.isSome
  normalTriangles : m.normalTriangles.isSome
  uvTriangles : m.uvTriangles.isSome

/-- The same name and the same triangles. -/
def SameFaces {F : Type} (a b : Mesh F × List UInt8) : Prop := a.2 = b.2 ∧ meshFaces a.1 = meshFaces b.1

end Tmf.Spec
