import Verif.Model.Obj
/-
Which meshes the .obj exporter refuses.
-/

namespace Tmf.Spec

/-- The index arrays do not belong together: normal or uv indices without vertex indices, or of
another length. -/
def Mismatched {F : Type} (m : Mesh F) : Prop :=
  match m.vertexTriangles with
  | none => m.normalTriangles ≠ none ∨ m.uvTriangles ≠ none
  | some v => (∃ n, m.normalTriangles = some n ∧ n.length ≠ v.length) ∨ ∃ u, m.uvTriangles = some u ∧ u.length ≠ v.length

end Tmf.Spec
