import Verif.Spec.ObjFile
/-
Specification of reading an .obj file, writing what was read, and reading that.
-/

namespace Tmf.Spec

/-- A mesh as the reader of .obj files leaves it: vertices, normals and uvs, the first of each in use,
and nothing else. -/
structure Tidy {F : Type} (m : Mesh F) : Prop where
  vertex : ∀ t, m.vertexTriangles = some t → 0 ∈ t
  normal : ∀ t, m.normalTriangles = some t → 0 ∈ t
  uv : ∀ t, m.uvTriangles = some t → 0 ∈ t
  tangents : m.tangents = none
  tangentTriangles : m.tangentTriangles = none
  custom : m.customData = []

/-- No number of a scene is NaN. -/
def Scene.NoNaN (fo : FloatOps) (s : Scene fo.F) : Prop :=
  (∀ x ∈ s.vertices, fo.isNaN x.1 = false ∧ fo.isNaN x.2.1 = false ∧ fo.isNaN x.2.2 = false) ∧
    (∀ x ∈ s.normals, fo.isNaN x.1 = false ∧ fo.isNaN x.2.1 = false ∧ fo.isNaN x.2.2 = false) ∧
    ∀ x ∈ s.uvs, fo.isNaN x.1 = false ∧ fo.isNaN x.2 = false

/-- Copies of everything a scene defines, one for every object, can be numbered by `u32`. -/
structure Scene.Small {F : Type} (s : Scene F) : Prop where
  vertices : 1 + s.objects.length * s.vertices.length < 2 ^ 32
  normals : 1 + s.objects.length * s.normals.length < 2 ^ 32
  uvs : 1 + s.objects.length * s.uvs.length < 2 ^ 32

/-- Points without triangles, with the given vertices, normals and uvs. -/
def loosePoints {F : Type} (v n : List (Vec3 F)) (u : List (Vec2 F)) : Mesh F :=
  ⟨some n, some [], some v, some [], some u, some [], none, none, []⟩

/-- A list repeated. -/
def repeated {α : Type} (n : Nat) (l : List α) : List α := (List.replicate n l).flatten

end Tmf.Spec
