import Verif.Spec.ObjFile
import Mathlib.Data.List.Forall2
/-
Specification of .obj files where corners may leave out the uv.
-/

namespace Tmf.Spec

/-- A corner with vertex and normal and perhaps a uv, all defined by lines before. -/
def Scene.DefinesSome {F : Type} (s : Scene F) (c : ObjCorner) : Prop :=
  (1 ≤ c.v ∧ c.v ≤ s.vertices.length ∧ c.v < 2 ^ 32) ∧
    (∀ u, c.u = some u → 1 ≤ u ∧ u ≤ s.uvs.length ∧ u < 2 ^ 32) ∧
    (∃ n, c.n = some n ∧ 1 ≤ n ∧ n ≤ s.normals.length ∧ n < 2 ^ 32)

/-- All faces use what is defined before them. -/
def DefinedSome {F : Type} : Scene F → List (ObjLine F) → Prop
  | _, [] => True
  | s, l :: rest => (∀ a b c, l = .face a b c → s.DefinesSome a ∧ s.DefinesSome b ∧ s.DefinesSome c) ∧ DefinedSome (s.step l) rest

/-- A corner read as it is in the file, but that any uv may stand for one left out. -/
structure CornerAs {F : Type} (read c : CornerData F) : Prop where
  vertex : read.vertex = c.vertex
  normal : read.normal = c.normal
  uv : ∀ u, c.uv = some u → read.uv = some u

/-- A mesh read from a file: its name, exactly the faces of an object, vertices and normals in range. -/
structure ReadWithout {F : Type} (m : Mesh F × List UInt8) (o : List UInt8 × List (List (CornerData F))) : Prop where
  name : m.2 = o.1
  faces : List.Forall₂ (List.Forall₂ CornerAs) (meshFaces m.1) o.2
  whole : WholeTriangles m.1
  vertices : InRange (m.1.vertices.getD []).length (m.1.vertexTriangles.getD [])
  normals : InRange (m.1.normals.getD []).length (m.1.normalTriangles.getD [])

end Tmf.Spec
