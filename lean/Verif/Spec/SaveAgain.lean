import Verif.Spec.EndToEnd
import Verif.Spec.VertexDrift
/-
Meshes whose faces survive being saved.
-/

namespace Tmf.Spec
open Ieee

/-- A mesh with only whole numbers as custom data that is at most 8192 times as large as its shortest edge (in the direction of an axis, from the origin), with
edges from 1/1000 on, in which the box computed for each run of vertices (as `cut` makes them) reaches all of them. `P` is the precision. -/
structure Sturdy (cut : List (Vec3 (Val b32)) → List (List (Vec3 (Val b32))) → Prop) (P : ℚ) (m : Mesh (Val b32)) : Prop where
  custom : WholeNumbers m
  vertices : ∀ l, m.vertices = some l → ∃ M δ, SensibleVertices 24 P M δ l m.vertexTriangles ∧ 1 / 1000 ≤ δ ∧ M ≤ 2 ^ 13 * δ ∧
    ∀ runs, cut l runs → ∀ p ∈ runs, ZCovered p ∧ ∀ v ∈ p, XReached p v ∧ YReached p v

/-- No edge of a mesh comes back shorter than an eighth of what it was. -/
def EdgesLive (m m' : Mesh (Val b32)) : Prop :=
  ∀ l l' t i j a c a' c', m.vertices = some l → m'.vertices = some l' → m.vertexTriangles = some t → IsEdge t i j →
    l[i]? = some a → l[j]? = some c → l'[i]? = some a' → l'[j]? = some c' → chord a c / 8 ≤ chord a' c'

end Tmf.Spec
