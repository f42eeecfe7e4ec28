import Verif.Spec.Edges
import Verif.Model.Mesh
/-
Triangles with two corners in one place.
-/

namespace Tmf.Spec
open Ieee

/-- Two vertices that are the same, or nearly so: no coordinate differs by more than `2^-75`. -/
def Together (a c : Vec3 (Val b32)) : Prop :=
  |valueOf a.1 - valueOf c.1| ≤ 1 / 2 ^ 75 ∧ |valueOf a.2.1 - valueOf c.2.1| ≤ 1 / 2 ^ 75 ∧ |valueOf a.2.2 - valueOf c.2.2| ≤ 1 / 2 ^ 75

/-- A mesh with a triangle two corners of which are in the same place. The coordinates are finite and at most `2^58`. -/
structure Degenerate (m : Mesh (Val b32)) (vs : List (Vec3 (Val b32))) (t : List Nat) : Prop where
  vertices : m.vertices = some vs
  triangles : m.vertexTriangles = some t
  bounded : ∀ v ∈ vs, Bounded v
  edge : ∃ i j a c, IsEdge t i j ∧ vs[i]? = some a ∧ vs[j]? = some c ∧ Together a c

end Tmf.Spec
