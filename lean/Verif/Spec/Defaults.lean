import Verif.Spec.EndToEnd
/-
What the documentation of the default settings promises: "Default precision of saved normals is 1.0 degrees" (src/normals.rs:47),
"texture size 1024 and no more than .1 pixel deviation" (src/uv.rs:21) and "How much can the position of any vertex
deviate, as a portion of the shortest edge in the model" (src/lib.rs:106), 0.1 by default (src/vertices.rs:19).
-/

namespace Tmf.Spec
open Ieee

/-- `d` degrees in radians. -/
noncomputable def degrees (d : ℝ) : ℝ := d * (Real.pi / 180)

/-- On a texture of 1024 pixels, `x` and `y` are less than a tenth of a pixel apart. -/
def TenthPixel (x y : Val b32) : Prop := |1024 * (realOf x - realOf y)| < 1 / 10

/-- How near a normal or tangent comes back: within 7.5 degrees, and within the promised degree if it is less than 54.7 degrees away
from the plane z = 0. -/
def DegreeKept (n w : Vec3 (Val b32)) : Prop :=
  AngleAtMost (degrees (15 / 2)) n w ∧ (valueOf n.2.2 ^ 2 ≤ 2 / 3 → AngleAtMost (degrees 1) n w)

/-- What is left of a mesh saved with the default settings. -/
structure DefaultKept (k : Nat) (cut : List (Vec3 (Val b32)) → List (List (Vec3 (Val b32))) → Prop) (m m' : Mesh (Val b32)) : Prop where
  uvs : ∀ l, m.uvs = some l → ∃ l', m'.uvs = some l' ∧ List.Forall₂ (fun uv uv' => TenthPixel uv.1 uv'.1 ∧ TenthPixel uv.2 uv'.2) l l'
  normals : ∀ l, m.normals = some l → ∃ l', m'.normals = some l' ∧ List.Forall₂ DegreeKept l l'
  tangents : ∀ l, m.tangents = some l → ∃ l', m'.tangents = some l' ∧ List.Forall₂ (fun t t' => DegreeKept t.1 t'.1) l l'
  vertices : ∀ l, m.vertices = some l → ∃ runs runs', cut l runs ∧ Cuts l runs ∧ m'.vertices = some runs'.flatten ∧
    ∀ M, (∀ v ∈ l, VecWithin M v) → M ≤ 2 ^ 58 → ∀ L, EdgeLength l m.vertexTriangles L →
      List.Forall₂ (RunNear k M (2001 / 10000 * L + 2 / 10 ^ 6 + M / 2 ^ 18)) runs runs'

end Tmf.Spec
