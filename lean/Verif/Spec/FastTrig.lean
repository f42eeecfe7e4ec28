import Verif.Spec.Loaded
/-
C66: what the feature `fast_trig` may change.
-/

namespace Tmf.Spec
open Ieee

/-- The same up to the error of the approximated sine: z is equal, and the end points are at most
`1 / 384` apart. -/
structure FastNear (w v : Vec3 (Val b32)) : Prop where
  z : w.2.2 = v.2.2
  near : chord w v ≤ 1 / 384

/-- Two optional arrays of which none or both are there, of the same length, with matching entries. -/
def SameArray {α : Type} (R : α → α → Prop) : Option (List α) → Option (List α) → Prop
  | none, none => True
  | some l, some l' => List.Forall₂ R l l'
  | _, _ => False

/-- Two meshes that differ in normals and tangents only, and in those only by the error of the
approximated sine. -/
structure FastMesh (m m' : Mesh (Val b32)) : Prop where
  vertices : m.vertices = m'.vertices
  uvs : m.uvs = m'.uvs
  vertexTriangles : m.vertexTriangles = m'.vertexTriangles
  normalTriangles : m.normalTriangles = m'.normalTriangles
  uvTriangles : m.uvTriangles = m'.uvTriangles
  tangentTriangles : m.tangentTriangles = m'.tangentTriangles
  customData : m.customData = m'.customData
  normals : SameArray FastNear m.normals m'.normals
  tangents : SameArray (fun t t' => FastNear t.1 t'.1 ∧ t.2 = t'.2) m.tangents m'.tangents

/-- What is left of a unit vector stored with `p` bits and read with the approximated sine: as
`KeptNormal`, with `1 / 384` on top of the distances, and without the exception for the sign of y. -/
structure KeptFast (p : Nat) (n w : Vec3 (Val b32)) : Prop where
  finite : isFinite w.1 = true ∧ isFinite w.2.1 = true ∧ isFinite w.2.2 = true
  unit : AlmostUnit (1 / 2 ^ 18) w
  side_x : SameSide n.1 w.1
  side_y : SameSide n.2.1 w.2.1
  side_z : SameSide n.2.2 w.2.2
  height : |valueOf w.2.2| ≤ |valueOf n.2.2| ∧ |valueOf n.2.2| - |valueOf w.2.2| < 1 / (2 ^ p - 1)
  near : chord n w ≤ √(2 * codeStep p + 5 / 2 * codeStep p ^ 2) + 1 / 2 ^ 8 + 1 / 384
  near_equator : valueOf n.2.2 ^ 2 ≤ 1 / 2 → chord n w ≤ 17 / 8 * codeStep p + 1 / 2 ^ 8 + 1 / 384

/-- Both fail alike, or both succeed with related results. -/
inductive Both {ε α β : Type} (R : α → β → Prop) : Outcome ε α → Outcome ε β → Prop
  | ok {a b} (h : R a b) : Both R (.ok a) (.ok b)
  | err {e} : Both R (.err e) (.err e)
  | panic : Both R .panic .panic

end Tmf.Spec
