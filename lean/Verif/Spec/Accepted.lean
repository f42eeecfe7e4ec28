import Verif.Spec.Normals
/-
Specification of what is left of the normals `verify` accepts.
-/

namespace Tmf.Spec
open Ieee

/-- One of the components is not a number. -/
def HasNaN {f : Fmt} (n : Vec3 (Val f)) : Prop := n.1 = .nan ∨ n.2.1 = .nan ∨ n.2.2 = .nan

/-- As `KeptNormal`, for a normal `n` whose length is only within 0.001 of 1: the distance near the poles is up to about 0.052
larger. -/
structure KeptAccepted (p : Nat) (n w : Vec3 (Val b32)) : Prop where
  finite : isFinite w.1 = true ∧ isFinite w.2.1 = true ∧ isFinite w.2.2 = true
  unit : AlmostUnit (1 / 2 ^ 18) w
  side_x : SameSide n.1 w.1
  side_y : SameSide n.2.1 w.2.1 ∨ |valueOf w.2.1| ≤ 1 / 2 ^ 20
  side_z : SameSide n.2.2 w.2.2
  height : |valueOf w.2.2| ≤ |valueOf n.2.2| ∧ |valueOf n.2.2| - |valueOf w.2.2| < 1 / (2 ^ p - 1)
  near : chord n w ≤ √(2 * codeStep p + 5 / 2 * codeStep p ^ 2 + 1 / 380) + 1 / 2 ^ 8
  near_equator : valueOf n.2.2 ^ 2 ≤ 1 / 2 → chord n w ≤ 17 / 8 * codeStep p + 1 / 2 ^ 8

end Tmf.Spec
