import Verif.Model.DoublePrecision
import Verif.Spec.Normals
/-
C81: directions stored by a program with f64 numbers.
-/

namespace Tmf.Spec
open Ieee

/-- The largest value `asin` may return: π/2 as the code computes it, about 6e-17 below π/2. -/
def halfPi64 : Val b64 := rounded false (31415926535897932 * 2 ^ 1074) (2 * 10 ^ 16)

/-- A libm whose results on the arguments that matter are within `2^-50`, which is about four units in the last
place, with the right sign and within the range. -/
structure AccurateLibm64 (lib : Libm64) : Prop where
  sin_near : ∀ x, isFinite x = true → 0 ≤ valueOf x → valueOf x ≤ 2 →
    isFinite (lib.sin x) = true ∧ |realOf (lib.sin x) - Real.sin (realOf x)| ≤ 1 / 2 ^ 50 ∧ 0 ≤ valueOf (lib.sin x)
  cos_near : ∀ x, isFinite x = true → 0 ≤ valueOf x → valueOf x ≤ 2 →
    isFinite (lib.cos x) = true ∧ |realOf (lib.cos x) - Real.cos (realOf x)| ≤ 1 / 2 ^ 50 ∧
      (0 ≤ Real.cos (realOf x) → 0 ≤ valueOf (lib.cos x))
  asin_near : ∀ x, UnitValue x →
    isFinite (lib.asin x) = true ∧ |realOf (lib.asin x) - Real.arcsin (realOf x)| ≤ 1 / 2 ^ 50 ∧
      0 ≤ valueOf (lib.asin x) ∧ valueOf (lib.asin x) ≤ valueOf halfPi64

/-- Finite, with a squared length of 1 up to `ε`, and with a z that does not exceed 1. -/
structure UnitNormal64 (ε : ℚ) (n : Vec3 (Val b64)) : Prop where
  finite : isFinite n.1 = true ∧ isFinite n.2.1 = true ∧ isFinite n.2.2 = true
  unit : AlmostUnit ε n
  z_le : |valueOf n.2.2| ≤ 1

/-- Finite and of length 1 up to `2^-46`. -/
def UnitDecoded64 (w : Vec3 (Val b64)) : Prop :=
  (isFinite w.1 = true ∧ isFinite w.2.1 = true ∧ isFinite w.2.2 = true) ∧ AlmostUnit (1 / 2 ^ 46) w

/-- `w` is what is left of `n`, a vector of squared length 1 up to `ε`, after storing it with `p` bits: a unit vector on
the same side of every coordinate plane; its height is less than one step nearer to the equator; it is at most
`√(2 h + 5/2 h² + 2 ε)` away, where `h` is the step, and `17/8 h + 3 √ε` in the half of the sphere nearer to the equator, up to
`2^-20`. -/
structure KeptNormal64 (p : Nat) (ε : ℚ) (n w : Vec3 (Val b64)) : Prop where
  decoded : UnitDecoded64 w
  side_x : SameSide n.1 w.1
  side_y : SameSide n.2.1 w.2.1
  side_z : SameSide n.2.2 w.2.2
  height : |valueOf w.2.2| ≤ |valueOf n.2.2| ∧ |valueOf n.2.2| - |valueOf w.2.2| < 1 / (2 ^ p - 1)
  near : chord n w ≤ √(2 * codeStep p + 5 / 2 * codeStep p ^ 2 + 2 * ε) + 1 / 2 ^ 20
  near_equator : valueOf n.2.2 ^ 2 ≤ 1 / 2 → chord n w ≤ 17 / 8 * codeStep p + 3 * √(ε : ℝ) + 1 / 2 ^ 20

end Tmf.Spec
