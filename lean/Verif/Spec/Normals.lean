import Mathlib.Analysis.SpecialFunctions.Trigonometric.Inverse
import Verif.Spec.Accuracy
/-
Directions as real vectors, and what the platform's `sin`, `cos` and `asin` are assumed to do.
-/

namespace Tmf.Spec
open Ieee

/-- The real number a finite value stands for. -/
noncomputable def realOf {f : Fmt} (x : Val f) : ℝ := ((valueOf x : ℚ) : ℝ)

/-- The largest value `asin` may return: π/2 as the code computes it, about 4e-8 above π/2. -/
def halfPi32 : Val b32 := rounded false (31415926535897932 * 2 ^ 149) (2 * 10 ^ 16)

/-- A libm whose results on the arguments that matter are within `2^-22`, which is about two units
in the last place, with the right sign and within the range. -/
structure AccurateLibm (lib : Libm) : Prop where
  sin_near : ∀ x, isFinite x = true → 0 ≤ valueOf x → valueOf x ≤ 2 →
    isFinite (lib.sin x) = true ∧ |realOf (lib.sin x) - Real.sin (realOf x)| ≤ 1 / 2 ^ 22 ∧ 0 ≤ valueOf (lib.sin x)
  cos_near : ∀ x, isFinite x = true → 0 ≤ valueOf x → valueOf x ≤ 2 →
    isFinite (lib.cos x) = true ∧ |realOf (lib.cos x) - Real.cos (realOf x)| ≤ 1 / 2 ^ 22 ∧
      (0 ≤ Real.cos (realOf x) → 0 ≤ valueOf (lib.cos x))
  asin_near : ∀ x, UnitValue x →
    isFinite (lib.asin x) = true ∧ |realOf (lib.asin x) - Real.arcsin (realOf x)| ≤ 1 / 2 ^ 22 ∧
      0 ≤ valueOf (lib.asin x) ∧ valueOf (lib.asin x) ≤ valueOf halfPi32

/-- Length of a real vector. -/
noncomputable def length3 (a b c : ℝ) : ℝ := √(a ^ 2 + b ^ 2 + c ^ 2)

/-- Distance of the end points of two vectors. For unit vectors it is twice the sine of half the
angle between them, so never more than the angle. -/
noncomputable def chord {f : Fmt} (v w : Vec3 (Val f)) : ℝ :=
  length3 (realOf v.1 - realOf w.1) (realOf v.2.1 - realOf w.2.1) (realOf v.2.2 - realOf w.2.2)

/-- Scalar product. -/
noncomputable def scalar {f : Fmt} (v w : Vec3 (Val f)) : ℝ :=
  realOf v.1 * realOf w.1 + realOf v.2.1 * realOf w.2.1 + realOf v.2.2 * realOf w.2.2

noncomputable def lengthOf {f : Fmt} (v : Vec3 (Val f)) : ℝ := length3 (realOf v.1) (realOf v.2.1) (realOf v.2.2)

/-- The angle between two vectors is at most `θ` (for `θ` in [0, π]). -/
def AngleAtMost {f : Fmt} (θ : ℝ) (v w : Vec3 (Val f)) : Prop := Real.cos θ * (lengthOf v * lengthOf w) ≤ scalar v w

/-- A vector `save_normal` is meant for: finite, of length 1 up to rounding, and with a z that does
not exceed 1. -/
structure UnitNormal (n : Vec3 (Val b32)) : Prop where
  finite : isFinite n.1 = true ∧ isFinite n.2.1 = true ∧ isFinite n.2.2 = true
  unit : AlmostUnit (1 / 2 ^ 20) n
  z_le : |valueOf n.2.2| ≤ 1

/-- Not along the z axis, and away from the x axis by an angle of about `1 / 512` around the z axis: what is
needed with more than 24 bits. -/
structure OffAxes (n : Vec3 (Val b32)) : Prop where
  z : |valueOf n.2.2| < 1
  x : |valueOf n.1| ≤ 512 * |valueOf n.2.1|

/-- A vector along the y axis, up to `2^-18`. -/
structure AlongY (w : Vec3 (Val b32)) : Prop where
  x : |valueOf w.1| ≤ 1 / 2 ^ 20
  y : |(|valueOf w.2.1| - 1)| ≤ 1 / 2 ^ 18
  z : |valueOf w.2.2| ≤ 1 / 2 ^ 31

/-- Finite and of length 1 up to `2^-18`. -/
def UnitDecoded (w : Vec3 (Val b32)) : Prop :=
  (isFinite w.1 = true ∧ isFinite w.2.1 = true ∧ isFinite w.2.2 = true) ∧ AlmostUnit (1 / 2 ^ 18) w

/-- Not on opposite sides of zero. -/
def SameSide {f : Fmt} (x y : Val f) : Prop := 0 ≤ valueOf x * valueOf y

/-- The step between neighbouring codes of `p` bits, as a part of the whole range. -/
noncomputable def codeStep (p : Nat) : ℝ := 1 / (2 ^ p - 1)

/-- `w` is what is left of the unit vector `n` after storing it with `p` bits: a unit vector on the
same side of every coordinate plane, except that a y of at most `2^-20` may have the wrong sign; its
height is less than one step nearer to the equator; it is at most `√(2 h + 5/2 h²)` away, where `h` is the
step, and `17/8 h` in the half of the sphere nearer to the equator, up to `2^-8`. -/
structure KeptNormal (p : Nat) (n w : Vec3 (Val b32)) : Prop where
  finite : isFinite w.1 = true ∧ isFinite w.2.1 = true ∧ isFinite w.2.2 = true
  unit : AlmostUnit (1 / 2 ^ 18) w
  side_x : SameSide n.1 w.1
  side_y : SameSide n.2.1 w.2.1 ∨ |valueOf w.2.1| ≤ 1 / 2 ^ 20
  side_z : SameSide n.2.2 w.2.2
  height : |valueOf w.2.2| ≤ |valueOf n.2.2| ∧ |valueOf n.2.2| - |valueOf w.2.2| < 1 / (2 ^ p - 1)
  near : chord n w ≤ √(2 * codeStep p + 5 / 2 * codeStep p ^ 2) + 1 / 2 ^ 8
  near_equator : valueOf n.2.2 ^ 2 ≤ 1 / 2 → chord n w ≤ 17 / 8 * codeStep p + 1 / 2 ^ 8

end Tmf.Spec
