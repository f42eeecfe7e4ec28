import Verif.Spec.Accuracy
/-
What `normalize` makes of vectors.
-/

set_option exponentiation.threshold 2000

namespace Tmf.Spec
open Ieee

/-- What becomes of a component of a vector with an infinite one. -/
def besideInfinite (c w : Val b32) : Prop :=
  (isFinite c = true → isFinite w = true ∧ valueOf w = 0) ∧ (isFinite c = false → w = .nan)

/-- What `normalize` makes of a vector. -/
inductive Normalised (v w : Vec3 (Val b32)) : Prop
  /-- All components are at most `2^-75`: nothing stays finite. -/
  | lost (finite : FiniteV v) (tiny : |valueOf v.1| ≤ 1 / 2 ^ 75 ∧ |valueOf v.2.1| ≤ 1 / 2 ^ 75 ∧ |valueOf v.2.2| ≤ 1 / 2 ^ 75)
      (out : isFinite w.1 = false ∧ isFinite w.2.1 = false ∧ isFinite w.2.2 = false)
  /-- The length is above `2^64`, or nearly so: zero. -/
  | zero (finite : FiniteV v) (long : 2 ^ 128 - 2 ^ 108 < lengthSq v) (out : FiniteV w ∧ lengthSq w = 0)
  /-- The direction stays; the length becomes one up to rounding, or, for vectors shorter than `2^-72`, something from 2/5 to 2. -/
  | unit (finite : FiniteV v) (seen : 1 / 2 ^ 75 < |valueOf v.1| ∨ 1 / 2 ^ 75 < |valueOf v.2.1| ∨ 1 / 2 ^ 75 < |valueOf v.2.2|)
      (short : lengthSq v < 2 ^ 128 + 2 ^ 108) (out : FiniteV w) (direction : SameDirection v w) (least : 1 / 6 ≤ lengthSq w) (most : lengthSq w ≤ 4)
      (length : 1 / 2 ^ 144 ≤ lengthSq v → AlmostUnit (13 / 2 ^ 24 + 5 / 2 ^ 150 / lengthSq v) w)
  /-- A component is NaN: zero. -/
  | nan (some : isNaN v.1 = true ∨ isNaN v.2.1 = true ∨ isNaN v.2.2 = true) (out : FiniteV w ∧ lengthSq w = 0)
  /-- A component is infinite and none is NaN: the infinite ones become NaN and the others zero. -/
  | infinite (none : isNaN v.1 = false ∧ isNaN v.2.1 = false ∧ isNaN v.2.2 = false)
      (some : isFinite v.1 = false ∨ isFinite v.2.1 = false ∨ isFinite v.2.2 = false)
      (out : besideInfinite v.1 w.1 ∧ besideInfinite v.2.1 w.2.1 ∧ besideInfinite v.2.2 w.2.2)

end Tmf.Spec
