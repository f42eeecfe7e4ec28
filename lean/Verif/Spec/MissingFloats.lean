import Verif.Spec.Missing
/-
C113: custom fractions that are NaN.
-/

namespace Tmf.Spec
open Ieee

/-- One step of a range reaching from `-M` to `M`, and room for rounding. -/
def besideRoom (p : Nat) (M : ℚ) : ℚ := 2 * M / (2 ^ p - 1) + M / 2 ^ 19 + 1 / 2 ^ 148

/-- What becomes of a fraction of an array in which some are NaN: a NaN becomes the least number, or the largest number an `f32` can be if
there are only NaNs; with up to 24 bits, numbers come back within a step. -/
structure FloatFilled (data : List (Val b32)) (p : Nat) (M : ℚ) (x x' : Val b32) : Prop where
  nan : x = .nan → (∃ y ∈ data, isFinite y = true) → Least data x'
  none : (∀ y ∈ data, y = .nan) → isFinite x' = true ∧ valueOf x' = 2 ^ 128 - 2 ^ 104
  number : p ≤ 24 → isFinite x = true → Within (besideRoom p M) x x'

end Tmf.Spec
