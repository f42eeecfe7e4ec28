import Verif.Spec.Drift
import Verif.Spec.Log2
import Verif.Spec.BitCount
/-
A library of mathematical functions without any error besides the last rounding.
-/

namespace Tmf.Spec
open Ieee

/-- `log2` as IEEE 754 recommends it: the special cases, and otherwise a value nearest to the true one. -/
structure CorrectLog2 (lib : Libm) : Prop where
  nan : lib.log2 .nan = .nan
  infinite : lib.log2 (.inf false) = .inf false
  negative : lib.log2 (.inf true) = .nan ∧ ∀ n h, n ≠ 0 → lib.log2 (.fin true n h) = .nan
  zero : ∀ s h, lib.log2 (.fin s 0 h) = .inf true
  positive : ∀ x, isFinite x = true → 0 < valueOf x → NearestVal (Real.logb 2 (realOf x)) (lib.log2 x)

/-- Sine, cosine, arcsine and the logarithm are the values nearest to the true ones. -/
structure CorrectMath (lib : Libm) : Prop extends CorrectLibm lib, CorrectLog2 lib

end Tmf.Spec
