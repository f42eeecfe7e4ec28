import Verif.Model.Float
/-
Laws of floating-point comparison used by some theorems. They hold for IEEE arithmetic
(`Verif/Lemmas/Ieee.lean`).
-/

namespace Tmf.Spec

/-- Comparison is a strict order, and `min`/`max` agree with it. Nothing is said about NaN, for
which comparisons are false. -/
structure OrderLaws (fo : FloatOps) : Prop where
  asymm : ∀ a b, fo.lt a b = true → fo.lt b a = false
  trans : ∀ a b c, fo.lt a b = true → fo.lt b c = true → fo.lt a c = true
  min_left : ∀ a b, fo.lt a b = true → fo.min a b = a
  max_left : ∀ a b, fo.lt b a = true → fo.max a b = a
  zero_lt_one : fo.lt (fo.lit 0 0) (fo.lit 1 0) = true

end Tmf.Spec
