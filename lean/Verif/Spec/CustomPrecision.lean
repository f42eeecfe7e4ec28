import Verif.Spec.Accuracy
/-
C60: what the precision attached to custom data promises.
-/

namespace Tmf.Spec
open Ieee

/-- `y` is less than `e` below `x` and not above it. -/
def Below {f : Fmt} (e : ℚ) (x y : Val f) : Prop := isFinite y = true ∧ valueOf y ≤ valueOf x ∧ valueOf x - valueOf y < e

end Tmf.Spec
