import Verif.Spec.Unusable
/-
C116: precisions of custom fractions that are no positive number.
-/

namespace Tmf.Spec
open Ieee

/-- At most two values are left. -/
def TwoValues (l : List (Val b32)) : Prop :=
  ∃ a c : Val b32, ∀ x ∈ l, x = a ∨ x = c

end Tmf.Spec
