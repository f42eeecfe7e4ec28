import Verif.Model.Ieee
import Verif.Model.Mesh
/-
C115: vertex precisions that are no positive number.
-/

namespace Tmf.Spec
open Ieee

/-- NaN, an infinity, or a number with a sign. -/
def Unusable : Val b32 → Prop
  | .nan => True
  | .inf _ => True
  | .fin s _ _ => s = true

/-- On each axis there are at most two values, so at most eight places in all. -/
def EightPlaces (l : List (Vec3 (Val b32))) : Prop :=
  ∃ a c : Vec3 (Val b32), ∀ v ∈ l, (v.1 = a.1 ∨ v.1 = c.1) ∧ (v.2.1 = a.2.1 ∨ v.2.1 = c.2.1) ∧ (v.2.2 = a.2.2 ∨ v.2.2 = c.2.2)

end Tmf.Spec
