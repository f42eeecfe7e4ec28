import Verif.Model.Basic
/-
Specification of triangle reordering.
-/

namespace Tmf.Spec

/-- The three indices of triangle `t` in an index array. -/
def triangleOf (l : List Nat) (t : Nat) : List Nat := (l.drop (3 * t)).take 3

end Tmf.Spec
