import Verif.Spec.Accuracy
/-
C106: what it means that vectors stay near each other. It speaks of values only.
-/

namespace Tmf.Spec
open Ieee

/-- Each component of `w` is a number at most `e` away from that of `v`. -/
def WithinV (e : ℚ) (v w : Vec3 (Val b32)) : Prop := Within e v.1 w.1 ∧ Within e v.2.1 w.2.1 ∧ Within e v.2.2 w.2.2

end Tmf.Spec
