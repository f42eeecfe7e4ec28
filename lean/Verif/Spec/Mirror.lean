import Verif.Model.Ieee
import Verif.Model.Mesh
/-
C107: mirror images, by changing signs only.
-/

namespace Tmf.Spec
open Ieee

/-- Which axes are turned round. -/
abbrev Mirror := Bool × Bool × Bool

/-- The sign changed or not. -/
def turnIf (s : Bool) (x : Val b32) : Val b32 := if s then neg x else x

/-- The mirror image of a vector. -/
def Mirror.apply (f : Mirror) (v : Vec3 (Val b32)) : Vec3 (Val b32) := (turnIf f.1 v.1, turnIf f.2.1 v.2.1, turnIf f.2.2 v.2.2)

/-- On one side of zero: neither zero nor NaN. -/
def aside : Val b32 → Bool
  | .nan => false
  | .inf _ => true
  | .fin _ n _ => n != 0

/-- The axes that are turned round and on which `v` is on one side. -/
def Mirror.seen (f : Mirror) (v : Vec3 (Val b32)) : Mirror := (f.1 && aside v.1, f.2.1 && aside v.2.1, f.2.2 && aside v.2.2)

/-- The mirror image of a tangent: the vector, and the handedness changed if `s`. -/
def Mirror.tangent (f : Mirror) (s : Bool) (t : Tangent (Val b32)) : Tangent (Val b32) := (f.apply t.1, turnIf s t.2)

end Tmf.Spec
