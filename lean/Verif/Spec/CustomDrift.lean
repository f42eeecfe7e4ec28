import Verif.Spec.VertexDrift
import Verif.Spec.Accuracy
/-
Custom data saved and loaded again and again.
-/

namespace Tmf.Spec
open Ieee

/-- A mesh with nothing but one piece of custom data. -/
def onlyCustom {F : Type} (c : CustomSeg F) : Mesh F := { Mesh.empty with customData := [c] }

/-- `y` is at most `e` below `x`, and a number between 0 and 1 like it. -/
def Faded (e : ℚ) (x y : Val b32) : Prop :=
  UnitValue y ∧ valueOf y ≤ valueOf x ∧ valueOf x - valueOf y ≤ e

/-- The same for the four channels of a colour. -/
def ColorFaded (e : ℚ) (c c' : Vec4 (Val b32)) : Prop :=
  Faded e c.1 c'.1 ∧ Faded e c.2.1 c'.2.1 ∧ Faded e c.2.2.1 c'.2.2.1 ∧ Faded e c.2.2.2 c'.2.2.2

end Tmf.Spec
