import Verif.Model.Mesh
import Verif.Model.DoublePrecision
import Verif.Spec.Accuracy
/-
What saving and loading keeps with the feature `double_precision`.
-/

namespace Tmf.Spec
open Ieee

/-- The deviation allowed for one axis: a step of `lo` to `hi` in `p` bits, at least a millionth, and
the rounding errors of f64 numbers up to `M`. -/
def axisStep64 (p : Nat) (lo hi M : ℚ) : ℚ := Max.max ((hi - lo) / (2 ^ p - 1)) (1 / 999999) + M / 2 ^ 48 + 1 / 2 ^ 1073

/-- Within the steps of the three axes. The extent the code uses for x reaches up to the largest x or
y, the one for y from the smallest y or z to the largest x or y, the one for z starts at the smallest
y or z. -/
structure NearVertex64 (l : List (Vec3 (Val b64))) (p : Nat × Nat × Nat) (M : ℚ) (v v' : Vec3 (Val b64)) : Prop where
  x : ∀ lo hi, (∀ w ∈ l, lo ≤ valueOf w.1 ∧ valueOf w.1 ≤ hi ∧ valueOf w.2.1 ≤ hi) → Within (axisStep64 p.1 lo hi M) v.1 v'.1
  y : ∀ lo hi, (∀ w ∈ l, lo ≤ valueOf w.2.1 ∧ lo ≤ valueOf w.2.2 ∧ valueOf w.1 ≤ hi ∧ valueOf w.2.1 ≤ hi) →
    Within (axisStep64 p.2.1 lo hi M) v.2.1 v'.2.1
  z : ∀ lo hi, (∀ w ∈ l, lo ≤ valueOf w.2.1 ∧ lo ≤ valueOf w.2.2 ∧ valueOf w.2.2 ≤ hi) →
    Within (axisStep64 p.2.2 lo hi M) v.2.2 v'.2.2

/-- The four channels of a colour, each at most one step below. -/
def ColorBelow (p : Nat) (c c' : Vec4 (Val b64)) : Prop :=
  StepBelow p c.1 c'.1 ∧ StepBelow p c.2.1 c'.2.1 ∧ StepBelow p c.2.2.1 c'.2.2.1 ∧ StepBelow p c.2.2.2 c'.2.2.2

/-- A colour with channels from 0 to 1. -/
def UnitColor (c : Vec4 (Val b64)) : Prop := UnitValue c.1 ∧ UnitValue c.2.1 ∧ UnitValue c.2.2.1 ∧ UnitValue c.2.2.2

/-- Custom data as it comes back: indices and integers exactly, floats that are not all equal within one step of
their range and rounding, colours at most one step below. `pf` and `pc` are the widths used. -/
inductive KeptCustom64 (pf : List (Val b64) → Val b64 → Nat) (pc : Val b64 → Nat) :
    CustomData (Val b64) → CustomData (Val b64) → Prop
  | index (l : List Nat) (m m' : Nat) : KeptCustom64 pf pc (.index l m) (.index l m')
  | integer (l : List Nat) (m m' : Nat) : KeptCustom64 pf pc (.integer l m) (.integer l m')
  | float (data data' : List (Val b64)) (p p' : Val b64) (hlen : data'.length = data.length)
      (hp : 1 ≤ pf data p ∧ pf data p ≤ 30)
      (h : ∀ lo hi, Extent data lo hi → lo < hi → |lo| ≤ 2 ^ 120 → |hi| ≤ 2 ^ 120 →
        List.Forall₂ (Within ((hi - lo) / (2 ^ pf data p - 1) + Max.max |lo| |hi| / 2 ^ 48 + 1 / 2 ^ 1073)) data data') :
      KeptCustom64 pf pc (.float data p) (.float data' p')
  | color (data data' : List (Vec4 (Val b64))) (p p' : Val b64) (hlen : data'.length = data.length) (hp : pc p ≤ 30)
      (h : 1 ≤ pc p → (∀ c ∈ data, UnitColor c) → List.Forall₂ (ColorBelow (pc p)) data data') :
      KeptCustom64 pf pc (.color data p) (.color data' p')

end Tmf.Spec
