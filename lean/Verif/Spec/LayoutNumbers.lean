import Verif.Spec.Layout
import Verif.Spec.Normals
import Mathlib.Analysis.SpecialFunctions.Trigonometric.Basic
/-
What the codes in a file mean, as exact numbers: a reading rule for other programs, without floating
point.
-/

namespace Tmf.Spec
open Ieee

/-- `q` lies on the stretch of the scale from `a` to `b` that the `w` bit code `c` stands for, give or
take `e`: code `c` is the point `c / (2^w - 1)` of the way, and numbers are rounded down to a point. -/
def OnScale (a b e : ℚ) (w c : Nat) (q : ℚ) : Prop :=
  a + c / (2 ^ w - 1) * (b - a) - e ≤ q ∧ q < a + (c + 1) / (2 ^ w - 1) * (b - a) + e

/-- What the code is wherever `q` lies, also outside the scale from `a` to `a + s`: 0 below it; otherwise the steps
from `a` to `q`, counted up to a millionth and rounded down, without the bits that are beyond the code. -/
def StepsCode (a s : ℚ) (w c : Nat) (q : ℚ) : Prop :=
  |q - a| ≤ 2 ^ 30 * s → (q < a → c = 0) ∧ (a ≤ q → ∃ k : Nat, c = k % 2 ^ w ∧
    (k : ℚ) ≤ (1 + 1 / 2 ^ 20) * ((q - a) / s * (2 ^ w - 1)) + 1 / 2 ^ 100 ∧
    (1 - 1 / 2 ^ 20) * ((q - a) / s * (2 ^ w - 1)) - 1 / 2 ^ 100 < k + 1)

/-- A number: every one has its steps; one between 0 and 1 (below 1, with 25 bits or more) is on the scale. -/
def UnitCode (w : Nat) (x : Val b32) (c : Nat) : Prop :=
  1 ≤ w → w ≤ 31 → (isFinite x = true → StepsCode 0 1 w c (valueOf x)) ∧
    (Storable w x → c ≤ 2 ^ w - 1 ∧ OnScale 0 1 (1 / 2 ^ 23) w c (valueOf x))

/-- A coordinate: every one has its steps, on a scale at least a millionth long; one between the two ends of its axis
is on the scale, unless they are less than a millionth apart or, with 25 bits or more, it is at the upper end. -/
def AxisCode (lo hi : List UInt8) (w : Nat) (x : Val b32) (c : Nat) : Prop :=
  isFinite x = true → ∀ a b, IsF64 lo a → IsF64 hi b → 1 ≤ w → w ≤ 31 →
    (|b - a| ≤ 2 ^ 127 → |valueOf x - a| ≤ 2 ^ 127 → StepsCode a (Max.max (b - a) (1 / 10 ^ 6)) w c (valueOf x)) ∧
    (a ≤ valueOf x → valueOf x ≤ b → 1 / 999999 ≤ b - a → b - a ≤ 2 ^ 127 →
      (25 ≤ w → valueOf x - a ≤ (1 - 1 / 2 ^ 21) * (b - a)) → c ≤ 2 ^ w - 1 ∧ OnScale a b ((b - a) / 2 ^ 21) w c (valueOf x))

/-- A number between the smallest and the largest of its array has its steps, and is on the scale (not at the upper
end, with 25 bits or more). -/
def FloatCode (lo hi : List UInt8) (w : Nat) (x : Val b32) (c : Nat) : Prop :=
  isFinite x = true → ∀ a b, IsF64 lo a → IsF64 hi b → a ≤ valueOf x ∧ valueOf x ≤ b ∧
    (1 ≤ w → w ≤ 31 → a < b → b - a ≤ 2 ^ 127 → StepsCode a (b - a) w c (valueOf x) ∧
      ((25 ≤ w → valueOf x - a ≤ (1 - 1 / 2 ^ 21) * (b - a)) →
        c ≤ 2 ^ w - 1 ∧ OnScale a b ((b - a) / 2 ^ 21) w c (valueOf x)))

/-- Three signs; the height is |z|; the angle, in quarter turns, is the one of (|y|, |x|). Height and
angle are numbers of steps (`steps`, `turn`) of which only the low bits are kept: with 25 bits or more, the z axis has
no height, and vectors near the x axis no angle. -/
structure NormalMeans (w : Nat) (n : Vec3 (Val b32)) (c : NormalBits) : Prop where
  nx : isFinite n.1 = true → (c.nx = true ↔ valueOf n.1 < 0)
  ny : isFinite n.2.1 = true → (c.ny = true ↔ valueOf n.2.1 < 0)
  nz : isFinite n.2.2 = true → (c.nz = true ↔ valueOf n.2.2 < 0)
  steps : isFinite n.2.2 = true → 1 ≤ w → w ≤ 31 → StepsCode 0 1 w c.height |valueOf n.2.2|
  height : isFinite n.2.2 = true → 1 ≤ w → w ≤ 31 → |valueOf n.2.2| ≤ 1 → (25 ≤ w → |valueOf n.2.2| < 1) →
    c.height ≤ 2 ^ w - 1 ∧ OnScale 0 1 (1 / 2 ^ 23) w c.height |valueOf n.2.2|
  turn : isFinite n.1 = true → isFinite n.2.1 = true → 1 ≤ w → w ≤ 31 → |valueOf n.1| ≤ 9 / 8 → |valueOf n.2.1| ≤ 9 / 8 →
    1 / 2 ^ 40 ≤ valueOf n.1 ^ 2 + valueOf n.2.1 ^ 2 → ∃ k : Nat, c.angle = k % 2 ^ w ∧
    |Real.sin (k / (2 ^ w - 1) * (Real.pi / 2)) - |realOf n.1| / √(realOf n.1 ^ 2 + realOf n.2.1 ^ 2)| ≤
      1.5708 / (2 ^ w - 1) + 1 / 2 ^ 18
  angle : isFinite n.1 = true → isFinite n.2.1 = true → 1 ≤ w → w ≤ 31 → |valueOf n.1| ≤ 9 / 8 → |valueOf n.2.1| ≤ 9 / 8 →
    1 / 2 ^ 40 ≤ valueOf n.1 ^ 2 + valueOf n.2.1 ^ 2 → (25 ≤ w → |valueOf n.1| ≤ 512 * |valueOf n.2.1|) → c.angle ≤ 2 ^ w - 1 ∧
    |Real.sin (c.angle / (2 ^ w - 1) * (Real.pi / 2)) - |realOf n.1| / √(realOf n.1 ^ 2 + realOf n.2.1 ^ 2)| ≤
      1.5708 / (2 ^ w - 1) + 1 / 2 ^ 19

/-- The rule for every kind of element. -/
def numbers : Meaning (Val b32) where
  vertex box w v c := AxisCode box.minX box.maxX w.1 v.1 c.1 ∧ AxisCode box.minY box.maxY w.2.1 v.2.1 c.2.1 ∧
    AxisCode box.minZ box.maxZ w.2.2 v.2.2 c.2.2
  normal := NormalMeans
  hand h c := isFinite h = true → valueOf h ≠ 0 → (c = true ↔ valueOf h < 0)
  uv w x c := UnitCode w x.1 c.1 ∧ UnitCode w x.2 c.2
  float := FloatCode
  channel := UnitCode

end Tmf.Spec
