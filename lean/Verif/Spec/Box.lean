import Verif.Spec.EndToEnd
/-
Vertices and the bounds stored with them.
-/

namespace Tmf.Spec
open Ieee

/-- A finite number between `a` and `b`, whichever is the larger, up to the rounding of numbers of
size `M`. -/
def Between (M a b : ℚ) (y : Val b32) : Prop :=
  isFinite y = true ∧ Min.min a b - (M / 2 ^ 20 + 1 / 2 ^ 148) ≤ valueOf y ∧ valueOf y ≤ Max.max a b + (M / 2 ^ 20 + 1 / 2 ^ 148)

/-- The bound at place `j` of the six after the length of a vertex segment: least and largest x, y, z,
each an f64 in 8 bytes. -/
def boundAt {lib : Libm} (fb : F64Bytes (ops lib)) (data : List UInt8) (j : Nat) : Val b32 :=
  (ops lib).ofD (fb.dec ((data.drop (8 + 8 * j)).take 8))

/-- The width of the codes for axis `j` in a vertex segment: one of the three bytes after the bounds. -/
def widthAt (data : List UInt8) (j : Nat) : Nat := ((data.drop (56 + j)).headD 0).toNat

/-- All coordinates of `v` lie between `lo` and `hi`. -/
def InCube (lo hi : ℚ) (v : Vec3 (Val b32)) : Prop :=
  (isFinite v.1 = true ∧ isFinite v.2.1 = true ∧ isFinite v.2.2 = true) ∧
    (lo ≤ valueOf v.1 ∧ valueOf v.1 ≤ hi) ∧ (lo ≤ valueOf v.2.1 ∧ valueOf v.2.1 ≤ hi) ∧ lo ≤ valueOf v.2.2 ∧ valueOf v.2.2 ≤ hi

end Tmf.Spec
