import Mathlib.Data.Rat.Cast.Order
import Mathlib.Algebra.Order.Ring.Abs
import Verif.Model.Ieee
/-
The numbers IEEE values stand for, and how far a decoded value may be from the original.
-/

namespace Tmf.Spec
open Ieee

/-- The number a finite value stands for. -/
def valueOf {f : Fmt} : Val f → ℚ
  | .fin s n _ => (signed s n : ℚ) / 2 ^ f.scale
  | _ => 0

/-- A finite value in [0,1]. -/
def UnitValue {f : Fmt} (x : Val f) : Prop := isFinite x = true ∧ 0 ≤ valueOf x ∧ valueOf x ≤ 1

/-- `y` is at most one step `1 / (2^p - 1)` below `x` and not above it. -/
def StepBelow {f : Fmt} (p : Nat) (x y : Val f) : Prop :=
  isFinite y = true ∧ valueOf y ≤ valueOf x ∧ valueOf x - valueOf y < 1 / (2 ^ p - 1)

/-- A coordinate for which `p` bits are enough: in [0,1], and below 1 if `p` is more than the 24
bits an f32 can count to. -/
def Storable (p : Nat) (x : Val b32) : Prop := UnitValue x ∧ (p ≤ 24 ∨ valueOf x < 1)

/-- The smallest and the largest of the numbers an array stands for. -/
structure Extent {f : Fmt} (data : List (Val f)) (lo hi : ℚ) : Prop where
  finite : ∀ x ∈ data, isFinite x = true
  lo_mem : ∃ x ∈ data, valueOf x = lo
  hi_mem : ∃ x ∈ data, valueOf x = hi
  bounds : ∀ x ∈ data, lo ≤ valueOf x ∧ valueOf x ≤ hi

/-- A width that the save functions can handle: the multiplier `(1 << p) - 1` is computed as an `i32`,
which fails for 31 bits with overflow checks and yields the largest `i32` without. -/
def Writable (b : Build) (p : Nat) : Prop := p ≤ 30 ∨ (b = .wrapping ∧ p = 31)

/-- Next to nothing: between 0 and `1 / 2^31`. -/
def Tiny {f : Fmt} (y : Val f) : Prop := isFinite y = true ∧ 0 ≤ valueOf y ∧ valueOf y ≤ 1 / 2 ^ 31

/-- `y` is a number at most `e` away from `x`. -/
def Within {f : Fmt} (e : ℚ) (x y : Val f) : Prop := isFinite y = true ∧ |valueOf y - valueOf x| ≤ e

/-- The square of the length. -/
def lengthSq {f : Fmt} (v : Vec3 (Val f)) : ℚ := valueOf v.1 ^ 2 + valueOf v.2.1 ^ 2 + valueOf v.2.2 ^ 2

/-- All components are finite. -/
def FiniteV {f : Fmt} (v : Vec3 (Val f)) : Prop := isFinite v.1 = true ∧ isFinite v.2.1 = true ∧ isFinite v.2.2 = true

/-- A finite vector of length `2^-72` to almost `2^64`. -/
structure Moderate (v : Vec3 (Val b32)) : Prop where
  finite : FiniteV v
  lower : 1 / 2 ^ 144 ≤ lengthSq v
  upper : lengthSq v ≤ 2 ^ 128 - 2 ^ 108

/-- `a` is `x / m` up to one rounding. -/
def Quotient (m : ℚ) (x a : Val b32) : Prop :=
  isFinite a = true ∧ |valueOf a - valueOf x / m| ≤ 1 / 2 ^ 24 * |valueOf x / m| + 1 / 2 ^ 150

/-- `w` is `v` scaled by one positive factor, up to one rounding of each component. -/
def SameDirection (v w : Vec3 (Val b32)) : Prop :=
  ∃ m : ℚ, 0 < m ∧ Quotient m v.1 w.1 ∧ Quotient m v.2.1 w.2.1 ∧ Quotient m v.2.2 w.2.2

/-- The square of the length is 1, up to `e`. -/
def AlmostUnit {f : Fmt} (e : ℚ) (w : Vec3 (Val f)) : Prop := |valueOf w.1 ^ 2 + valueOf w.2.1 ^ 2 + valueOf w.2.2 ^ 2 - 1| ≤ e

end Tmf.Spec
