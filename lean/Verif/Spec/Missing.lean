import Verif.Model.Ieee
import Verif.Model.Mesh
import Verif.Spec.Accuracy
/-
C112: vertices with NaN for a coordinate.
-/

namespace Tmf.Spec
open Ieee

/-- NaN, or a number of size at most `M`. -/
def Plain (M : ℚ) (x : Val b32) : Prop := x = .nan ∨ (isFinite x = true ∧ |valueOf x| ≤ M)

/-- A vertex array some coordinates of which are NaN, but none of the last vertex. -/
structure Patchy (M : ℚ) (l : List (Vec3 (Val b32))) : Prop where
  all : ∀ v ∈ l, Plain M v.1 ∧ Plain M v.2.1 ∧ Plain M v.2.2
  last : ∀ v, l.getLast? = some v → isFinite v.1 = true ∧ isFinite v.2.1 = true ∧ isFinite v.2.2 = true

/-- `y` is the least of the numbers among `xs`. -/
structure Least (xs : List (Val b32)) (y : Val b32) : Prop where
  finite : isFinite y = true
  among : ∃ x ∈ xs, isFinite x = true ∧ valueOf x = valueOf y
  le : ∀ x ∈ xs, isFinite x = true → valueOf y ≤ valueOf x

/-- What NaN becomes: an `x` the least `x` of all vertices, a `y` the least of all `y` and `z` but the last `y`, a `z` the
least of all `y` and `z`. -/
structure Filled (l : List (Vec3 (Val b32))) (v v' : Vec3 (Val b32)) : Prop where
  x : v.1 = .nan → Least (l.map fun v => v.1) v'.1
  y : v.2.1 = .nan → Least ((l.map fun v => v.2.2) ++ l.dropLast.map fun v => v.2.1) v'.2.1
  z : v.2.2 = .nan → Least ((l.map fun v => v.2.2) ++ l.map fun v => v.2.1) v'.2.2

/-- Room for one step of a box reaching from `-M` to `M`, or a millionth, and for rounding. -/
def stepRoom (p : Nat) (M : ℚ) : ℚ := Max.max (2 * M / (2 ^ p - 1)) (1 / 999999) + M / 2 ^ 19 + 1 / 2 ^ 148

/-- The numbers beside a NaN come back within a step. -/
structure Beside (p : Nat × Nat × Nat) (M : ℚ) (v v' : Vec3 (Val b32)) : Prop where
  x : isFinite v.1 = true → Within (stepRoom p.1 M) v.1 v'.1
  y : isFinite v.2.1 = true → Within (stepRoom p.2.1 M) v.2.1 v'.2.1
  z : isFinite v.2.2 = true → Within (stepRoom p.2.2 M) v.2.2 v'.2.2

end Tmf.Spec
