import Verif.Spec.Normals
/-
The edges of the triangles of an index array.
-/

namespace Tmf.Spec
open Ieee

/-- `i` and `j` are neighbouring corners of a complete triangle. -/
def IsEdge (tris : List Nat) (i j : Nat) : Prop :=
  ∃ k a b c, tris[3 * k]? = some a ∧ tris[3 * k + 1]? = some b ∧ tris[3 * k + 2]? = some c ∧
    (i = a ∧ j = b ∨ i = b ∧ j = c ∨ i = c ∧ j = a)

/-- A point with finite coordinates up to `2^58`. -/
def Bounded (v : Vec3 (Val b32)) : Prop :=
  (isFinite v.1 = true ∧ isFinite v.2.1 = true ∧ isFinite v.2.2 = true) ∧
    |valueOf v.1| ≤ 2 ^ 58 ∧ |valueOf v.2.1| ≤ 2 ^ 58 ∧ |valueOf v.2.2| ≤ 2 ^ 58

end Tmf.Spec
