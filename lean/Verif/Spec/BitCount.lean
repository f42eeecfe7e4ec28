import Verif.Spec.Log2
/-
What the bit counts of the vertex splitter need of the platform and of the vertices.
-/

namespace Tmf.Spec
open Ieee

/-- The platform's `log2` does not fall where its argument grows. -/
def MonotoneLog2 (lib : Libm) : Prop :=
  ∀ x y, isFinite x = true → isFinite y = true → 1 ≤ valueOf x → valueOf x ≤ valueOf y →
    valueOf (lib.log2 x) ≤ valueOf (lib.log2 y)

/-- Finite coordinates up to `2^76`. -/
def WithinSpan (v : Vec3 (Val b32)) : Prop :=
  (isFinite v.1 = true ∧ isFinite v.2.1 = true ∧ isFinite v.2.2 = true) ∧
    |valueOf v.1| ≤ 2 ^ 76 ∧ |valueOf v.2.1| ≤ 2 ^ 76 ∧ |valueOf v.2.2| ≤ 2 ^ 76

end Tmf.Spec
