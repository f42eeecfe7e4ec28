import Verif.Model.Ieee
/-
The exact number of bits, for comparison and for examples.
-/

set_option exponentiation.threshold 2000

namespace Tmf.Ieee

/-- The exact `ceil(log2 x)`, saturating. -/
def exactBits : Val b32 → Nat
  | .nan => 0
  | .inf s => if s then 0 else 255
  | .fin s n _ => if s ∨ n ≤ 2 ^ 149 then 0 else Nat.log2 (n - 1) + 1 - 149

/-- A `log2` for examples: rounded up to an integer. -/
def ceilLog2 : Val b32 → Val b32
  | .inf false => .inf false
  | x => ofNat (exactBits x)

end Tmf.Ieee
