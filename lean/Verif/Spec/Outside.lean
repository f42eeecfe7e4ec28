import Verif.Spec.Accuracy
/-
C110: what numbers outside [0,1] come back as, where numbers of [0,1] are expected.
-/

namespace Tmf.Spec
open Ieee

/-- Not a number of [0,1] and not above it: NaN, `-0`, a negative number or the negative infinity. -/
def NotAbove : Val b32 → Prop
  | .nan => True
  | .inf s => s = true
  | .fin s _ _ => s = true

/-- Too large to be counted in steps: the positive infinity, or `2^64` steps and more. -/
def TooFar (p : Nat) : Val b32 → Prop
  | .nan => False
  | .inf s => s = false
  | .fin s n h => (2 : ℚ) ^ 64 ≤ valueOf (.fin s n h : Val b32) * (2 ^ p - 1)

/-- A number `x` stored in `p` bits, with steps of `1 / (2^p - 1)`, and the number `y` loaded: what is
not above 0 becomes 0; what is too large becomes 1; and `n + f`, with `n` a whole number and `f` in [0,1),
becomes `f` less `n` steps (a coordinate in a repeated texture moves by one step with every repetition); the
last is left open for more than 24 bits. -/
structure Outside (p : Nat) (x y : Val b32) : Prop where
  low : NotAbove x → y = .fin false 0 (by decide +kernel)
  far : TooFar p x → y = .fin false (2 ^ 149) (by decide +kernel)
  beyond : p ≤ 24 → ∀ (n : Nat) (f : ℚ), isFinite x = true → valueOf x = n + f → 0 ≤ f → f < 1 → n + 2 ≤ f * (2 ^ p - 1) →
    valueOf x * (2 ^ p - 1) ≤ 2 ^ 20 →
    isFinite y = true ∧ f - (n + 5 / 4) / (2 ^ p - 1) ≤ valueOf y ∧ valueOf y ≤ f - (n - 1 / 4) / (2 ^ p - 1)

end Tmf.Spec
