import Verif.Spec.Normals
/-
What a precision setting should be: the fewest bits that give as many steps as were asked for.
-/

namespace Tmf.Spec

/-- `p` bits, at least `least`, give `steps` steps, and one bit less would not, up to a part in `2^16`
for the roundings of the quotient and of `log2`. -/
structure FewestBits (least p : Nat) (steps : ℝ) : Prop where
  least_le : least ≤ p
  enough : steps ≤ 2 ^ p * (1 + 1 / 2 ^ 16)
  needed : least < p → 2 ^ (p - 1) * (1 - 1 / 2 ^ 16) < steps

end Tmf.Spec
