/-
Specification vocabulary for index arrays.
-/

namespace Tmf.Spec

/-- `w` bits can represent every number up to `n`. -/
def Fits (n w : Nat) : Prop := n < 2 ^ w

/-- `pieces` are consecutive parts of `l`: put end to end they give `l`, and none is empty
(unless `l` itself is). -/
structure CutInto {α : Type} (l : List α) (pieces : List (List α)) : Prop where
  concat : pieces.flatten = l
  nonempty : l ≠ [] → ∀ p ∈ pieces, p ≠ []
  some_piece : pieces ≠ []

/-- Bytes a segment occupies in the file: type (1), length (4), compression (1), data. -/
def segmentBytes (dataLen : Nat) : Nat := 6 + dataLen

end Tmf.Spec
