import Verif.Model.OptVertices
import Verif.Spec.FloatLaws
/-
Specification of vertex splitting.
-/

namespace Tmf.Spec

/-- `ps` cuts `l` into consecutive pieces, none of them empty. -/
def Cuts {α : Type} (l : List α) (ps : List (List α)) : Prop :=
  ps.flatten = l ∧ ps ≠ [] ∧ (l ≠ [] → ∀ p ∈ ps, p ≠ [])

/-- The span of a piece, starting from the origin as the code does. -/
def spanOf (fo : FloatOps) (l : List (Vec3 fo.F)) : Span fo.F := l.foldl (expandSpan fo) (zeroSpan fo)

/-- The arithmetic on bit counts (`u8`) stays in range for every run of consecutive vertices, and a
longer run does not need fewer bits. -/
structure CountsFit (fo : FloatOps) (vs : List (Vec3 fo.F)) : Prop where
  total : ∀ l, l <:+: vs → ∃ n, rangeToVertexBitCount fo .checked (spanOf fo l) (fo.lit 1 2) = .ok n
  mono : ∀ l p, l <:+: vs → p <+: l → ∀ n k, rangeToVertexBitCount fo .checked (spanOf fo l) (fo.lit 1 2) = .ok n →
    rangeToVertexBitCount fo .checked (spanOf fo p) (fo.lit 1 2) = .ok k → k ≤ n

end Tmf.Spec
