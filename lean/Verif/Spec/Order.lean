import Verif.Spec.Accuracy
/-
C104: what it means that an array keeps the order of its numbers. It speaks of values only.
-/

namespace Tmf.Spec
open Ieee

/-- Of two entries of `l` that are admitted by `ok`, the one with the smaller number (`sel`) has no larger
number in `l'`; both are finite there. -/
structure KeepsOrder {α : Type} (sel : α → Val b32) (ok : α → Prop) (l l' : List α) : Prop where
  length : l'.length = l.length
  finite : ∀ (i : Nat) (x x' : α), l[i]? = some x → l'[i]? = some x' → ok x → isFinite (sel x') = true
  order : ∀ (i j : Nat) (x x' y y' : α), l[i]? = some x → l'[i]? = some x' → l[j]? = some y → l'[j]? = some y' →
    ok x → ok y → valueOf (sel x) ≤ valueOf (sel y) → valueOf (sel x') ≤ valueOf (sel y')

end Tmf.Spec
