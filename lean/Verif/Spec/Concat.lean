import Verif.Model.Basic
/-
Putting pieces of an array together.
-/

namespace Tmf.Spec

/-- The array made of the given pieces in order; absent if there are none. -/
def joined {α : Type} (pieces : List (List α)) : Option (List α) :=
  match pieces with
  | [] => none
  | _ => some pieces.flatten

/-- Decode each part and apply it before looking at the next. -/
def inOrder {ε σ δ μ : Type} (decode : σ → Outcome ε δ) (apply : μ → δ → μ) (m : μ) : List σ → Outcome ε μ
  | [] => .ok m
  | s :: rest =>
    match decode s with
    | .ok d => inOrder decode apply (apply m d) rest
    | .err e => .err e
    | .panic => .panic

end Tmf.Spec
