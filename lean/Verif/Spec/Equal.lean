import Verif.Model.Mesh
import Mathlib.Data.List.Forall2
/-
C105: what it means that equal elements of an array stay equal. It speaks of lists only.
-/

namespace Tmf.Spec

/-- Entries that are equal in `l` are equal in `l'`, which has as many. -/
structure EqualStay {α : Type} (l l' : List α) : Prop where
  length : l'.length = l.length
  equal : ∀ (i j : Nat) (x x' y' : α), l[i]? = some x → l[j]? = some x → l'[i]? = some x' → l'[j]? = some y' → x' = y'

/-- The same for the floats and colours of custom data. -/
structure EqualCustom {F : Type} (d d' : CustomData F) : Prop where
  float : ∀ data p, d = .float data p → ∃ data' p', d' = .float data' p' ∧ EqualStay data data'
  color : ∀ data p, d = .color data p → ∃ data' p', d' = .color data' p' ∧ EqualStay data data'

end Tmf.Spec
