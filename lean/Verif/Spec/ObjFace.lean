import Verif.Spec.ObjFile
/-
Specification of faces in .obj files: what counts as a number and which lines a text has.
-/

namespace Tmf.Spec

/-- `f` and words, with blanks between. -/
def faceLine (ws : List (List UInt8)) : List UInt8 := 102 :: ws.flatMap (fun w => 32 :: w)

/-- The number zero: zeros, perhaps after a plus sign. -/
def IsZero (w : List UInt8) : Prop := ∃ k, w = List.replicate (k + 1) 48 ∨ w = 43 :: List.replicate (k + 1) 48

/-- Not an unsigned number: empty, or with a character that is neither a digit nor a plus sign, for
example a minus sign. -/
def NotNumber (w : List UInt8) : Prop := w = [] ∨ ∃ c ∈ w, c ≠ 43 ∧ (c.toNat < 48 ∨ 57 < c.toNat)

instance (w : List UInt8) : Decidable (NotNumber w) := by unfold NotNumber; infer_instance

/-- The word, or 1 if it is not a number. -/
def orOne (w : List UInt8) : List UInt8 := if NotNumber w then ascii "1" else w

/-- A word of ASCII characters without line ends. -/
def AsciiWord (w : List UInt8) : Prop := ∀ c ∈ w, c.toNat < 128 ∧ c ≠ 32 ∧ c ≠ 47 ∧ c ≠ 10 ∧ c ≠ 13

/-- Blanks instead of slashes. -/
def slashesToBlanks (text : List UInt8) : List UInt8 := text.map fun c => if c = 47 then 32 else c

/-- The text has a line. -/
def HasLine (text line : List UInt8) : Prop :=
  (∀ c ∈ line, c ≠ 10 ∧ c ≠ 13) ∧ ∃ pre post, text = pre ++ line ++ 10 :: post ∧ (pre = [] ∨ ∃ p, pre = p ++ [10])

end Tmf.Spec
