import Verif.Model.Basic
/-
What text is.
-/

namespace Tmf.Spec

/-- The bytes are the UTF-8 encoding of some text. -/
def IsText (bytes : List UInt8) : Prop := ∃ cs : List Char, bytes = cs.flatMap String.utf8EncodeChar

end Tmf.Spec
