import Verif.Spec.ObjFile
/-
Differences between .obj files that make no difference: line ends, comments, and the order of lines of
different kinds within an object.
-/

namespace Tmf.Spec

/-- A line of a file and whether a carriage return precedes its line feed. -/
structure PlainLine where
  text : List UInt8
  cr : Bool
deriving Repr, DecidableEq

/-- The text of a line has no line feed, and a carriage return at its end would be part of the line end. -/
structure PlainLine.Clean (l : PlainLine) : Prop where
  feed : 10 ∉ l.text
  ret : l.cr = false → l.text.getLast? ≠ some 13

/-- The text of a file; `last` is what follows the last line feed. -/
def plainFile (lines : List PlainLine) (last : List UInt8) : List UInt8 :=
  lines.flatMap (fun l => l.text ++ if l.cr then [13, 10] else [10]) ++ last

/-- All lines of a file. Nothing after the last line feed is no line. -/
def plainLines (lines : List PlainLine) (last : List UInt8) : List (List UInt8) :=
  lines.map PlainLine.text ++ if last = [] then [] else [last]

/-- The first words that mean something. -/
def keywords : List (List UInt8) := [ascii "v", ascii "vn", ascii "vt", ascii "f", ascii "o"]

/-- Lists of lines that say the same: lines without meaning may come and go, and neighbours of
different kinds may change places, if neither starts an object. -/
inductive SaysSame : List (List UInt8) → List (List UInt8) → Prop where
  | refl (ls : List (List UInt8)) : SaysSame ls ls
  | trans {ls ls' ls'' : List (List UInt8)} : SaysSame ls ls' → SaysSame ls' ls'' → SaysSame ls ls''
  | cons (l : List UInt8) {ls ls' : List (List UInt8)} : SaysSame ls ls' → SaysSame (l :: ls) (l :: ls')
  | remove {l : List UInt8} (ls : List (List UInt8)) : firstWord l ∉ keywords → IsText l → SaysSame (l :: ls) ls
  | insert {l : List UInt8} (ls : List (List UInt8)) : firstWord l ∉ keywords → IsText l → SaysSame ls (l :: ls)
  | swap {l l' : List UInt8} (ls : List (List UInt8)) : firstWord l ≠ firstWord l' → firstWord l ≠ ascii "o" →
    firstWord l' ≠ ascii "o" → SaysSame (l :: l' :: ls) (l' :: l :: ls)

/-- The same without exchanging lines. -/
inductive SaysSameInOrder : List (List UInt8) → List (List UInt8) → Prop where
  | refl (ls : List (List UInt8)) : SaysSameInOrder ls ls
  | trans {ls ls' ls'' : List (List UInt8)} : SaysSameInOrder ls ls' → SaysSameInOrder ls' ls'' → SaysSameInOrder ls ls''
  | cons (l : List UInt8) {ls ls' : List (List UInt8)} : SaysSameInOrder ls ls' → SaysSameInOrder (l :: ls) (l :: ls')
  | remove {l : List UInt8} (ls : List (List UInt8)) : firstWord l ∉ keywords → IsText l → SaysSameInOrder (l :: ls) ls
  | insert {l : List UInt8} (ls : List (List UInt8)) : firstWord l ∉ keywords → IsText l → SaysSameInOrder ls (l :: ls)

end Tmf.Spec
