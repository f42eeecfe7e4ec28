import Verif.Model.Basic
/-
Specification of bit strings, independent of the reader and writer.
-/

namespace Tmf.Spec

/-- The `w` low bits of `v`, most significant first. -/
def bits : (w v : Nat) → List Bool
  | 0, _ => []
  | w + 1, v => v.testBit w :: bits w v

/-- The number a bit string denotes, most significant bit first. -/
def value (l : List Bool) : Nat := l.foldl (fun a b => 2 * a + b.toNat) 0

/-- The bits of a byte string, each byte most significant bit first. -/
def byteBits (bs : List UInt8) : List Bool := bs.flatMap (fun b => bits 8 b.toNat)

/-- The bits of a list of (width, value) pairs, one after another. -/
def fieldBits (l : List (Nat × Nat)) : List Bool := l.flatMap (fun p => bits p.1 p.2)

/-- Total number of bits of a list of fields. -/
def fieldWidth (l : List (Nat × Nat)) : Nat := (l.map Prod.fst).sum

end Tmf.Spec
