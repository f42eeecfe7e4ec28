import Verif.Spec.Accuracy
import Verif.Spec.ObjFile
import Mathlib.Algebra.Order.Field.Basic
/-
Specification of decimal numbers: how they are written, what they stand for, and which float is
nearest.
-/

namespace Tmf.Spec
open Ieee

/-- The character of a digit. -/
def digitChar (d : Fin 10) : UInt8 := UInt8.ofNat (48 + d.val)

/-- The number some digits stand for. -/
def digitsNumber (l : List (Fin 10)) : Nat := l.foldl (fun n d => 10 * n + d.val) 0

/-- A sign: none, plus or minus. -/
inductive Sign where
  | none
  | plus
  | minus

def Sign.text : Sign → List UInt8
  | .none => []
  | .plus => ascii "+"
  | .minus => ascii "-"

def Sign.factor : Sign → ℚ
  | .minus => -1
  | _ => 1

/-- A decimal number as it is written: a sign, digits, perhaps a point and further digits, and
perhaps an exponent after `e` or `E`. -/
structure Decimal where
  sign : Sign
  whole : List (Fin 10)
  fraction : Option (List (Fin 10))
  exponent : Option (Bool × Sign × List (Fin 10))

/-- There are digits on one side of the point, and the exponent has digits. -/
def Decimal.Proper (d : Decimal) : Prop :=
  (d.whole ≠ [] ∨ ∃ l, d.fraction = some l ∧ l ≠ []) ∧ ∀ e, d.exponent = some e → e.2.2 ≠ []

def Decimal.text (d : Decimal) : List UInt8 :=
  d.sign.text ++ d.whole.map digitChar ++ (match d.fraction with | some l => ascii "." ++ l.map digitChar | none => []) ++
    match d.exponent with
    | some (capital, s, l) => (if capital then ascii "E" else ascii "e") ++ s.text ++ l.map digitChar
    | none => []

/-- Digits after the point. -/
def fractionNumber (l : List (Fin 10)) : ℚ := (digitsNumber l : ℚ) / 10 ^ l.length

/-- What the exponent multiplies with. -/
def power : Option (Bool × Sign × List (Fin 10)) → ℚ
  | some (_, .minus, l) => 1 / 10 ^ digitsNumber l
  | some (_, _, l) => 10 ^ digitsNumber l
  | none => 1

/-- The number itself. -/
def Decimal.value (d : Decimal) : ℚ :=
  d.sign.factor * (digitsNumber d.whole + fractionNumber (d.fraction.getD [])) * power d.exponent

/-- `x` is finite and no finite float is closer to `v`. -/
def Nearest {f : Fmt} (v : ℚ) (x : Val f) : Prop :=
  isFinite x = true ∧ ∀ y : Val f, isFinite y = true → |valueOf x - v| ≤ |valueOf y - v|

/-- A decimal number is the shortest text for `x` if it is written without an exponent, no decimal number that reads
as `x` is a multiple of a greater power of ten, and none that is a multiple of the same power is closer to `x`. -/
def ShortestFor {f : Fmt} (reads : List UInt8 → Option (Val f)) (d : Decimal) (x : Val f) : Prop :=
  d.Proper ∧ d.exponent = none ∧ reads d.text = some x ∧ ∃ (c : Nat) (e : ℤ), |d.value| = c * 10 ^ e ∧
    ∀ d' : Decimal, d'.Proper → reads d'.text = some x → ∀ (c' : Nat) (e' : ℤ), |d'.value| = c' * 10 ^ e' →
      e' ≤ e ∧ (e' = e → |d.value - valueOf x| ≤ |d'.value - valueOf x|)

/-- ASCII letters in lower case. -/
def lowerCase (c : UInt8) : UInt8 := if 65 ≤ c.toNat ∧ c.toNat ≤ 90 then c + 32 else c

/-- The words for infinities and NaN, in any case, with a sign. -/
def SpecialWord (w : List UInt8) : Prop :=
  ∃ (s : Sign) (r : List UInt8), w = s.text ++ r ∧
    r.map lowerCase ∈ [ascii "inf", ascii "infinity", ascii "nan"]

end Tmf.Spec
