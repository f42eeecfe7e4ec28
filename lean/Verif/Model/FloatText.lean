import Verif.Model.Obj
import Verif.Model.Ieee
/-
Decimal text of IEEE values, for the .obj functions (src/obj.rs:123-140 prints with `{}`,
src/obj.rs parses with `str::parse`): `FromStr` for `f32` and `f64` (correctly rounded), and
`Display`, which prints the shortest decimal that reads back, without an exponent. The standard
library is modelled from its documentation and `core::num::flt2dec`: digits are produced until
cutting them off, or raising the last one, reads back as the value.
-/

namespace Tmf.Ieee

/-- The leading digits and the rest. -/
def spanDigits : List UInt8 → List UInt8 × List UInt8
  | [] => ([], [])
  | c :: rest =>
    match digit? c with
    | some _ => (c :: (spanDigits rest).1, (spanDigits rest).2)
    | none => ([], c :: rest)

/-- ASCII lower case. -/
def lower (c : UInt8) : UInt8 := if 65 ≤ c.toNat ∧ c.toNat ≤ 90 then c + 32 else c

/-- An optional sign and the rest. -/
def spanSign : List UInt8 → Bool × List UInt8
  | [] => (false, [])
  | c :: rest => if c = 45 then (true, rest) else if c = 43 then (false, rest) else (false, c :: rest)

/-- A point and digits, both optional. -/
def spanFraction : List UInt8 → List UInt8 × List UInt8
  | [] => ([], [])
  | c :: rest => if c = 46 then spanDigits rest else ([], c :: rest)

/-- The exponent after the digits: nothing, or `e`, a sign and digits to the end. -/
def parseExponent : List UInt8 → Option Int
  | [] => some 0
  | c :: rest =>
    if lower c = 101 then
      let (neg, ds) := spanSign rest
      if ds = [] then none
      else match digitsValue 0 ds with
        | some e => some (if neg then -(e : Int) else e)
        | none => none
    else none

/-- `±m * 10^e` rounded. -/
def scaled {f : Fmt} (neg : Bool) (m : Nat) (e : Int) : Val f :=
  if 0 ≤ e then rounded neg (m * 10 ^ e.toNat * 2 ^ f.scale) 1
  else rounded neg (m * 2 ^ f.scale) (10 ^ (-e).toNat)

/-- An unsigned number. -/
def parseUnsigned {f : Fmt} (neg : Bool) (w : List UInt8) : Option (Val f) :=
  let whole := (spanDigits w).1
  let frac := spanFraction (spanDigits w).2
  if whole ++ frac.1 = [] then none
  else match digitsValue 0 (whole ++ frac.1), parseExponent frac.2 with
    | some m, some e => some (scaled neg m (e - frac.1.length))
    | _, _ => none

/-- `str::parse::<f32>`. -/
def parseVal {f : Fmt} (w : List UInt8) : Option (Val f) :=
  let (neg, w) := spanSign w
  if w.map lower = ascii "inf" ∨ w.map lower = ascii "infinity" then some (.inf neg)
  else if w.map lower = ascii "nan" then some .nan
  else parseUnsigned neg w

/-- The last `k` digits of `n`. -/
def padded : (k n : Nat) → List UInt8
  | 0, _ => []
  | k + 1, n => padded k (n / 10) ++ [UInt8.ofNat (48 + n % 10)]

/-- All values are below `10^decades`. -/
def Fmt.decades (f : Fmt) : Nat := f.prec + f.top - f.scale

/-- `10^decades` in units. -/
def Fmt.summit (f : Fmt) : Nat := 2 ^ f.scale * 10 ^ f.decades

/-- The digits of `n` units (`format_shortest` of `core::num::flt2dec::strategy::dragon`): `j` places
down from `10^decades`, the digits cut off (`down`) or with the last one raised (`up`), as soon as one
of them reads back; of two the closer one, and `up` in between. -/
def shortest (f : Fmt) (n : Nat) : (fuel j : Nat) → Nat × Nat
  | 0, j => (n * 10 ^ j / f.summit, j)
  | fuel + 1, j =>
    let m := n * 10 ^ j / f.summit
    let down := f.round (m * f.summit) (10 ^ j) = n
    let up := f.round ((m + 1) * f.summit) (10 ^ j) = n
    if up ∧ (¬ down ∨ f.summit ≤ 2 * (n * 10 ^ j % f.summit)) then (m + 1, j)
    else if down then (m, j)
    else shortest f n fuel (j + 1)

/-- `m * 10^(d - j)` written out (`digits_to_dec_str` of `core::num::flt2dec`). -/
def positional (d m j : Nat) : List UInt8 :=
  if j ≤ d then decimal (m * 10 ^ (d - j))
  else decimal (m / 10 ^ (j - d)) ++ 46 :: padded (j - d) (m % 10 ^ (j - d))

/-- `Display` for floats. -/
def printVal {f : Fmt} : Val f → List UInt8
  | .nan => ascii "NaN"
  | .inf s => (if s then [45] else []) ++ ascii "inf"
  | .fin s n _ =>
    let (m, j) := shortest f n (f.decades + f.scale) 0
    (if s then [45] else []) ++ positional f.decades m j

/-- Printing and parsing for the instance. -/
def floatText (lib : Libm) : FloatText (ops lib) := ⟨printVal, parseVal⟩

end Tmf.Ieee
