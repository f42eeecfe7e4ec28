import Verif.Model.Ieee
/-
How the f64 values of the headers are laid out in a file: `f64::to_le_bytes` and
`f64::from_le_bytes` of Rust, which are the binary64 interchange format of IEEE 754, used in
src/vertices.rs:53-58, src/custom_data.rs:106-107 and src/read_extension.rs:31-35.
Simplified: there is one NaN (see Model/Ieee.lean), so every NaN pattern reads as it, and it is
written as the positive quiet NaN without payload.
-/

namespace Tmf.Ieee

/-- `f64::to_bits`. The spacing of the value says how far its digits are shifted; the leading digit
is left out, and is what makes the exponent field one larger than the shift. -/
def f64ToBits : Val b64 → Nat
  | .nan => 2047 * 2 ^ 52 + 2 ^ 51
  | .inf s => s.toNat * 2 ^ 63 + 2047 * 2 ^ 52
  | .fin s n _ => s.toNat * 2 ^ 63 + (b64.spacing n * 2 ^ 52 + n / 2 ^ b64.spacing n)

/-- The magnitude of a finite bit pattern with exponent field `e` and fraction field `m`. -/
def f64Units (e m : Nat) : Nat := if e = 0 then m else (2 ^ 52 + m) * 2 ^ (e - 1)

/-- `f64::from_bits`. -/
def f64OfBits (b : Nat) : Val b64 :=
  if b / 2 ^ 52 % 2 ^ 11 = 2047 then
    if b % 2 ^ 52 = 0 then .inf (decide (b / 2 ^ 63 % 2 = 1)) else .nan
  else pack (decide (b / 2 ^ 63 % 2 = 1)) (f64Units (b / 2 ^ 52 % 2 ^ 11) (b % 2 ^ 52))

/-- `f64::to_le_bytes`. -/
def f64ToLe (d : Val b64) : List UInt8 := leBytes 8 (f64ToBits d)

/-- `f64::from_le_bytes`. -/
def f64OfLe (bytes : List UInt8) : Val b64 := f64OfBits (leNat bytes)

end Tmf.Ieee
