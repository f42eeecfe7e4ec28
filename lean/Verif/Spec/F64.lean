import Mathlib.Data.Rat.Defs
import Mathlib.Algebra.Order.Field.Rat
/-
The binary64 interchange format as IEEE 754-2008 (3.4) describes it, least significant byte first.
-/

namespace Tmf.Spec

/-- The eight bytes of sign `s`, biased exponent `e` and trailing significand `m`. -/
def binary64Bytes (s : Bool) (e m : Nat) : List UInt8 :=
  [UInt8.ofNat m, UInt8.ofNat (m / 2 ^ 8), UInt8.ofNat (m / 2 ^ 16), UInt8.ofNat (m / 2 ^ 24), UInt8.ofNat (m / 2 ^ 32),
   UInt8.ofNat (m / 2 ^ 40), UInt8.ofNat (e % 16 * 16 + m / 2 ^ 48), UInt8.ofNat ((if s then 128 else 0) + e / 16)]

/-- The number they stand for if `e` is not 2047. -/
def binary64 (s : Bool) (e m : Nat) : ℚ :=
  (if s then -1 else 1) * (if e = 0 then (m : ℚ) / 2 ^ 52 * 2 ^ (-1022 : ℤ) else (1 + (m : ℚ) / 2 ^ 52) * 2 ^ ((e : ℤ) - 1023))

end Tmf.Spec
