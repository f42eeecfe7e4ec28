import Verif.Model.Basic
/-
Floating-point arithmetic as a parameter. The code uses `FloatType = f32` (here `F`) and, in
file headers and the custom-data reader, `f64` (here `D`). Nothing is assumed about the
operations except that casts to `u64`/`u8` are in range; structural theorems therefore hold
for IEEE arithmetic with any libm.
-/

namespace Tmf

structure FloatOps where
  /-- f32 -/
  F : Type
  /-- f64 -/
  D : Type
  add : F → F → F
  sub : F → F → F
  mul : F → F → F
  div : F → F → F
  neg : F → F
  abs : F → F
  sqrt : F → F
  /-- `f32::min`, `f32::max` -/
  min : F → F → F
  max : F → F → F
  /-- `<` -/
  lt : F → F → Bool
  isFinite : F → Bool
  isNaN : F → Bool
  isSignNegative : F → Bool
  /-- `x as f32` for an unsigned integer below 2^64 -/
  ofNat : Nat → F
  /-- a decimal literal: `lit m k` is the f32 nearest to `m / 10^k` -/
  lit : Nat → Nat → F
  infinity : F
  /-- `f32::MIN`, `f32::MAX` -/
  minValue : F
  maxValue : F
  /-- `std::f64::consts::PI as f32` -/
  pi : F
  /-- `std::f32::consts::FRAC_PI_2` -/
  fracPi2 : F
  /-- `x as u64`, saturating -/
  toU64 : F → Nat
  /-- `x.log2().ceil() as u8`, saturating -/
  log2CeilU8 : F → Nat
  asin : F → F
  sin : F → F
  cos : F → F
  /-- `x as f64`, `x as f32` -/
  toD : F → D
  ofD : D → F
  dAdd : D → D → D
  dSub : D → D → D
  dMul : D → D → D
  dDiv : D → D → D
  dOfNat : Nat → D
  toU64_lt : ∀ x, toU64 x < 2 ^ 64
  log2CeilU8_lt : ∀ x, log2CeilU8 x < 256

/-- How f64 values are stored: `to_le_bytes` / `from_le_bytes`. -/
structure F64Bytes (fo : FloatOps) where
  enc : fo.D → List UInt8
  dec : List UInt8 → fo.D
  enc_length : ∀ d, (enc d).length = 8
  dec_enc : ∀ d, dec (enc d) = d

namespace FloatOps
variable (fo : FloatOps)

def zero : fo.F := fo.lit 0 0
def one : fo.F := fo.lit 1 0
def negOne : fo.F := fo.neg (fo.lit 1 0)

end FloatOps

abbrev Vec2 (F : Type) := F × F
abbrev Vec3 (F : Type) := F × F × F
abbrev Vec4 (F : Type) := F × F × F × F
/-- `Tangent`, src/tangents.rs:45. -/
abbrev Tangent (F : Type) := Vec3 F × F

/-- `((1 << bits) - 1)` in `i32`, as written in the save functions (src/vertices.rs:84-86,
src/uv.rs:39, src/normals.rs:71, src/custom_data.rs:104,120). With overflow checks shifts by
32 or more and `i32::MIN - 1` (31 bits) panic; without them the shift amount is masked and the
subtraction wraps. -/
def mulI32 (b : Build) (bits : Nat) : Outcome ExportError Nat :=
  match b with
  | .checked => if bits ≤ 30 then .ok (2 ^ bits - 1) else .panic
  | .wrapping => .ok (2 ^ (bits % 32) - 1)

end Tmf
