import Verif.Model.Ieee
/-
The feature `double_precision`: `FloatType` is f64 (src/lib.rs:72-75). The rest of the program is
written in terms of `FloatType`, so the model is the same with other arithmetic. The conversions
`as f64` and `as FloatType` (src/vertices.rs:53-58,108-113, src/custom_data.rs:104-107,233-267) leave a number as it is.
`UvPrecisionMode::form_texture_resolution` takes f32 in both configurations (src/uv.rs:16), so
`uvPrecFromTexture` with these operations is not part of the program.
-/

namespace Tmf.Ieee

/-- The functions of the platform's libm on f64. -/
structure Libm64 where
  asin : Val b64 → Val b64
  sin : Val b64 → Val b64
  cos : Val b64 → Val b64
  log2 : Val b64 → Val b64

/-- The arithmetic of the program with `double_precision` (src/lib.rs:72-75, src/normals.rs:4-7,125). -/
@[reducible] def ops64 (lib : Libm64) : FloatOps where
  F := Val b64
  D := Val b64
  add := add
  sub := sub
  mul := mul
  div := div
  neg := neg
  abs := abs
  sqrt := sqrt
  min := min
  max := max
  lt := lt
  isFinite := isFinite
  isNaN := isNaN
  isSignNegative := isSignNegative
  ofNat := ofNat
  lit := lit
  infinity := .inf false
  minValue := pack true b64.max
  maxValue := pack false b64.max
  pi := rounded false (31415926535897932 * 2 ^ 1074) (10 ^ 16)
  fracPi2 := rounded false (31415926535897932 * 2 ^ 1074) (2 * 10 ^ 16)
  toU64 := toU64
  log2CeilU8 x := ceilU8 (lib.log2 x)
  asin := lib.asin
  sin := lib.sin
  cos := lib.cos
  toD x := x
  ofD x := x
  dAdd := add
  dSub := sub
  dMul := mul
  dDiv := div
  dOfNat := ofNat
  toU64_lt := by
    intro x
    cases x with
    | nan => show 0 < 2 ^ 64; decide
    | inf s => cases s <;> (show _ < 2 ^ 64; decide)
    | fin s n h =>
      cases s
      · exact Nat.lt_of_le_of_lt (Nat.min_le_right _ _) (by decide)
      · show 0 < 2 ^ 64; decide
  log2CeilU8_lt := by
    intro x
    cases lib.log2 x with
    | nan => show 0 < 256; decide
    | inf s => cases s <;> (show _ < 256; decide)
    | fin s n h =>
      show (if s = true then 0 else Nat.min ((n + (2 ^ b64.scale - 1)) / 2 ^ b64.scale) 255) < 256
      split
      · decide
      · exact Nat.lt_of_le_of_lt (Nat.min_le_right _ _) (by decide)

end Tmf.Ieee
