import Verif.Model.F64Bits
/-
The feature `fast_trig`: normals are decoded with an approximation of the sine instead of the one of
the platform's libm.
-/

namespace Tmf.Ieee

/-- The four lowest bytes of an f64 in memory, read as an i32: `*(&z as *const _ as *const _)`
(src/utilis.rs:35). The order of the bytes is that of a little-endian machine. -/
def lowI32 (x : Val b64) : Int :=
  if f64ToBits x % 2 ^ 32 < 2 ^ 31 then (f64ToBits x % 2 ^ 32 : Nat) else (f64ToBits x % 2 ^ 32 : Nat) - 2 ^ 32

/-- `k as f64` for an i32 (src/utilis.rs:36, 43). -/
def ofI32 (k : Int) : Val b64 := if k < 0 then neg (ofNat k.natAbs) else ofNat k.natAbs

/-- `std::f64::consts::PI` (src/utilis.rs:29). -/
def piD : Val b64 := lit 314159265358979323846264338327950288 35

/-- `fsin`, the polynomial without the reduction of its argument (src/utilis.rs:38-40). -/
def fsinPoly (x : Val b64) : Val b64 :=
  let y := mul x x
  let z := add (mul (sub (mul (lit 73524681968701 16) y) (lit 1652891139701474 16)) y) (lit 9996919862959676 16)
  mul x z

/-- The number of half turns `fsin` takes away from its argument (src/utilis.rs:34-35). -/
def fsinTurns (x : Val b64) : Int := lowI32 (add (mul x (lit 3183098861837907 16)) (lit 6755399441055744 0))

/-- `fsin` (src/utilis.rs:33-45). -/
def fsin (x : Val b64) : Val b64 :=
  let k := fsinTurns x
  let x := fsinPoly (sub x (mul (ofI32 k) piD))
  sub x (mul (ofI32 (2 * (k % 2))) x)

/-- `x` as `normal_from_encoding` computes it with the feature (src/normals.rs:108-109). -/
def fastSin (a : Val b32) : Val b32 := convert (fsin (convert a))

/-- `y` as `normal_from_encoding` computes it with the feature (src/normals.rs:110-111). -/
def fastCos (a : Val b32) : Val b32 := sqrt (sub (lit 1 0) (mul (fastSin a) (fastSin a)))

/-- What a build with the feature uses in the place of `sin_cos`; nothing else is affected by the
feature, and `sin_cos` is used nowhere else. -/
def fastLibm (lib : Libm) : Libm := { lib with sin := fastSin, cos := fastCos }

end Tmf.Ieee
