import Verif.Model.Float
/-
IEEE 754 binary32 and binary64 arithmetic with round-to-nearest-even, as an instance of
`FloatOps`. Rust requires `+ - * / sqrt`, comparisons and conversions to behave this way; `sin`,
`cos`, `asin` and `log2` come from the platform's libm and stay parameters. Simplified: there is one
NaN.
-/

namespace Tmf.Ieee

/-- A binary format: values are multiples of `2^(-scale)`, with `prec` significant bits, at most
`(2^prec - 1) * 2^top` units. -/
structure Fmt where
  prec : Nat
  scale : Nat
  top : Nat

/-- f32 -/
def b32 : Fmt := ⟨24, 149, 253⟩
/-- f64 -/
def b64 : Fmt := ⟨53, 1074, 2045⟩

/-- The largest finite value, in units. -/
def Fmt.max (f : Fmt) : Nat := (2 ^ f.prec - 1) * 2 ^ f.top

/-- The spacing of values near `q` units is `2^(spacing q)` units. -/
def Fmt.spacing (f : Fmt) (q : Nat) : Nat := if q < 2 ^ f.prec then 0 else Nat.log2 q + 1 - f.prec

/-- Nearest integer to `num / den`, ties to even. -/
def roundHalfEven (num den : Nat) : Nat :=
  if 2 * (num % den) < den then num / den
  else if den < 2 * (num % den) then num / den + 1
  else num / den + num / den % 2

/-- Round `num / den` units to the format (without an upper limit). -/
def Fmt.round (f : Fmt) (num den : Nat) : Nat :=
  roundHalfEven num (den * 2 ^ f.spacing (num / den)) * 2 ^ f.spacing (num / den)

/-- `n` units are a value of the format. -/
def Fmt.Rep (f : Fmt) (n : Nat) : Prop := f.round n 1 = n ∧ n ≤ f.max

instance (f : Fmt) (n : Nat) : Decidable (f.Rep n) := by unfold Fmt.Rep; infer_instance

/-- A floating-point value: `±n` units, an infinity or NaN. -/
inductive Val (f : Fmt) where
  | nan
  | inf (neg : Bool)
  | fin (neg : Bool) (n : Nat) (rep : f.Rep n)
deriving DecidableEq

variable {f : Fmt}

/-- The value with magnitude `n` units, if it is one; otherwise an infinity (overflow). -/
def pack (neg : Bool) (n : Nat) : Val f := if h : f.Rep n then .fin neg n h else .inf neg

/-- `±num / den` units, rounded. -/
def rounded (neg : Bool) (num den : Nat) : Val f := pack neg (f.round num den)

def signed (neg : Bool) (n : Nat) : Int := if neg then -n else n

def neg : Val f → Val f
  | .nan => .nan
  | .inf s => .inf (!s)
  | .fin s n h => .fin (!s) n h

def abs : Val f → Val f
  | .nan => .nan
  | .inf _ => .inf false
  | .fin _ n h => .fin false n h

/-- An exact sum is zero: `+0` unless both are negative. -/
def add : Val f → Val f → Val f
  | .nan, _ => .nan
  | _, .nan => .nan
  | .inf s, .inf t => if s = t then .inf s else .nan
  | .inf s, .fin _ _ _ => .inf s
  | .fin _ _ _, .inf t => .inf t
  | .fin s n _, .fin t m _ =>
    if signed s n + signed t m = 0 then rounded (s && t) 0 1
    else rounded (decide (signed s n + signed t m < 0)) (signed s n + signed t m).natAbs 1

def sub (x y : Val f) : Val f := add x (neg y)

def mul : Val f → Val f → Val f
  | .nan, _ => .nan
  | _, .nan => .nan
  | .inf s, .inf t => .inf (s != t)
  | .inf s, .fin t m _ => if m = 0 then .nan else .inf (s != t)
  | .fin s n _, .inf t => if n = 0 then .nan else .inf (s != t)
  | .fin s n _, .fin t m _ => rounded (s != t) (n * m) (2 ^ f.scale)

def div : Val f → Val f → Val f
  | .nan, _ => .nan
  | _, .nan => .nan
  | .inf _, .inf _ => .nan
  | .inf s, .fin t _ _ => .inf (s != t)
  | .fin s _ _, .inf t => rounded (s != t) 0 1
  | .fin s n _, .fin t m _ =>
    if m = 0 then (if n = 0 then .nan else .inf (s != t)) else rounded (s != t) (n * 2 ^ f.scale) m

/-- Integer square root by bisection, `fuel` bits. -/
def isqrt (x : Nat) : (fuel : Nat) → Nat
  | 0 => 0
  | k + 1 => bisect x k (2 ^ k) 0
where
  bisect (x : Nat) : (k : Nat) → (bit acc : Nat) → Nat
  | 0, bit, acc => if (acc + bit) * (acc + bit) ≤ x then acc + bit else acc
  | k + 1, bit, acc => bisect x k (bit / 2) (if (acc + bit) * (acc + bit) ≤ x then acc + bit else acc)

/-- The square root in units is `sqrt (n * 2^scale)`, which has far more than `prec` bits; one more
bit tells whether it is exact. -/
def sqrt : Val f → Val f
  | .nan => .nan
  | .inf false => .inf false
  | .inf true => .nan
  | .fin s n h =>
    if n = 0 then .fin s n h
    else if s then .nan
    else
      rounded false
        (2 * isqrt (n * 2 ^ f.scale) (f.scale + f.top + f.prec) +
          (if isqrt (n * 2 ^ f.scale) (f.scale + f.top + f.prec) * isqrt (n * 2 ^ f.scale) (f.scale + f.top + f.prec)
            = n * 2 ^ f.scale then 0 else 1)) 2

def lt : Val f → Val f → Bool
  | .nan, _ => false
  | _, .nan => false
  | .inf s, .inf t => s && !t
  | .inf s, .fin _ _ _ => s
  | .fin _ _ _, .inf t => !t
  | .fin s n _, .fin t m _ => decide (signed s n < signed t m)

/-- `f32::min`: the other argument if one is NaN. -/
def min : Val f → Val f → Val f
  | .nan, y => y
  | x, .nan => x
  | x, y => if lt y x then y else x

/-- `f32::max`. -/
def max : Val f → Val f → Val f
  | .nan, y => y
  | x, .nan => x
  | x, y => if lt x y then y else x

def isFinite : Val f → Bool
  | .fin _ _ _ => true
  | _ => false

def isNaN : Val f → Bool
  | .nan => true
  | _ => false

def isSignNegative : Val f → Bool
  | .nan => false
  | .inf s => s
  | .fin s _ _ => s

def ofNat (n : Nat) : Val f := rounded false (n * 2 ^ f.scale) 1

def lit (m k : Nat) : Val f := rounded false (m * 2 ^ f.scale) (10 ^ k)

/-- `as u64`: toward zero, saturating, NaN to 0. -/
def toU64 : Val f → Nat
  | .nan => 0
  | .inf s => if s then 0 else 2 ^ 64 - 1
  | .fin s n _ => if s then 0 else Nat.min (n / 2 ^ f.scale) (2 ^ 64 - 1)

/-- `x.ceil() as u8`, saturating. -/
def ceilU8 : Val f → Nat
  | .nan => 0
  | .inf s => if s then 0 else 255
  | .fin s n _ => if s then 0 else Nat.min ((n + (2 ^ f.scale - 1)) / 2 ^ f.scale) 255

/-- Conversion between formats. -/
def convert {f g : Fmt} : Val f → Val g
  | .nan => .nan
  | .inf s => .inf s
  | .fin s n _ => rounded s (n * 2 ^ g.scale) (2 ^ f.scale)

/-- The functions of the platform's libm. -/
structure Libm where
  asin : Val b32 → Val b32
  sin : Val b32 → Val b32
  cos : Val b32 → Val b32
  log2 : Val b32 → Val b32

/-- The arithmetic of the program: f32 and f64. -/
@[reducible] def ops (lib : Libm) : FloatOps where
  F := Val b32
  D := Val b64
  add := add
  sub := sub
  mul := mul
  div := div
  neg := neg
  abs := abs
  sqrt := sqrt
  min := min
  max := max
  lt := lt
  isFinite := isFinite
  isNaN := isNaN
  isSignNegative := isSignNegative
  ofNat := ofNat
  lit := lit
  infinity := .inf false
  minValue := pack true b32.max
  maxValue := pack false b32.max
  pi := rounded false (31415926535897932 * 2 ^ 149) (10 ^ 16)
  fracPi2 := rounded false (31415926535897932 * 2 ^ 149) (2 * 10 ^ 16)
  toU64 := toU64
  log2CeilU8 x := ceilU8 (lib.log2 x)
  asin := lib.asin
  sin := lib.sin
  cos := lib.cos
  toD := convert
  ofD := convert
  dAdd := add
  dSub := sub
  dMul := mul
  dDiv := div
  dOfNat := ofNat
  toU64_lt := by
    intro x
    cases x with
    | nan => show 0 < 2 ^ 64; decide
    | inf s => cases s <;> (show _ < 2 ^ 64; decide)
    | fin s n h =>
      cases s
      · exact Nat.lt_of_le_of_lt (Nat.min_le_right _ _) (by decide)
      · show 0 < 2 ^ 64; decide
  log2CeilU8_lt := by
    intro x
    cases lib.log2 x with
    | nan => show 0 < 256; decide
    | inf s => cases s <;> (show _ < 256; decide)
    | fin s n h =>
      show (if s = true then 0 else Nat.min ((n + (2 ^ b32.scale - 1)) / 2 ^ b32.scale) 255) < 256
      split
      · decide
      · exact Nat.lt_of_le_of_lt (Nat.min_le_right _ _) (by decide)

end Tmf.Ieee
