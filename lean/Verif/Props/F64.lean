import Verif.Lemmas.F64Bits
import Verif.Lemmas.VertexAccuracy
import Verif.Lemmas.Arrays
import Verif.Props.AccuracyRange
import Verif.Spec.F64
import Mathlib.Tactic.FieldSimp
import Mathlib.Tactic.Ring
/-
C55: the f64 values of the headers are stored in the binary64 format, lose nothing, and are read
with the meaning IEEE 754 gives them.
-/

namespace Tmf.Props
open Spec Ieee

set_option exponentiation.threshold 3000

variable (lib : Libm)

theorem binary64Bytes_eq (s : Bool) (e : Nat) {m : Nat} (hm : m < 2 ^ 52) :
    binary64Bytes s e m = leBytes 8 (s.toNat * 2 ^ 63 + e * 2 ^ 52 + m) := by
  have hs : (if s then 128 else 0) = s.toNat * 128 := by cases s <;> rfl
  simp only [binary64Bytes, leBytes, hs]
  have := Bool.toNat_lt s
  generalize s.toNat = t at *
  have cut : ∀ a b : Nat, a % 256 = b % 256 → UInt8.ofNat a = UInt8.ofNat b := by
    intro a b h
    apply UInt8.toNat_inj.mp
    simpa [UInt8.toNat_ofNat] using h
  simp only [List.cons.injEq, and_true]
  norm_num at hm
  refine ⟨?_, ?_, ?_, ?_, ?_, ?_, ?_, ?_⟩ <;> apply cut <;> simp only [Nat.reducePow] <;> omega

theorem binary64_units (s : Bool) (e m : Nat) :
    (signed s (f64Units e m) : ℚ) / 2 ^ 1074 = binary64 s e m := by
  have hs : (signed s (f64Units e m) : ℚ) = (if s then -1 else 1) * (f64Units e m : ℚ) := by
    cases s <;> simp [signed]
  rw [hs, binary64, mul_div_assoc]
  congr 1
  have h52 : (2 : ℚ) ^ (52 : ℤ) = 2 ^ 52 := zpow_natCast 2 52
  have hu : (2 : ℚ) ^ (1074 : ℤ) = 2 ^ 1074 := zpow_natCast 2 1074
  have hp : (0 : ℚ) < 2 ^ 1074 := by positivity
  rw [f64Units]
  split
  · rw [show (-1022 : ℤ) = 52 - 1074 by norm_num, zpow_sub₀ (by norm_num), h52, hu]
    generalize (2 : ℚ) ^ 1074 = u at *
    field_simp
  · rw [show (e : ℤ) - 1023 = ((e - 1 : Nat) : ℤ) + 52 - 1074 by omega, zpow_sub₀ (by norm_num), zpow_add₀ (by norm_num),
      h52, hu, zpow_natCast, Nat.cast_mul, Nat.cast_add, Nat.cast_pow, Nat.cast_pow, Nat.cast_ofNat]
    generalize (2 : ℚ) ^ 1074 = u at *
    field_simp

/-- Eight bytes that are no infinity and no NaN are read as the number of IEEE 754, with its sign. -/
theorem C55_meaning {s : Bool} {e m : Nat} (he : e < 2047) (hm : m < 2 ^ 52) :
    isFinite ((f64Le lib).dec (binary64Bytes s e m)) = true ∧ isSignNegative ((f64Le lib).dec (binary64Bytes s e m)) = s ∧
      valueOf ((f64Le lib).dec (binary64Bytes s e m)) = binary64 s e m := by
  have h : (f64Le lib).dec (binary64Bytes s e m) = .fin s (f64Units e m) (f64Units_rep he hm) := by
    show f64OfLe _ = _
    rw [binary64Bytes_eq s e hm, f64OfLe, leNat_leBytes_of_lt, f64OfBits_finite he hm]
    have := Bool.toNat_lt s
    norm_num at *
    omega
  rw [h]
  exact ⟨rfl, rfl, binary64_units s e m⟩

/-- The others are read as infinities and NaN. -/
theorem C55_special {s : Bool} {m : Nat} (hm : m < 2 ^ 52) :
    (f64Le lib).dec (binary64Bytes s 2047 m) = if m = 0 then .inf s else .nan := by
  show f64OfLe _ = _
  obtain ⟨h1, h2, h3⟩ := fields (s := s.toNat) (e := 2047) (m := m) (Bool.toNat_lt s) (by omega) hm
  rw [binary64Bytes_eq s 2047 hm, f64OfLe, leNat_leBytes_of_lt, f64OfBits, h1, h2, h3, if_pos rfl]
  · cases s <;> rfl
  · have := Bool.toNat_lt s
    norm_num at *
    omega

/-- A finite value is written as the one pattern that means it. -/
theorem C55_written {d : Val b64} (hd : isFinite d = true) : ∃ e m, e < 2047 ∧ m < 2 ^ 52 ∧
    (f64Le lib).enc d = binary64Bytes (isSignNegative d) e m ∧ valueOf d = binary64 (isSignNegative d) e m := by
  cases d with
  | nan => simp [isFinite] at hd
  | inf s => simp [isFinite] at hd
  | fin s n h =>
    obtain ⟨e, m, he, hm, rfl, hb⟩ := f64ToBits_fin (s := s) h
    refine ⟨e, m, he, hm, ?_, binary64_units s e m⟩
    show f64ToLe _ = _
    rw [f64ToLe, hb, binary64Bytes_eq _ e hm]
    rfl

/-- Written values are read back unchanged, and so are read bytes written, unless they mean NaN. -/
theorem C55_exact : (∀ d, (f64Le lib).dec ((f64Le lib).enc d) = d) ∧
    ∀ l : List UInt8, l.length = 8 → (f64Le lib).dec l ≠ .nan → (f64Le lib).enc ((f64Le lib).dec l) = l := by
  refine ⟨f64OfLe_toLe, fun l hl hn => ?_⟩
  show leBytes 8 (f64ToBits (f64OfBits (leNat l))) = l
  have hlt := leNat_lt l
  rw [hl] at hlt
  rw [f64ToBits_ofBits (by norm_num at *; omega) hn, ← hl, leBytes_leNat]

/-- The corners of boxes and the limits of float data, which are f32 in memory and f64 in the file,
come back unchanged: finite or not, with the sign of zeros. -/
theorem C55_bounds (x : Val b32) : (ops lib).ofD ((f64Le lib).dec (f64Bytes (f64Le lib) x)) = x := by
  show convert (f64OfLe (f64ToLe (convert x))) = x
  rw [f64OfLe_toLe, narrow_widen]

/-- The header of a saved vertex array says how many vertices follow, exactly which box was used and
how many bits each coordinate has. -/
theorem C55_box {b : Build} {l : List (Vec3 (Val b32))} {prec edge : Val b32} {box : VBox (Val b32)} {bytes : List UInt8}
    (hs : saveVertices (ops lib) (f64Le lib) b l prec edge = .ok bytes) (hb : vertexBox (ops lib) l = .ok box)
    (hl : l.length ≤ MAX_SEG_SIZE) (hx : (box.precs (ops lib) prec edge).1 < 64)
    (hy : (box.precs (ops lib) prec edge).2.1 < 64) (hz : (box.precs (ops lib) prec edge).2.2 < 64) :
    ∃ rest, (readVerticesHeader (ops lib) (f64Le lib)).runSlice bytes = .ok ((l.length, box, box.precs (ops lib) prec edge), rest) := by
  have hr : box.reread (ops lib) = box := by
    simp only [VBox.reread, narrow_widen]
  simp only [saveVertices, hb, Outcome.bind_ok] at hs
  obtain ⟨mx, _, hs⟩ := Outcome.bind_eq_ok.mp hs
  obtain ⟨my, _, hs⟩ := Outcome.bind_eq_ok.mp hs
  obtain ⟨mz, _, hs⟩ := Outcome.bind_eq_ok.mp hs
  obtain ⟨w, _, hs⟩ := Outcome.bind_eq_ok.mp hs
  simp only [Outcome.ok.injEq] at hs
  subst hs
  refine ⟨w.finish, ?_⟩
  rw [readVerticesHeader_ok hl hx hy hz, hr]

theorem f64_one : f64ToLe (convert (lit 1 0 : Val b32)) = [0, 0, 0, 0, 0, 0, 0xF0, 0x3F] := by decide +kernel
theorem f64_tenth : f64ToLe (neg (lit 1 1)) = [0x9A, 0x99, 0x99, 0x99, 0x99, 0x99, 0xB9, 0xBF] := by decide +kernel
theorem f64_largest : f64OfLe [0xFF, 0xFF, 0xFF, 0xFF, 0xFF, 0xFF, 0xEF, 0xFF] = neg (pack false b64.max) := by decide +kernel
theorem f64_inf : f64OfLe [0, 0, 0, 0, 0, 0, 0xF0, 0xFF] = .inf true := by decide +kernel
theorem f64_nan : f64OfLe [1, 0, 0, 0, 0, 0, 0xF0, 0x7F] = .nan := by decide +kernel

/-- 1.0 is 3F F0 00 00 00 00 00 00, last byte first; -0.1 is BF B9 99 99 99 99 99 9A. -/
example : (f64Le lib).enc ((ops lib).toD (lit 1 0)) = [0, 0, 0, 0, 0, 0, 0xF0, 0x3F] ∧
    (f64Le lib).enc (neg (lit 1 1)) = [0x9A, 0x99, 0x99, 0x99, 0x99, 0x99, 0xB9, 0xBF] := by
  refine ⟨?_, f64_tenth⟩
  rw [ops_toD]
  exact f64_one

/-- The smallest positive number, the largest finite one negated, an infinity and a NaN. -/
example : valueOf ((f64Le lib).dec [1, 0, 0, 0, 0, 0, 0, 0]) = 1 / 2 ^ 1074 ∧
    (f64Le lib).dec [0xFF, 0xFF, 0xFF, 0xFF, 0xFF, 0xFF, 0xEF, 0xFF] = neg (pack false b64.max) ∧
    (f64Le lib).dec [0, 0, 0, 0, 0, 0, 0xF0, 0xFF] = .inf true ∧ (f64Le lib).dec [1, 0, 0, 0, 0, 0, 0xF0, 0x7F] = .nan := by
  have hd : (f64Le lib).dec = f64OfLe := rfl
  refine ⟨?_, by rw [hd, f64_largest], by rw [hd, f64_inf], by rw [hd, f64_nan]⟩
  have := (C55_meaning lib (s := false) (e := 0) (m := 1) (by decide) (by decide)).2.2
  rw [show binary64Bytes false 0 1 = [1, 0, 0, 0, 0, 0, 0, 0] by decide +kernel] at this
  rw [this, ← binary64_units]
  have hu : signed false (f64Units 0 1) = 1 := by decide
  rw [hu, Int.cast_one]

/-- The box of a vertex array that was saved. -/
example (hlog : AccurateLog2 lib) (b : Build) : ∃ bytes rest,
    saveVertices (ops lib) (f64Le lib) b [(vZero, vZero, vZero), (vFive, vOne, nine64), (vOne, vFive, vZero)] (lit 1 1) vOne = .ok bytes ∧
    (readVerticesHeader (ops lib) (f64Le lib)).runSlice bytes =
      .ok ((3, ⟨vZero, vFive, vZero, vFive, vZero, nine64⟩, (6, 6, 6)), rest) := by
  have hb : vertexBox (ops lib) [(vZero, vZero, vZero), (vFive, vOne, nine64), (vOne, vFive, vZero)] =
      .ok ⟨vZero, vFive, vZero, vFive, vZero, nine64⟩ := by rw [vertexBox_ops, box_example]
  have hp : (⟨vZero, vFive, vZero, vFive, vZero, nine64⟩ : VBox (Val b32)).precs (ops lib) (lit 1 1) vOne = (6, 6, 6) := by
    rw [precs_ops lib, bits_example lib hlog]
  have hl : [(vZero, vZero, vZero), (vFive, vOne, nine64), (vOne, vFive, vZero)].length ≤ MAX_SEG_SIZE := by
    show 3 ≤ 2 ^ 31
    decide
  obtain ⟨bytes, h1, _⟩ := readVertices_saved (fb := f64Le lib) (b := b) (precision := lit 1 1) (edge := vOne) hb
    (by rw [hp]; decide) (by rw [hp]; decide) (by rw [hp]; decide) hl
  obtain ⟨rest, h2⟩ := C55_box lib h1 hb hl (by rw [hp]; decide) (by rw [hp]; decide) (by rw [hp]; decide)
  rw [hp] at h2
  exact ⟨bytes, rest, h1, h2⟩

end Tmf.Props
