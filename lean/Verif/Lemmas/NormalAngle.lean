import Verif.Lemmas.AccuracyHigh
import Verif.Lemmas.SqrtLower
import Verif.Lemmas.NormalReal
import Verif.Lemmas.Arrays
import Verif.Lemmas.RangeFold
import Mathlib.Analysis.Real.Pi.Bounds
/-
The encoding of normals in f32 arithmetic.
-/

set_option exponentiation.threshold 2000

namespace Tmf.Ieee
open Spec Geometry

/-! ### The quantised normal, component by component -/

def setSign (s : Bool) (x : Val b32) : Val b32 := if s then neg x else x

/-- `sqrt (x² + y²)` of the encoder. -/
def magXY (n : Vec3 (Val b32)) : Val b32 :=
  sqrt (add (mul (abs n.1) (abs n.1)) (mul (abs n.2.1) (abs n.2.1)))

/-- The angle around the axis, as a fraction of a quarter turn. -/
def angleFrac (lib : Libm) (n : Vec3 (Val b32)) : Val b32 := div (lib.asin (div (abs n.1) (magXY n))) halfPi32

/-- The decoded angle. -/
def angleQ (lib : Libm) (p : Nat) (n : Vec3 (Val b32)) : Val b32 := mul (unitQ p (angleFrac lib n)) halfPi32

/-- The decoded distance from the axis. -/
def magQ (z : Val b32) : Val b32 := sqrt (sub (lit 1 0) (mul z z))

theorem halfPi_eq : div (rounded false (31415926535897932 * 2 ^ 149) (10 ^ 16)) (lit 2 0) = halfPi32 := by decide +kernel

variable (lib : Libm)

theorem ops_absOp : (ops lib).abs = abs := rfl
theorem ops_sqrtOp : (ops lib).sqrt = sqrt := rfl
theorem ops_ltOp : (ops lib).lt = lt := rfl
theorem ops_negOp : (ops lib).neg = neg := rfl
theorem ops_sinOp : (ops lib).sin = lib.sin := rfl
theorem ops_cosOp : (ops lib).cos = lib.cos := rfl
theorem ops_asinOp : (ops lib).asin = lib.asin := rfl
theorem ops_piOp : (ops lib).pi = rounded false (31415926535897932 * 2 ^ 149) (10 ^ 16) := rfl

theorem withSign_eq : withSign (ops lib) = setSign := rfl

theorem quantNormal_eq {p : Nat} (hp1 : 1 ≤ p) (n : Vec3 (Val b32)) :
    quantNormal (ops lib) p n =
      (setSign (lt n.1 (lit 0 0)) (mul (lib.sin (angleQ lib p n)) (magQ (unitQ p (abs n.2.2)))),
       setSign (lt n.2.1 (lit 0 0)) (mul (lib.cos (angleQ lib p n)) (magQ (unitQ p (abs n.2.2)))),
       setSign (lt n.2.2 (lit 0 0)) (unitQ p (abs n.2.2))) := by
  rw [quantNormal, normalFromEncoding, if_neg (by omega), storedNormal, normalCode, withSign_eq lib, FloatOps.zero, FloatOps.one]
  dsimp only
  rw [halfPi_eq]
  rfl

/-! ### Values -/

theorem halfPi_fin : halfPi32 = .fin false (13176795 * 2 ^ 126) (by decide +kernel) := by decide +kernel

theorem halfPi_value : isFinite halfPi32 = true ∧ valueOf halfPi32 = 13176795 / 2 ^ 23 := by
  rw [halfPi_fin]
  refine ⟨rfl, ?_⟩
  rw [valueOf_fin]
  simp only [sgn, Bool.false_eq_true, if_false, one_mul]
  rw [show b32.scale = 149 from rfl]
  norm_num

theorem lit_one : isFinite (lit 1 0 : Val b32) = true ∧ valueOf (lit 1 0 : Val b32) = 1 := by
  have : (lit 1 0 : Val b32) = .fin false (2 ^ 149) (by decide +kernel) := by decide +kernel
  rw [this]
  refine ⟨rfl, ?_⟩
  rw [valueOf_fin]
  simp only [sgn, Bool.false_eq_true, if_false, one_mul]
  rw [show b32.scale = 149 from rfl]
  norm_num

theorem lit_zero : isFinite (lit 0 0 : Val b32) = true ∧ valueOf (lit 0 0 : Val b32) = 0 := by
  have : (lit 0 0 : Val b32) = .fin false 0 (by decide +kernel) := by decide +kernel
  rw [this]
  refine ⟨rfl, ?_⟩
  rw [valueOf_fin, Nat.cast_zero, zero_div, mul_zero]

theorem abs_fin_value {x : Val b32} (hx : isFinite x = true) : isFinite (abs x) = true ∧ valueOf (abs x) = |valueOf x| := by
  obtain ⟨s, n, hn, rfl⟩ := finite_cases hx
  refine ⟨rfl, ?_⟩
  rw [abs_valueOf_fin, Ieee.abs, valueOf_fin]
  simp [sgn]

theorem setSign_value (s : Bool) (x : Val b32) : isFinite (setSign s x) = isFinite x ∧
    valueOf (setSign s x) = if s then -valueOf x else valueOf x := by
  cases s
  · exact ⟨rfl, rfl⟩
  · exact neg_value x

theorem small_le_max {v : ℚ} (h : |v| ≤ 2 ^ 60) : |v| ≤ maxV b32 := le_trans h (le_trans (by norm_num) maxV32)

/-- The decoded angle is in [0, π/2]. -/
theorem angle_value {a : Val b32} (ha : UnitValue a) : isFinite (mul a halfPi32) = true ∧ 0 ≤ valueOf (mul a halfPi32) ∧
    valueOf (mul a halfPi32) ≤ valueOf halfPi32 ∧ |valueOf (mul a halfPi32) - valueOf a * valueOf halfPi32| ≤ 1 / 2 ^ 23 := by
  obtain ⟨hf, h0, h1⟩ := ha
  obtain ⟨pf, pv⟩ := halfPi_value
  have hle : valueOf a * valueOf halfPi32 ≤ valueOf halfPi32 := by
    rw [pv]
    exact le_trans (mul_le_mul_of_nonneg_right h1 (by norm_num)) (le_of_eq (by ring))
  have hnn : 0 ≤ valueOf a * valueOf halfPi32 := mul_nonneg h0 (by rw [pv]; norm_num)
  have h := mul_value (f := b32) (by decide) hf pf (small_le_max (by
    rw [abs_of_nonneg hnn]
    exact le_trans hle (by rw [pv]; norm_num)))
  refine ⟨h.1, ?_, ?_, ?_⟩
  · rw [h.2]; exact rnd_nonneg hnn
  · rw [h.2]; exact rnd_le_valueOf (by decide) hle
  · rw [h.2]
    refine le_trans (rnd32_error _) ?_
    rw [abs_of_nonneg hnn]
    rw [pv] at hle ⊢
    generalize valueOf a * (13176795 / 2 ^ 23) = w at *
    norm_num at *
    linarith

/-- The decoded distance from the axis. -/
theorem magQ_value {z : Val b32} (hz : UnitValue z) : isFinite (magQ z) = true ∧ 0 ≤ valueOf (magQ z) ∧
    |valueOf (magQ z) ^ 2 + valueOf z ^ 2 - 1| ≤ 1 / 2 ^ 21 := by
  obtain ⟨hf, h0, h1⟩ := hz
  obtain ⟨of, ov⟩ := lit_one
  have hzz : 0 ≤ valueOf z * valueOf z := mul_self_nonneg _
  have hzz1 : valueOf z * valueOf z ≤ 1 := by nlinarith
  have hm := mul_value (f := b32) (by decide) hf hf (small_le_max (by
    rw [abs_of_nonneg hzz]; exact le_trans hzz1 (by norm_num)))
  have hm0 : 0 ≤ valueOf (mul z z) := by rw [hm.2]; exact rnd_nonneg hzz
  have hm1 : valueOf (mul z z) ≤ 1 := by
    rw [hm.2, ← ov]
    exact rnd_le_valueOf (by decide) (by rw [ov]; exact hzz1)
  have he1 := rnd32_error (valueOf z * valueOf z)
  rw [← hm.2, abs_of_nonneg hzz] at he1
  have hs := sub_value (f := b32) (by decide) of hm.1 (small_le_max (by
    rw [ov, abs_of_nonneg (by linarith)]; exact le_trans (show 1 - valueOf (mul z z) ≤ 1 by linarith) (by norm_num)))
  have hs0 : 0 ≤ valueOf (sub (lit 1 0) (mul z z)) := by rw [hs.2, ov]; exact rnd_nonneg (by linarith)
  have hs1 : valueOf (sub (lit 1 0) (mul z z)) ≤ 1 := by
    rw [hs.2, ov]
    have h := rnd_le_valueOf (f := b32) (by decide) (v := 1 - valueOf (mul z z)) (x := lit 1 0) (by rw [ov]; linarith)
    rwa [ov] at h
  have he2 := rnd32_error (1 - valueOf (mul z z))
  rw [abs_of_nonneg (show 0 ≤ 1 - valueOf (mul z z) by linarith)] at he2
  have e2 : rnd b32 (1 - valueOf (mul z z)) = valueOf (sub (lit 1 0) (mul z z)) := by rw [hs.2, ov]
  rw [e2] at he2
  have hmain : isFinite (magQ z) = true ∧ 0 ≤ valueOf (magQ z) ∧
      |valueOf (magQ z) ^ 2 - valueOf (sub (lit 1 0) (mul z z))| ≤ 3 / 2 ^ 24 := by
    rcases eq_or_lt_of_le hs0 with he | hlt
    · rw [magQ]
      obtain ⟨s, n, hn, hfin⟩ := finite_cases hs.1
      rw [hfin] at he ⊢
      have hn0 : n = 0 := by
        have h := abs_valueOf_fin s n hn
        rw [← he, abs_zero] at h
        rcases (div_eq_zero_iff.mp h.symm) with h | h
        · exact_mod_cast h
        · exact absurd h (units_pos b32).ne'
      subst hn0
      simp only [sqrt, if_true]
      refine ⟨rfl, by rw [← he], ?_⟩
      rw [← he]
      norm_num
    · obtain ⟨a1, a2, a3⟩ := sqrt_value hs.1 hlt
      refine ⟨a1, a2.le, le_trans a3 ?_⟩
      exact le_trans (mul_le_mul_of_nonneg_left hs1 (by norm_num)) (by norm_num)
  refine ⟨hmain.1, hmain.2.1, ?_⟩
  have h3 := hmain.2.2
  rw [sq (valueOf z)]
  generalize valueOf (magQ z) ^ 2 = G at *
  generalize valueOf (sub (lit 1 0) (mul z z)) = s at *
  generalize valueOf (mul z z) = w at *
  generalize valueOf z * valueOf z = q at *
  rw [abs_le] at *
  norm_num at *
  constructor <;> linarith [h3.1, h3.2, he1.1, he1.2, he2.1, he2.2]

/-- A component of the decoded normal. -/
theorem component_value {S g : Val b32} (hS : isFinite S = true) (hg : isFinite g = true) (bS : |valueOf S| ≤ 9 / 8)
    (bg : |valueOf g| ≤ 9 / 8) : isFinite (mul S g) = true ∧ valueOf (mul S g) = rnd b32 (valueOf S * valueOf g) ∧
      |valueOf (mul S g) - valueOf S * valueOf g| ≤ 1 / 2 ^ 23 := by
  have hb : |valueOf S * valueOf g| ≤ 81 / 64 := by
    rw [abs_mul]
    exact le_trans (mul_le_mul bS bg (abs_nonneg _) (by norm_num)) (by norm_num)
  have h := mul_value (f := b32) (by decide) hS hg (small_le_max (le_trans hb (by norm_num)))
  refine ⟨h.1, h.2, ?_⟩
  rw [h.2]
  refine le_trans (rnd32_error _) ?_
  generalize |valueOf S * valueOf g| = w at *
  norm_num at *
  linarith

/-- The distance from the axis in the encoder, unless it is tiny. -/
theorem magXY_value {x y : Val b32} (hx : isFinite x = true) (hy : isFinite y = true) (x0 : 0 ≤ valueOf x) (y0 : 0 ≤ valueOf y)
    (bx : valueOf x ≤ 9 / 8) (by' : valueOf y ≤ 9 / 8) (hQ : 1 / 2 ^ 40 ≤ valueOf x ^ 2 + valueOf y ^ 2) :
    isFinite (sqrt (add (mul x x) (mul y y))) = true ∧ 0 < valueOf (sqrt (add (mul x x) (mul y y))) ∧
      |valueOf (sqrt (add (mul x x) (mul y y))) ^ 2 - (valueOf x ^ 2 + valueOf y ^ 2)| ≤
        7 / 2 ^ 24 * (valueOf x ^ 2 + valueOf y ^ 2) ∧
      valueOf x ≤ valueOf (sqrt (add (mul x x) (mul y y))) := by
  have ax : |valueOf x| ≤ 9 / 8 := by rw [abs_of_nonneg x0]; exact bx
  have ay : |valueOf y| ≤ 9 / 8 := by rw [abs_of_nonneg y0]; exact by'
  obtain ⟨fx, vx, -⟩ := component_value hx hx ax ax
  obtain ⟨fy, vy, -⟩ := component_value hy hy ay ay
  have ex := rnd32_error (valueOf x * valueOf x)
  have ey := rnd32_error (valueOf y * valueOf y)
  rw [← vx, abs_of_nonneg (mul_self_nonneg (valueOf x)), ← sq] at ex
  rw [← vy, abs_of_nonneg (mul_self_nonneg (valueOf y)), ← sq] at ey
  have nx : 0 ≤ valueOf (mul x x) := by rw [vx]; exact rnd_nonneg (mul_self_nonneg _)
  have ny : 0 ≤ valueOf (mul y y) := by rw [vy]; exact rnd_nonneg (mul_self_nonneg _)
  have sx : valueOf x ^ 2 ≤ 81 / 64 := le_trans (pow_le_pow_left₀ x0 bx 2) (by norm_num)
  have sy : valueOf y ^ 2 ≤ 81 / 64 := le_trans (pow_le_pow_left₀ y0 by' 2) (by norm_num)
  have hsum : valueOf (mul x x) + valueOf (mul y y) ≤ 3 := by
    rw [abs_le] at ex ey
    have h1 := ex.2
    have h2 := ey.2
    generalize valueOf x ^ 2 = a at *
    generalize valueOf y ^ 2 = b at *
    norm_num at h1 h2
    linarith
  have ha := add_value (f := b32) (by decide) fx fy (small_le_max (by
    rw [abs_of_nonneg (by linarith)]; exact le_trans hsum (by norm_num)))
  have ea := rnd32_error_add (mul x x) (mul y y)
  rw [← ha.2, abs_of_nonneg (show 0 ≤ valueOf (mul x x) + valueOf (mul y y) by linarith)] at ea
  have hs : |valueOf (add (mul x x) (mul y y)) - (valueOf x ^ 2 + valueOf y ^ 2)| ≤ 3 / 2 ^ 24 * (valueOf x ^ 2 + valueOf y ^ 2) := by
    generalize valueOf (add (mul x x) (mul y y)) = s at *
    generalize valueOf (mul x x) = u at *
    generalize valueOf (mul y y) = v at *
    have hx2 := sq_nonneg (valueOf x)
    have hy2 := sq_nonneg (valueOf y)
    generalize valueOf x ^ 2 = a at *
    generalize valueOf y ^ 2 = b at *
    rw [abs_le] at *
    norm_num at *
    constructor <;> linarith [ex.1, ex.2, ey.1, ey.2, ea.1, ea.2]
  have hpos : 0 < valueOf (add (mul x x) (mul y y)) := by
    rw [abs_le] at hs
    have := hs.1
    generalize valueOf x ^ 2 + valueOf y ^ 2 = q at *
    norm_num at *
    linarith
  obtain ⟨f1, p1, e1⟩ := sqrt_value ha.1 hpos
  refine ⟨f1, p1, ?_, ?_⟩
  · generalize valueOf (sqrt (add (mul x x) (mul y y))) ^ 2 = g at *
    generalize valueOf (add (mul x x) (mul y y)) = s at *
    generalize valueOf x ^ 2 + valueOf y ^ 2 = q at *
    rw [abs_le] at *
    norm_num at *
    constructor <;> linarith [hs.1, hs.2, e1.1, e1.2]
  · rcases le_or_gt (1 / 2 ^ 40) (valueOf x) with hb | hb
    · refine le_sqrt hx hb ha.1 ?_
      rw [← vx, ha.2]
      exact valueOf_le_rnd (by decide) (by linarith)
    · by_contra hc
      push Not at hc
      have h1 : valueOf (sqrt (add (mul x x) (mul y y))) ^ 2 < (1 / 2 ^ 40) ^ 2 :=
        pow_lt_pow_left₀ (lt_trans hc hb) p1.le (by decide)
      generalize valueOf (sqrt (add (mul x x) (mul y y))) ^ 2 = g at *
      generalize valueOf (add (mul x x) (mul y y)) = s at *
      generalize valueOf x ^ 2 + valueOf y ^ 2 = q at *
      rw [abs_le] at hs e1
      have a1 := hs.1
      have a2 := e1.1
      norm_num at *
      linarith

/-! ### The whole normal -/

theorem codeStep_cast (p : Nat) : (((1 : ℚ) / (2 ^ p - 1) : ℚ) : ℝ) = codeStep p := by
  rw [codeStep]; push_cast; rfl

theorem codeStep_bounds {p : Nat} (hp1 : 1 ≤ p) : 0 < codeStep p ∧ codeStep p ≤ 1 := by
  have h : (2 : ℝ) ≤ 2 ^ p := by
    calc (2 : ℝ) = 2 ^ 1 := (pow_one 2).symm
      _ ≤ 2 ^ p := pow_le_pow_right₀ (by norm_num) hp1
  rw [codeStep]
  exact ⟨div_pos one_pos (by linarith), (div_le_one (by linarith)).mpr (by linarith)⟩

/-- An integer that fits u64, as f32. -/
theorem ofNat_rnd {c : Nat} (hc : c < 2 ^ 64) : isFinite (ofNat c : Val b32) = true ∧ valueOf (ofNat c : Val b32) = rnd b32 c := by
  refine rounded_value (by decide) false (by decide) (v := (c : ℚ)) ?_ ?_
  · rw [show b32.scale = 149 from rfl]
    simp only [sgn, Bool.false_eq_true, if_false, one_mul]
    rw [Nat.cast_mul, Nat.cast_pow, Nat.cast_ofNat, Nat.cast_one, div_one, mul_div_assoc, div_self (by positivity), mul_one]
  · refine le_trans ?_ maxV32
    have h : ((c : ℕ) : ℚ) ≤ ((2 ^ 64 : ℕ) : ℚ) := Nat.cast_le.mpr hc.le
    push_cast at h
    rw [abs_of_nonneg (Nat.cast_nonneg c)]
    exact le_trans h (by norm_num)

/-- A code divided by the largest code is in [0, 1]. -/
theorem code_unit {p c : Nat} (hp1 : 1 ≤ p) (hp : p < 64) (hc : c < 2 ^ p) :
    UnitValue (div (ofNat c : Val b32) (ofNat (2 ^ p - 1))) := by
  have h64 : 2 ^ p ≤ 2 ^ 63 := Nat.pow_le_pow_right (by decide) (by omega)
  have h2 : 2 ^ 1 ≤ 2 ^ p := Nat.pow_le_pow_right (by decide) hp1
  obtain ⟨cf, cv⟩ := ofNat_rnd (c := c) (by omega)
  obtain ⟨mf, mv⟩ := ofNat_rnd (c := 2 ^ p - 1) (by omega)
  have c0 : 0 ≤ valueOf (ofNat c : Val b32) := by rw [cv]; exact rnd_nonneg (Nat.cast_nonneg c)
  have one : valueOf (ofNat 1 : Val b32) = 1 := by
    rw [ofNat_exact (by decide), valueOf_fin, show b32.scale = 149 from rfl]
    simp only [sgn, Bool.false_eq_true, if_false, one_mul]
    norm_num
  have m1 : 1 ≤ valueOf (ofNat (2 ^ p - 1) : Val b32) := by
    rw [mv, ← one]
    refine valueOf_le_rnd (by decide) ?_
    rw [one]
    exact_mod_cast (show 1 ≤ 2 ^ p - 1 by omega)
  have cm : valueOf (ofNat c : Val b32) ≤ valueOf (ofNat (2 ^ p - 1) : Val b32) := by
    rw [cv, mv]
    exact rnd_mono (by decide) (by exact_mod_cast (show c ≤ 2 ^ p - 1 by omega))
  have q0 : 0 ≤ valueOf (ofNat c : Val b32) / valueOf (ofNat (2 ^ p - 1) : Val b32) := div_nonneg c0 (by linarith)
  have q1 : valueOf (ofNat c : Val b32) / valueOf (ofNat (2 ^ p - 1) : Val b32) ≤ 1 := by
    rw [div_le_one (by linarith)]; exact cm
  obtain ⟨df, dv⟩ := div_value (f := b32) (by decide) cf mf (by linarith)
    (small_le_max (by rw [abs_of_nonneg q0]; exact le_trans q1 (by norm_num)))
  refine ⟨df, by rw [dv]; exact rnd_nonneg q0, ?_⟩
  rw [dv, ← one]
  exact rnd_le_valueOf (by decide) (v := valueOf (ofNat c : Val b32) / valueOf (ofNat (2 ^ p - 1) : Val b32)) (by rw [one]; exact q1)

theorem unitQ_unit {p : Nat} (hp1 : 1 ≤ p) (hp : p < 64) (x : Val b32) : UnitValue (unitQ p x) :=
  code_unit hp1 hp (Nat.mod_lt _ (by positivity))

/-- The decoded angle is always between 0 and π/2. -/
theorem angleQ_value {p : Nat} (hp1 : 1 ≤ p) (hp : p < 64) (n : Vec3 (Val b32)) :
    isFinite (angleQ lib p n) = true ∧ 0 ≤ valueOf (angleQ lib p n) ∧ valueOf (angleQ lib p n) ≤ valueOf halfPi32 := by
  obtain ⟨h1, h2, h3, -⟩ := angle_value (unitQ_unit hp1 hp (angleFrac lib n))
  exact ⟨h1, h2, h3⟩

/-- The angle to the x axis is not below `1 / 1024` if y is not much smaller than x. -/
theorem arcsin_off {q X Y R : ℝ} (q0 : 0 ≤ q) (q1 : q ≤ 1) (hX : 0 ≤ X) (hR : 0 < R) (hRR : R ^ 2 = X ^ 2 + Y ^ 2)
    (hq : |q * R - X| ≤ 1 / 2 ^ 21 * R) (h : X ≤ 512 * |Y|) : Real.arcsin q ≤ Real.pi / 2 - 1 / 2 ^ 10 := by
  have h2 : X ^ 2 ≤ 2 ^ 18 * Y ^ 2 := by
    have := pow_le_pow_left₀ hX h 2
    rw [mul_pow, sq_abs] at this
    linarith
  have hX1 : X ≤ (1 - 1 / 2 ^ 20) * R := by
    by_contra hc
    push Not at hc
    have := pow_lt_pow_left₀ hc (mul_nonneg (by norm_num) hR.le) (n := 2) (by decide)
    rw [mul_pow] at this
    have hR2 : 0 < R ^ 2 := by positivity
    norm_num at this h2
    linarith
  have hq1 : q ≤ 1 - 1 / 2 ^ 21 := by
    by_contra hc
    push Not at hc
    have := mul_lt_mul_of_pos_right hc hR
    rw [abs_le] at hq
    linarith [hq.2]
  have hpi := Real.pi_gt_three
  rw [Real.arcsin_le_iff_le_sin ⟨by linarith, q1⟩ ⟨by linarith, by linarith⟩, Real.sin_pi_div_two_sub]
  refine le_trans hq1 (le_trans (le_of_eq ?_) Real.one_sub_sq_div_two_le_cos)
  norm_num

/-- Away from the axis, the decoded angle is near the angle of the original. With more than 24 bits, only
away from the x axis. -/
theorem angleQ_near {lib : Libm} (hlib : AccurateLibm lib) {p : Nat} (hp1 : 1 ≤ p) (hp : p ≤ 31) {n : Vec3 (Val b32)}
    (hoff : p ≤ 24 ∨ |valueOf n.1| ≤ 512 * |valueOf n.2.1|)
    (hx : isFinite n.1 = true) (hy : isFinite n.2.1 = true) (bx : |valueOf n.1| ≤ 9 / 8) (by' : |valueOf n.2.1| ≤ 9 / 8)
    (hQ : 1 / 2 ^ 40 ≤ valueOf n.1 ^ 2 + valueOf n.2.1 ^ 2) {X Y R : ℝ} (hXr : X = |realOf n.1|)
    (hYr : Y = |realOf n.2.1|) (hR : 0 < R) (hRR : R ^ 2 = X ^ 2 + Y ^ 2) :
    ∃ q : ℝ, 0 ≤ q ∧ q ≤ 1 ∧ |q * R - X| ≤ 1 / 2 ^ 21 * R ∧
      |realOf (angleQ lib p n) - Real.arcsin q| ≤ 1.5708 * codeStep p + 1 / 2 ^ 21 := by
  obtain ⟨fx, vx⟩ := abs_fin_value hx
  obtain ⟨fy, vy⟩ := abs_fin_value hy
  obtain ⟨mf, m0, me, mx⟩ := magXY_value fx fy (by rw [vx]; exact abs_nonneg _) (by rw [vy]; exact abs_nonneg _)
    (by rw [vx]; exact bx) (by rw [vy]; exact by') (by rw [vx, vy, sq_abs, sq_abs]; exact hQ)
  have hX0 : 0 ≤ valueOf (abs n.1) := by rw [vx]; exact abs_nonneg _
  have hm : magXY n = sqrt (add (mul (abs n.1) (abs n.1)) (mul (abs n.2.1) (abs n.2.1))) := rfl
  rw [← hm] at mf m0 me mx
  have hq1 : valueOf (abs n.1) / valueOf (magXY n) ≤ 1 := (div_le_one m0).mpr mx
  have hq0 : 0 ≤ valueOf (abs n.1) / valueOf (magXY n) := div_nonneg hX0 m0.le
  obtain ⟨of, ov⟩ := lit_one
  obtain ⟨pf, pv⟩ := halfPi_value
  have pp : 0 < valueOf halfPi32 := by rw [pv]; norm_num
  -- the quotient
  obtain ⟨qf, qv⟩ := div_value (f := b32) (by decide) fx mf m0.ne' (small_le_max (by
    rw [abs_of_nonneg hq0]; exact le_trans hq1 (by norm_num)))
  have qu : UnitValue (div (abs n.1) (magXY n)) := by
    refine ⟨qf, by rw [qv]; exact rnd_nonneg hq0, ?_⟩
    have h := rnd_le_valueOf (f := b32) (by decide) (v := valueOf (abs n.1) / valueOf (magXY n)) (x := lit 1 0) (by rw [ov]; exact hq1)
    rw [qv]; rwa [ov] at h
  have qe := rnd32_error (valueOf (abs n.1) / valueOf (magXY n))
  rw [← qv, abs_of_nonneg hq0] at qe
  -- its arc sine
  obtain ⟨tf, tn, t0, t1⟩ := hlib.asin_near _ qu
  have ha0 : 0 ≤ valueOf (lib.asin (div (abs n.1) (magXY n))) / valueOf halfPi32 := div_nonneg t0 pp.le
  have ha1 : valueOf (lib.asin (div (abs n.1) (magXY n))) / valueOf halfPi32 ≤ 1 := (div_le_one pp).mpr t1
  obtain ⟨af, av⟩ := div_value (f := b32) (by decide) tf pf pp.ne' (small_le_max (by
    rw [abs_of_nonneg ha0]; exact le_trans ha1 (by norm_num)))
  have au : UnitValue (angleFrac lib n) := by
    refine ⟨af, ?_, ?_⟩
    · rw [angleFrac, av]; exact rnd_nonneg ha0
    · have h := rnd_le_valueOf (f := b32) (by decide)
        (v := valueOf (lib.asin (div (abs n.1) (magXY n))) / valueOf halfPi32) (x := lit 1 0) (by rw [ov]; exact ha1)
      rw [angleFrac, av]; rwa [ov] at h
  have ae := rnd32_error (valueOf (lib.asin (div (abs n.1) (magXY n))) / valueOf halfPi32)
  rw [← av, abs_of_nonneg ha0] at ae
  have hqn : |realOf (div (abs n.1) (magXY n)) * R - X| ≤ 1 / 2 ^ 21 * R := by
    replace hXr : X = ((valueOf (abs n.1) : ℚ) : ℝ) := by rw [hXr, realOf, vx]; push_cast; rfl
    replace hYr : Y = ((valueOf (abs n.2.1) : ℚ) : ℝ) := by rw [hYr, realOf, vy]; push_cast; rfl
    rw [hXr, hYr] at hRR
    rw [hXr]
    refine axis_quotient_near (g := realOf (magXY n)) (by exact_mod_cast hX0) (by rw [realOf]; exact_mod_cast mx) hR
      (by rw [realOf]; exact_mod_cast m0) ?_ ?_
    · have h := (Rat.cast_le (K := ℝ)).mpr me
      push_cast at h
      rw [hRR, realOf]; exact h
    · have h := (Rat.cast_le (K := ℝ)).mpr qe
      push_cast at h
      rw [realOf, realOf]; exact h
  have hlt : p ≤ 24 ∨ valueOf (angleFrac lib n) < 1 := hoff.imp_right fun h => by
    have hXY : X ≤ 512 * |Y| := by
      have h' := (Rat.cast_le (K := ℝ)).mpr h
      push_cast at h'
      rw [hXr, hYr, abs_abs]
      exact h'
    have hle := arcsin_off (by rw [realOf]; exact_mod_cast qu.2.1) (by rw [realOf]; exact_mod_cast qu.2.2)
      (by rw [hXr]; exact abs_nonneg _) hR hRR hqn hXY
    have hA : div (lib.asin (div (abs n.1) (magXY n))) halfPi32 = angleFrac lib n := rfl
    rw [hA] at ae
    have hs : valueOf (lib.asin (div (abs n.1) (magXY n))) ≤ 31415927 / 20000000 - 1 / 2 ^ 11 := by
      have hpi := Real.pi_lt_d6
      have : ((valueOf (lib.asin (div (abs n.1) (magXY n))) : ℚ) : ℝ) ≤ ((31415927 / 20000000 - 1 / 2 ^ 11 : ℚ) : ℝ) := by
        push_cast
        rw [abs_le] at tn
        have := tn.2
        rw [realOf] at this
        norm_num at *
        linarith
      exact_mod_cast this
    have hT : valueOf (lib.asin (div (abs n.1) (magXY n))) / valueOf halfPi32 ≤ 1 - 1 / 2 ^ 13 := by
      rw [div_le_iff₀ pp, pv]
      refine le_trans hs ?_
      norm_num
    generalize valueOf (lib.asin (div (abs n.1) (magXY n))) / valueOf halfPi32 = T at *
    generalize valueOf (angleFrac lib n) = a at *
    rw [abs_le] at ae
    have := ae.2
    norm_num at *
    linarith
  obtain ⟨-, s1, s2⟩ := unitQ_stepBelow hp1 hp au hlt
  obtain ⟨-, -, -, te⟩ := angle_value (unitQ_unit hp1 (by omega) (angleFrac lib n))
  have hmain : |valueOf (angleQ lib p n) - valueOf (lib.asin (div (abs n.1) (magXY n)))| ≤
      3927 / 2500 * (1 / (2 ^ p - 1)) + 1 / 2 ^ 22 := by
    have hA : div (lib.asin (div (abs n.1) (magXY n))) halfPi32 = angleFrac lib n := rfl
    have hB : mul (unitQ p (angleFrac lib n)) halfPi32 = angleQ lib p n := rfl
    rw [hA] at ae
    rw [hB] at te
    have hT : valueOf (lib.asin (div (abs n.1) (magXY n))) =
        valueOf (lib.asin (div (abs n.1) (magXY n))) / valueOf halfPi32 * valueOf halfPi32 := (div_mul_cancel₀ _ pp.ne').symm
    rw [hT]
    generalize valueOf (lib.asin (div (abs n.1) (magXY n))) / valueOf halfPi32 = T at *
    generalize valueOf (angleQ lib p n) = t at *
    generalize valueOf (unitQ p (angleFrac lib n)) = a' at *
    generalize valueOf (angleFrac lib n) = a at *
    have hh : (0 : ℚ) ≤ 1 / (2 ^ p - 1) := by linarith
    generalize (1 : ℚ) / (2 ^ p - 1) = h at *
    rw [pv] at *
    rw [abs_le] at *
    norm_num at *
    constructor <;> linarith [te.1, te.2, ae.1, ae.2]
  refine ⟨realOf (div (abs n.1) (magXY n)), ?_, ?_, ?_, ?_⟩
  · rw [realOf]; exact_mod_cast qu.2.1
  · rw [realOf]; exact_mod_cast qu.2.2
  · exact hqn
  · have h1 : |realOf (angleQ lib p n) - realOf (lib.asin (div (abs n.1) (magXY n)))| ≤ 1.5708 * codeStep p + 1 / 2 ^ 22 := by
      rw [← codeStep_cast, realOf, realOf, show (1.5708 : ℝ) = 3927 / 2500 by norm_num]
      generalize (1 : ℚ) / (2 ^ p - 1) = h at *
      have h' := (Rat.cast_le (K := ℝ)).mpr hmain
      push_cast at h'
      exact h'
    have h2 := abs_sub_le (realOf (angleQ lib p n)) (realOf (lib.asin (div (abs n.1) (magXY n))))
      (Real.arcsin (realOf (div (abs n.1) (magXY n))))
    refine le_trans h2 (le_trans (add_le_add h1 tn) (le_of_eq ?_))
    rw [add_assoc]
    norm_num

/-- What the decoder computes from the angle and z, whatever they are. -/
theorem decoded_value {lib : Libm} (hlib : AccurateLibm lib) {t z : Val b32} (ht : isFinite t = true) (t0 : 0 ≤ valueOf t)
    (t1 : valueOf t ≤ valueOf halfPi32) (hz : UnitValue z) :
    (isFinite (mul (lib.sin t) (magQ z)) = true ∧ isFinite (mul (lib.cos t) (magQ z)) = true) ∧
    (0 ≤ valueOf (mul (lib.sin t) (magQ z)) ∧
      (0 ≤ valueOf (mul (lib.cos t) (magQ z)) ∨ |valueOf (mul (lib.cos t) (magQ z))| ≤ 1 / 2 ^ 20)) ∧
    |realOf (lib.sin t) - Real.sin (realOf t)| ≤ 1 / 2 ^ 22 ∧ |realOf (lib.cos t) - Real.cos (realOf t)| ≤ 1 / 2 ^ 22 ∧
    |realOf (mul (lib.sin t) (magQ z)) - realOf (lib.sin t) * realOf (magQ z)| ≤ 1 / 2 ^ 22 ∧
    |realOf (mul (lib.cos t) (magQ z)) - realOf (lib.cos t) * realOf (magQ z)| ≤ 1 / 2 ^ 22 := by
  obtain ⟨pf, pv⟩ := halfPi_value
  have t2 : valueOf t ≤ 2 := le_trans t1 (by rw [pv]; norm_num)
  obtain ⟨sf, sn, s0⟩ := hlib.sin_near t ht t0 t2
  obtain ⟨cf, cn, c0⟩ := hlib.cos_near t ht t0 t2
  obtain ⟨gf, g0, ge⟩ := magQ_value hz
  have bS : |valueOf (lib.sin t)| ≤ 9 / 8 := by
    have h := le_trans (abs_sub_abs_le_abs_sub _ _) sn
    have h1 := Real.abs_sin_le_one (realOf t)
    have h2 : |realOf (lib.sin t)| ≤ 9 / 8 := by norm_num at h; linarith
    rw [realOf] at h2
    have h3 : ((|valueOf (lib.sin t)| : ℚ) : ℝ) ≤ ((9 / 8 : ℚ) : ℝ) := by push_cast; exact h2
    exact Rat.cast_le.mp h3
  have bC : |valueOf (lib.cos t)| ≤ 9 / 8 := by
    have h := le_trans (abs_sub_abs_le_abs_sub _ _) cn
    have h1 := Real.abs_cos_le_one (realOf t)
    have h2 : |realOf (lib.cos t)| ≤ 9 / 8 := by norm_num at h; linarith
    rw [realOf] at h2
    have h3 : ((|valueOf (lib.cos t)| : ℚ) : ℝ) ≤ ((9 / 8 : ℚ) : ℝ) := by push_cast; exact h2
    exact Rat.cast_le.mp h3
  have bg : |valueOf (magQ z)| ≤ 9 / 8 := by
    rw [abs_of_nonneg g0]
    rw [abs_le] at ge
    have h1 := ge.2
    norm_num at h1
    nlinarith [sq_nonneg (valueOf z)]
  obtain ⟨xf, xv, xe⟩ := component_value sf gf bS bg
  obtain ⟨yf, yv, ye⟩ := component_value cf gf bC bg
  have up : ∀ {a b c : Val b32}, |valueOf a - valueOf b * valueOf c| ≤ 1 / 2 ^ 23 →
      |realOf a - realOf b * realOf c| ≤ 1 / 2 ^ 22 := by
    intro a b c h
    have h' := (Rat.cast_le (K := ℝ)).mpr h
    push_cast at h'
    rw [realOf, realOf, realOf]
    exact le_trans h' (by norm_num)
  refine ⟨⟨xf, yf⟩, ⟨?_, ?_⟩, sn, cn, up xe, up ye⟩
  · rw [xv]; exact rnd_nonneg (mul_nonneg s0 g0)
  · rcases le_or_gt 0 (Real.cos (realOf t)) with hc | hc
    · left
      rw [yv]; exact rnd_nonneg (mul_nonneg (c0 hc) g0)
    · right
      -- the angle is barely above π/2
      have hcos : -(1 / 2 ^ 23) ≤ Real.cos (realOf t) := by
        rw [← Real.sin_pi_div_two_sub]
        have hle : realOf t ≤ ((13176795 / 2 ^ 23 : ℚ) : ℝ) := by
          rw [realOf, ← pv]; exact_mod_cast t1
        have hpi := Real.pi_gt_d20
        have hd : -(1 / 2 ^ 23) ≤ Real.pi / 2 - realOf t := by
          push_cast at hle
          norm_num at hle hpi ⊢
          linarith
        have hs := Real.abs_sin_le_abs (x := Real.pi / 2 - realOf t)
        rcases le_or_gt 0 (Real.pi / 2 - realOf t) with h0 | h0
        · exfalso
          have := Real.cos_nonneg_of_mem_Icc (x := realOf t) ⟨by
            have : (0 : ℝ) ≤ realOf t := by rw [realOf]; exact_mod_cast t0
            linarith [Real.pi_pos], by linarith⟩
          linarith
        · rw [abs_of_neg h0] at hs
          linarith [neg_abs_le (Real.sin (Real.pi / 2 - realOf t))]
      have hC : |valueOf (lib.cos t)| ≤ 3 / 2 ^ 23 := by
        have h2 : |realOf (lib.cos t)| ≤ 3 / 2 ^ 23 := by
          rw [abs_le] at cn ⊢
          have a1 := cn.1
          have a2 := cn.2
          norm_num at a1 a2 hcos ⊢
          constructor <;> linarith
        rw [realOf] at h2
        have h3 : ((|valueOf (lib.cos t)| : ℚ) : ℝ) ≤ ((3 / 2 ^ 23 : ℚ) : ℝ) := by push_cast; exact h2
        exact Rat.cast_le.mp h3
      have hprod : |valueOf (lib.cos t) * valueOf (magQ z)| ≤ 3 / 2 ^ 23 * (9 / 8) := by
        rw [abs_mul]
        exact mul_le_mul hC bg (abs_nonneg _) (by norm_num)
      have h5 := abs_sub_abs_le_abs_sub (valueOf (mul (lib.cos t) (magQ z))) (valueOf (lib.cos t) * valueOf (magQ z))
      norm_num at *
      linarith

/-- Restoring the sign. -/
theorem sign_restored {x v : Val b32} (hx : isFinite x = true) :
    (realOf x - realOf (setSign (lt x (lit 0 0)) v)) ^ 2 = (|realOf x| - realOf v) ^ 2 ∧
    (0 ≤ valueOf v → SameSide x (setSign (lt x (lit 0 0)) v)) ∧
    valueOf (setSign (lt x (lit 0 0)) v) ^ 2 = valueOf v ^ 2 ∧
    |valueOf (setSign (lt x (lit 0 0)) v)| = |valueOf v| := by
  obtain ⟨zf, zv⟩ := lit_zero
  have hs := (setSign_value (lt x (lit 0 0)) v).2
  have hl := lt_value hx zf
  rw [zv] at hl
  cases hb : lt x (lit 0 0) with
  | true =>
    rw [hb] at hs hl
    rw [if_pos rfl] at hs
    have hneg := hl.mp rfl
    have hr : realOf x < 0 := by rw [realOf]; exact_mod_cast hneg
    refine ⟨?_, ?_, by rw [hs, neg_sq], by rw [hs, abs_neg]⟩
    · rw [abs_of_neg hr, realOf, realOf, realOf, hs]
      push_cast
      ring
    · intro hv
      rw [SameSide, hs]
      nlinarith
  | false =>
    rw [hb] at hs hl
    rw [if_neg (by decide)] at hs
    have hnn : 0 ≤ valueOf x := by
      by_contra hc
      exact absurd (hl.mpr (not_le.mp hc)) (by decide)
    have hr : 0 ≤ realOf x := by rw [realOf]; exact_mod_cast hnn
    refine ⟨?_, ?_, by rw [hs], by rw [hs]⟩
    · rw [abs_of_nonneg hr, realOf, realOf, realOf, hs]
    · intro hv
      rw [SameSide, hs]
      exact mul_nonneg hnn hv

theorem normal_kept_wide {lib : Libm} (hlib : AccurateLibm lib) {p : Nat} (hp1 : 1 ≤ p) (hp : p ≤ 31) {n : Vec3 (Val b32)}
    (hn : UnitNormal n) (hoff : 25 ≤ p → OffAxes n) : KeptNormal p n (quantNormal (ops lib) p n) := by
  obtain ⟨⟨hx, hy, hz⟩, hu, hz1⟩ := hn
  obtain ⟨fz, vz⟩ := abs_fin_value hz
  have zu : UnitValue (abs n.2.2) := ⟨fz, by rw [vz]; exact abs_nonneg _, by rw [vz]; exact hz1⟩
  have hoff' : p ≤ 24 ∨ OffAxes n := (Nat.lt_or_ge 24 p).symm.imp_right hoff
  obtain ⟨-, zs1, zs2⟩ := unitQ_stepBelow hp1 hp zu (hoff'.imp_right fun h => by rw [vz]; exact h.z)
  have qu := unitQ_unit hp1 (by omega) (abs n.2.2)
  obtain ⟨tf, t0, t1⟩ := angleQ_value lib hp1 (by omega) n
  obtain ⟨⟨xf, yf⟩, ⟨x0, y0⟩, sn, cn, xe, ye⟩ := decoded_value hlib tf t0 t1 qu
  obtain ⟨gf, g0, ge⟩ := magQ_value qu
  have ger : |realOf (magQ (unitQ p (abs n.2.2))) ^ 2 + realOf (unitQ p (abs n.2.2)) ^ 2 - 1| ≤ 1 / 2 ^ 21 := by
    have h := (Rat.cast_le (K := ℝ)).mpr ge
    push_cast at h
    exact h
  have g0r : 0 ≤ realOf (magQ (unitQ p (abs n.2.2))) := by rw [realOf]; exact_mod_cast g0
  rw [quantNormal_eq lib hp1]
  obtain ⟨dx, sx, qx, -⟩ := sign_restored (x := n.1) (v := mul (lib.sin (angleQ lib p n)) (magQ (unitQ p (abs n.2.2)))) hx
  obtain ⟨dy, sy, qy, ay⟩ := sign_restored (x := n.2.1) (v := mul (lib.cos (angleQ lib p n)) (magQ (unitQ p (abs n.2.2)))) hy
  obtain ⟨dz, sz, qz, az⟩ := sign_restored (x := n.2.2) (v := unitQ p (abs n.2.2)) hz
  have q0 := qu.2.1
  -- the exact vector
  rw [AlmostUnit] at hu
  have hur := (Rat.cast_le (K := ℝ)).mpr hu
  push_cast at hur
  have hur' : |(|realOf n.1| ^ 2 + |realOf n.2.1| ^ 2) + |realOf n.2.2| ^ 2 - 1| ≤ 1 / 2 ^ 20 := by
    rw [sq_abs, sq_abs, sq_abs]; exact hur
  have hQle : valueOf n.1 ^ 2 + valueOf n.2.1 ^ 2 ≤ 81 / 64 := by
    rw [abs_le] at hu
    have := hu.2
    norm_num at this
    linarith [sq_nonneg (valueOf n.2.2)]
  have bx : |valueOf n.1| ≤ 9 / 8 := by
    refine abs_le_of_sq_le_sq ?_ (by norm_num)
    linarith [sq_nonneg (valueOf n.2.1)]
  have by' : |valueOf n.2.1| ≤ 9 / 8 := by
    refine abs_le_of_sq_le_sq ?_ (by norm_num)
    linarith [sq_nonneg (valueOf n.1)]
  obtain ⟨X, hX⟩ : ∃ X, X = |realOf n.1| := ⟨_, rfl⟩
  obtain ⟨Y, hY⟩ : ∃ Y, Y = |realOf n.2.1| := ⟨_, rfl⟩
  have hX0 : 0 ≤ X := by rw [hX]; exact abs_nonneg _
  have hY0 : 0 ≤ Y := by rw [hY]; exact abs_nonneg _
  obtain ⟨R, hR⟩ : ∃ R, R = √(X ^ 2 + Y ^ 2) := ⟨_, rfl⟩
  have hR0 : 0 ≤ R := by rw [hR]; exact Real.sqrt_nonneg _
  have hRR : R ^ 2 = X ^ 2 + Y ^ 2 := by rw [hR]; exact Real.sq_sqrt (by positivity)
  rw [← hX, ← hY, ← hRR] at hur'
  have hang : ∃ A : ℝ, (X - R * Real.sin A) ^ 2 + (Y - R * Real.cos A) ^ 2 ≤ (1 / 1000) ^ 2 ∧
      |realOf (angleQ lib p n) - A| ≤ 1.5708 * codeStep p + 1 / 2 ^ 21 := by
    rcases le_or_gt (1 / 2 ^ 40) (valueOf n.1 ^ 2 + valueOf n.2.1 ^ 2) with hQ | hQ
    · have hRpos : 0 < R := by
        have h := (Rat.cast_le (K := ℝ)).mpr hQ
        push_cast at h
        have h2 : (1 : ℝ) / 2 ^ 40 ≤ R ^ 2 := by rw [hRR, hX, hY, sq_abs, sq_abs]; exact h
        rcases eq_or_lt_of_le hR0 with h3 | h3
        · rw [← h3] at h2; norm_num at h2
        · exact h3
      obtain ⟨q, hq0, hq1, hq, ht⟩ := angleQ_near hlib hp1 hp (hoff'.imp_right (·.x)) hx hy bx by' hQ hX hY hRpos hRR
      refine ⟨_, around_axis hX0 hY0 hR0 hRR ?_ hq0 hq1 hq, ht⟩
      rw [abs_le] at hur'
      linarith [hur'.2, sq_nonneg |realOf n.2.2|]
    · refine ⟨realOf (angleQ lib p n), near_axis hRR ?_, ?_⟩
      · have h := (Rat.cast_lt (K := ℝ)).mpr hQ
        push_cast at h
        rw [hRR, hX, hY, sq_abs, sq_abs]
        exact h.le
      · rw [sub_self, abs_zero]
        have := (codeStep_bounds hp1).1
        positivity
  obtain ⟨A, hA, htA⟩ := hang
  have hzZ : realOf (unitQ p (abs n.2.2)) ≤ |realOf n.2.2| := by
    rw [vz] at zs1
    have h := (Rat.cast_le (K := ℝ)).mpr zs1
    push_cast at h
    exact h
  have hZ1 : |realOf n.2.2| ≤ 1 := by
    have h := (Rat.cast_le (K := ℝ)).mpr hz1
    push_cast at h
    exact h
  have hstep : |realOf n.2.2| - realOf (unitQ p (abs n.2.2)) ≤ codeStep p := by
    rw [vz] at zs2
    have h := (Rat.cast_lt (K := ℝ)).mpr zs2
    rw [codeStep_cast] at h
    push_cast at h
    exact h.le
  have q0r : 0 ≤ realOf (unitQ p (abs n.2.2)) := by rw [realOf]; exact_mod_cast q0
  have hmain := direction_near hR0 g0r hur' (le_trans ger (by norm_num)) q0r hzZ hZ1 hstep (codeStep_bounds hp1).1.le
    (codeStep_bounds hp1).2 hA htA sn cn xe ye
  have hdist : length3 (X - realOf (mul (lib.sin (angleQ lib p n)) (magQ (unitQ p (abs n.2.2)))))
      (Y - realOf (mul (lib.cos (angleQ lib p n)) (magQ (unitQ p (abs n.2.2))))) (|realOf n.2.2| - realOf (unitQ p (abs n.2.2))) =
      chord n (setSign (lt n.1 (lit 0 0)) (mul (lib.sin (angleQ lib p n)) (magQ (unitQ p (abs n.2.2)))),
       setSign (lt n.2.1 (lit 0 0)) (mul (lib.cos (angleQ lib p n)) (magQ (unitQ p (abs n.2.2)))),
       setSign (lt n.2.2 (lit 0 0)) (unitQ p (abs n.2.2))) := by
    rw [chord, length3, length3]
    dsimp only
    rw [dx, dy, dz, hX, hY]
  rw [hdist] at hmain
  refine ⟨⟨?_, ?_, ?_⟩, ?_, sx x0, ?_, sz q0, ?_, hmain.1, ?_⟩
  · rw [(setSign_value _ _).1]; exact xf
  · rw [(setSign_value _ _).1]; exact yf
  · rw [(setSign_value _ _).1]; exact qu.1
  · rw [AlmostUnit]
    dsimp only
    rw [qx, qy, qz]
    have h := decoded_unit g0r ger sn cn xe ye
    have h' : ((|valueOf (mul (lib.sin (angleQ lib p n)) (magQ (unitQ p (abs n.2.2)))) ^ 2 +
        valueOf (mul (lib.cos (angleQ lib p n)) (magQ (unitQ p (abs n.2.2)))) ^ 2 +
        valueOf (unitQ p (abs n.2.2)) ^ 2 - 1| : ℚ) : ℝ) ≤ ((1 / 2 ^ 18 : ℚ) : ℝ) := by
      push_cast
      exact h
    exact Rat.cast_le.mp h'
  · rcases y0 with h | h
    · exact .inl (sy h)
    · exact .inr (by dsimp only; rw [ay]; exact h)
  · dsimp only
    rw [az, abs_of_nonneg q0, ← vz]
    exact ⟨zs1, zs2⟩
  · intro hZ2
    refine hmain.2 ?_
    rw [sq_abs, realOf]
    have h := (Rat.cast_le (K := ℝ)).mpr hZ2
    push_cast at h
    exact h

theorem normal_kept {lib : Libm} (hlib : AccurateLibm lib) {p : Nat} (hp1 : 1 ≤ p) (hp : p ≤ 24) {n : Vec3 (Val b32)}
    (hn : UnitNormal n) : KeptNormal p n (quantNormal (ops lib) p n) :=
  normal_kept_wide hlib hp1 (by omega) hn (fun h => absurd h (by omega))

end Tmf.Ieee
