import Verif.Lemmas.IeeeValue
import Verif.Lemmas.Accuracy
/-
Numbers in a range `[min, max]`, stored as multiples of the range divided by `2^p - 1`: the error of
encoding and decoding, including the rounding of each operation.
-/

set_option exponentiation.threshold 2000

namespace Tmf.Ieee
open Spec

/-! ### Error analysis -/

/-- Encoding: `X` is the distance from the minimum, `S` the size of the range. -/
theorem encode_error {u η X S t s q w m : ℚ} (hu0 : 0 < u) (hu : u ≤ 1 / 1000) (hη : η ≤ u / 8)
    (hX0 : 0 ≤ X) (hXS : X ≤ S) (hS : 0 < S) (hm : 1 ≤ m) (ht : |t - X| ≤ u * X) (hs : |s - S| ≤ u * S)
    (hq : |q - t / s| ≤ u * |t / s| + η) (hw : |w - q * m| ≤ u * |q * m| + η) : |w - m * (X / S)| ≤ 8 * u * m := by
  rw [abs_le] at ht hs
  have hs1 : (1 - u) * S ≤ s := by linarith
  have hs2 : s ≤ (1 + u) * S := by linarith
  have hspos : 0 < s := lt_of_lt_of_le (mul_pos (by linarith) hS) hs1
  have ht0 : 0 ≤ t := by nlinarith
  set F := X / S with hF
  have hF0 : 0 ≤ F := div_nonneg hX0 hS.le
  have hF1 : F ≤ 1 := (div_le_one hS).mpr hXS
  have hXF : X = F * S := by rw [hF, div_mul_cancel₀ _ hS.ne']
  have h1 : t / s ≤ (1 + 3 * u) * F := by
    rw [div_le_iff₀ hspos]
    calc t ≤ (1 + u) * (F * S) := by rw [← hXF]; linarith
      _ ≤ ((1 + 3 * u) * (1 - u)) * (F * S) := by
          refine mul_le_mul_of_nonneg_right ?_ (mul_nonneg hF0 hS.le)
          nlinarith
      _ = (1 + 3 * u) * F * ((1 - u) * S) := by ring
      _ ≤ (1 + 3 * u) * F * s := mul_le_mul_of_nonneg_left hs1 (mul_nonneg (by linarith) hF0)
  have h2 : (1 - 3 * u) * F ≤ t / s := by
    rw [le_div_iff₀ hspos]
    calc (1 - 3 * u) * F * s ≤ (1 - 3 * u) * F * ((1 + u) * S) := mul_le_mul_of_nonneg_left hs2 (mul_nonneg (by linarith) hF0)
      _ = ((1 - 3 * u) * (1 + u)) * (F * S) := by ring
      _ ≤ (1 - u) * (F * S) := by
          refine mul_le_mul_of_nonneg_right ?_ (mul_nonneg hF0 hS.le)
          nlinarith
      _ ≤ t := by rw [← hXF]; linarith
  have hr0 : 0 ≤ t / s := div_nonneg ht0 hspos.le
  rw [abs_of_nonneg hr0, abs_le] at hq
  generalize t / s = r at *
  have h3 : r ≤ 1 + 3 * u := by nlinarith
  have h4 : |q - F| ≤ 5 * u := by
    rw [abs_le]
    have : u * r ≤ u * (1 + 3 * u) := mul_le_mul_of_nonneg_left h3 hu0.le
    constructor <;> nlinarith
  have h5 : |q| ≤ 1 + 5 * u := by
    rw [abs_le] at h4 ⊢
    constructor <;> linarith
  have hm0 : 0 ≤ m := by linarith
  have h6 : |q * m| ≤ (1 + 5 * u) * m := by
    rw [abs_mul, abs_of_nonneg hm0]; exact mul_le_mul_of_nonneg_right h5 hm0
  have h7 : |q * m - m * F| ≤ 5 * u * m := by
    rw [mul_comm m F, ← sub_mul, abs_mul, abs_of_nonneg hm0]; exact mul_le_mul_of_nonneg_right h4 hm0
  have h8 : |w - m * F| ≤ |w - q * m| + |q * m - m * F| := by
    have := abs_add_le (w - q * m) (q * m - m * F)
    rwa [sub_add_sub_cancel] at this
  have h9 : u * |q * m| ≤ u * ((1 + 5 * u) * m) := mul_le_mul_of_nonneg_left h6 hu0.le
  have h10 : u * ((1 + 5 * u) * m) ≤ 2 * u * m := by
    have : 0 ≤ u * m := mul_nonneg hu0.le hm0
    nlinarith
  have h11 : η ≤ u * m := by nlinarith
  linarith

/-- Decoding: the fraction `D` of the range `S` above `mn`. -/
theorem decode_error {u η D S mn M d s r y : ℚ} (hu0 : 0 < u) (hu : u ≤ 1 / 1000) (hη0 : 0 ≤ η) (hη : η ≤ u / 8)
    (hD0 : 0 ≤ D) (hD1 : D ≤ 1) (hS : 0 ≤ S) (hM : |D * S + mn| ≤ M) (hSM : S ≤ 2 * M)
    (hd : |d - D| ≤ u * |D| + η) (hs : |s - S| ≤ u * S) (hr : |r - d * s| ≤ u * |d * s| + η)
    (hy : |y - (r + mn)| ≤ u * |r + mn| + η) : |y - (D * S + mn)| ≤ 15 * u * M + 3 * η := by
  have hM0 : 0 ≤ M := by linarith
  have hus : 0 ≤ u * S := mul_nonneg hu0.le hS
  have hd1 : |d - D| ≤ 2 * u := by
    rw [abs_of_nonneg hD0] at hd
    nlinarith
  have hd2 : |d| ≤ 1 + 2 * u := by
    rw [abs_le] at hd1 ⊢
    constructor <;> linarith
  have h1 : |d * s - D * S| ≤ 4 * u * S := by
    have e : d * s - D * S = d * (s - S) + (d - D) * S := by ring
    rw [e]
    refine le_trans (abs_add_le _ _) ?_
    rw [abs_mul, abs_mul, abs_of_nonneg hS]
    have a1 : |d| * |s - S| ≤ (1 + 2 * u) * (u * S) := mul_le_mul hd2 hs (abs_nonneg _) (by linarith)
    have a2 : |d - D| * S ≤ 2 * u * S := mul_le_mul_of_nonneg_right hd1 hS
    nlinarith
  have h2 : |d * s| ≤ (1 + 4 * u) * S := by
    have e : d * s = (d * s - D * S) + D * S := by ring
    rw [e]
    refine le_trans (abs_add_le _ _) ?_
    rw [abs_of_nonneg (mul_nonneg hD0 hS)]
    nlinarith
  have h3 : |r - D * S| ≤ 6 * u * S + η := by
    have := abs_add_le (r - d * s) (d * s - D * S)
    rw [sub_add_sub_cancel] at this
    have : u * |d * s| ≤ u * ((1 + 4 * u) * S) := mul_le_mul_of_nonneg_left h2 hu0.le
    nlinarith
  have h4 : |r + mn| ≤ M + 6 * u * S + η := by
    have := abs_add_le (r - D * S) (D * S + mn)
    rw [show r - D * S + (D * S + mn) = r + mn by ring] at this
    linarith
  have h5 := abs_add_le (y - (r + mn)) (r - D * S)
  rw [show y - (r + mn) + (r - D * S) = y - (D * S + mn) by ring] at h5
  have h6 : u * |r + mn| ≤ u * (M + 6 * u * S + η) := mul_le_mul_of_nonneg_left h4 hu0.le
  have h7 : u * (6 * u * S) ≤ u * S := by nlinarith
  have h8 : u * η ≤ η := by nlinarith
  have h9 : u * S ≤ 2 * (u * M) := by nlinarith
  nlinarith

/-! ### The program -/

theorem eta32 : (1 : ℚ) / 2 ^ (b32.scale + 1) = 1 / 2 ^ 150 := rfl
theorem prec32 : (2 : ℚ) ^ b32.prec = 2 ^ 24 := rfl
theorem prec64 : (2 : ℚ) ^ b64.prec = 2 ^ 53 := rfl
theorem eta64 : (1 : ℚ) / 2 ^ (b64.scale + 1) = 1 / 2 ^ 1075 := rfl

theorem rnd32_error (v : ℚ) : |rnd b32 v - v| ≤ 1 / 2 ^ 24 * |v| + 1 / 2 ^ 150 := by
  have := rnd_error (f := b32) (by decide) v
  rw [eta32, prec32] at this
  rw [div_mul_eq_mul_div, one_mul]
  exact this

theorem rnd64_error (v : ℚ) : |rnd b64 v - v| ≤ 1 / 2 ^ 53 * |v| + 1 / 2 ^ 1075 := by
  have := rnd_error (f := b64) (by decide) v
  rw [eta64, prec64] at this
  rw [div_mul_eq_mul_div, one_mul]
  exact this

theorem rnd32_error_sub (x y : Val b32) :
    |rnd b32 (valueOf x - valueOf y) - (valueOf x - valueOf y)| ≤ 1 / 2 ^ 24 * |valueOf x - valueOf y| := by
  obtain ⟨k, hk⟩ := units_valueOf x
  obtain ⟨l, hl⟩ := units_valueOf y
  have := rnd_error_units (f := b32) (by decide) (v := valueOf x - valueOf y) (k := k - l) (by rw [sub_mul, hk, hl]; push_cast; rfl)
  rw [prec32] at this
  rw [div_mul_eq_mul_div, one_mul]
  exact this

theorem toU64_value {w : Val b32} (hf : isFinite w = true) (h0 : 0 ≤ valueOf w) (h1 : valueOf w < 2 ^ 64) :
    (toU64 w : ℚ) ≤ valueOf w ∧ valueOf w < toU64 w + 1 := by
  obtain ⟨s, n, hn, rfl⟩ := finite_cases hf
  have hS : (0 : ℚ) < 2 ^ b32.scale := units_pos b32
  have hv : valueOf (.fin s n hn : Val b32) = (n : ℚ) / 2 ^ b32.scale := by
    rw [← abs_valueOf_fin s n hn, abs_of_nonneg h0]
  rw [hv] at h0 h1 ⊢
  cases s with
  | true =>
    have : n = 0 := by
      rw [valueOf_fin] at hv
      simp only [sgn, if_true] at hv
      have h2 : (n : ℚ) / 2 ^ b32.scale = 0 := by linarith
      rw [div_eq_zero_iff] at h2
      rcases h2 with h2 | h2
      · exact_mod_cast h2
      · exact absurd h2 hS.ne'
    subst this
    simp [toU64]
  | false =>
    have hdiv : n / 2 ^ b32.scale < 2 ^ 64 := by
      rw [Nat.div_lt_iff_lt_mul (by positivity)]
      rw [div_lt_iff₀ hS] at h1
      exact_mod_cast h1
    have e : toU64 (.fin false n hn : Val b32) = n / 2 ^ b32.scale := by
      simp only [toU64, Bool.false_eq_true, if_false]
      exact Nat.min_eq_left (by omega)
    rw [e]
    constructor
    · rw [le_div_iff₀ hS]
      exact_mod_cast Nat.div_mul_le_self n (2 ^ b32.scale)
    · rw [div_lt_iff₀ hS]
      exact_mod_cast Nat.lt_mul_of_div_lt (Nat.lt_succ_self (n / 2 ^ b32.scale)) (by positivity)

theorem ofNat_value {c : Nat} (h : c ≤ 2 ^ 24) : isFinite (ofNat c : Val b32) = true ∧ valueOf (ofNat c : Val b32) = c := by
  rw [ofNat_exact h]
  refine ⟨rfl, ?_⟩
  rw [valueOf_fin]
  simp only [sgn, Bool.false_eq_true, if_false, one_mul]
  rw [show b32.scale = 149 from rfl, Nat.cast_mul, Nat.cast_pow, Nat.cast_ofNat]
  rw [mul_div_cancel_right₀ _ (pow_ne_zero _ (by norm_num))]

theorem ofNat_value64 {c : Nat} (h : c ≤ 2 ^ 53) : isFinite (ofNat c : Val b64) = true ∧ valueOf (ofNat c : Val b64) = c := by
  rw [ofNat_exact64 h]
  refine ⟨rfl, ?_⟩
  rw [valueOf_fin]
  simp only [sgn, Bool.false_eq_true, if_false, one_mul]
  rw [show b64.scale = 1074 from rfl, Nat.cast_mul, Nat.cast_pow, Nat.cast_ofNat]
  rw [mul_div_cancel_right₀ _ (pow_ne_zero _ (by norm_num))]

theorem maxV32 : (2 : ℚ) ^ 127 ≤ maxV b32 := by
  rw [maxV, le_div_iff₀ (units_pos b32), show b32.scale = 149 from rfl]
  have : 2 ^ 127 * 2 ^ 149 ≤ b32.max := by decide +kernel
  exact_mod_cast this

theorem maxV64 : (2 : ℚ) ^ 200 ≤ maxV b64 := by
  rw [maxV, le_div_iff₀ (units_pos b64), show b64.scale = 1074 from rfl]
  have : 2 ^ 200 * 2 ^ 1074 ≤ b64.max := by decide +kernel
  have h : (((2 : Nat) ^ 200 * 2 ^ 1074 : Nat) : ℚ) ≤ (b64.max : ℚ) := Nat.cast_le.mpr this
  rw [Nat.cast_mul, Nat.cast_pow, Nat.cast_pow, Nat.cast_ofNat] at h
  exact h

theorem one_le_rnd {f : Fmt} (hp : 0 < f.prec) {x : Val f} (h : valueOf x = 1) : rnd f 1 = 1 := by
  rw [← h]; exact rnd_valueOf hp x

/-- The code of a number in the range: at most `2^p - 1`, and near the exact one. -/
theorem code_value {p : Nat} (hp1 : 1 ≤ p) (hp : p ≤ 24) {x mn size : Val b32} {S : ℚ} (hx : isFinite x = true)
    (hmn : isFinite mn = true) (hsz : isFinite size = true) (hS : 0 < S) (hSmax : S ≤ 2 ^ 127) (h0 : valueOf mn ≤ valueOf x)
    (h1 : valueOf x - valueOf mn ≤ S) (hsv : valueOf size = rnd b32 S) (hse : |rnd b32 S - S| ≤ 1 / 2 ^ 24 * S) :
    toU64 (mul (div (sub x mn) size) (ofNat (2 ^ p - 1))) ≤ 2 ^ p - 1 ∧
    ((toU64 (mul (div (sub x mn) size) (ofNat (2 ^ p - 1))) : ℚ) ≤
      (2 ^ p - 1) * ((valueOf x - valueOf mn) / S) + (2 ^ p - 1) / 2 ^ 21 ∧
     (2 ^ p - 1) * ((valueOf x - valueOf mn) / S) - (2 ^ p - 1) / 2 ^ 21 <
      toU64 (mul (div (sub x mn) size) (ofNat (2 ^ p - 1))) + 1) := by
  have hP : 0 < b32.prec := by decide
  have hm24 : 2 ^ p - 1 ≤ 2 ^ 24 := by
    have : 2 ^ p ≤ 2 ^ 24 := Nat.pow_le_pow_right (by omega) hp
    omega
  have hmc : ((2 ^ p - 1 : Nat) : ℚ) = 2 ^ p - 1 := by
    rw [Nat.cast_sub Nat.one_le_two_pow]; push_cast; rfl
  have hm1 : (1 : ℚ) ≤ 2 ^ p - 1 := by
    have : (2 : ℚ) ^ 1 ≤ 2 ^ p := pow_le_pow_right₀ (by norm_num) hp1
    linarith
  have hm2 : (2 : ℚ) ^ p - 1 ≤ 2 ^ 24 := by rw [← hmc]; exact_mod_cast hm24
  have hX0 : 0 ≤ valueOf x - valueOf mn := by linarith
  have hmax := maxV32
  have ht := sub_value hP hx hmn (by rw [abs_of_nonneg hX0]; linarith)
  have hterr := rnd32_error_sub x mn
  have hts : valueOf (sub x mn) ≤ valueOf size := by rw [ht.2, hsv]; exact rnd_mono hP h1
  have ht0 : 0 ≤ valueOf (sub x mn) := by rw [ht.2]; exact rnd_nonneg hX0
  have hspos : 0 < valueOf size := by
    rw [hsv]
    rw [abs_le] at hse
    have : 1 / 2 ^ 24 * S < S := by
      have : (1 : ℚ) / 2 ^ 24 < 1 := by norm_num
      nlinarith
    linarith
  have hq1 : valueOf (sub x mn) / valueOf size ≤ 1 := (div_le_one hspos).mpr hts
  have hq0 : 0 ≤ valueOf (sub x mn) / valueOf size := div_nonneg ht0 hspos.le
  have hmx1 : (1 : ℚ) ≤ maxV b32 := le_trans (by norm_num) hmax
  have hq := div_value hP ht.1 hsz hspos.ne' (by rw [abs_of_nonneg hq0]; linarith)
  have hone := ofNat_value (c := 1) (by norm_num)
  have hqle : valueOf (div (sub x mn) size) ≤ 1 := by
    rw [hq.2, ← Nat.cast_one (R := ℚ), ← hone.2]
    exact rnd_le_valueOf hP (by rw [hone.2, Nat.cast_one]; exact hq1)
  have hqnn : 0 ≤ valueOf (div (sub x mn) size) := by rw [hq.2]; exact rnd_nonneg hq0
  have hmv := ofNat_value hm24
  have hwm : valueOf (div (sub x mn) size) * valueOf (ofNat (2 ^ p - 1) : Val b32) ≤ 2 ^ p - 1 := by
    rw [hmv.2, hmc]; nlinarith
  have hw0 : 0 ≤ valueOf (div (sub x mn) size) * valueOf (ofNat (2 ^ p - 1) : Val b32) := by
    rw [hmv.2]; positivity
  have hw := mul_value hP hq.1 hmv.1 (by
    rw [abs_of_nonneg hw0]
    refine le_trans hwm (le_trans hm2 (le_trans (by norm_num) hmax)))
  have hwle : valueOf (mul (div (sub x mn) size) (ofNat (2 ^ p - 1))) ≤ 2 ^ p - 1 := by
    rw [hw.2, ← hmc, ← hmv.2]
    exact rnd_le_valueOf hP (by rw [hmv.2, hmc, ← hmc, ← hmv.2, hmv.2, hmc] ; rw [hmv.2, hmc] at hwm; exact hwm)
  have hwnn : 0 ≤ valueOf (mul (div (sub x mn) size) (ofNat (2 ^ p - 1))) := by rw [hw.2]; exact rnd_nonneg hw0
  obtain ⟨hc1, hc2⟩ := toU64_value hw.1 hwnn (lt_of_le_of_lt (le_trans hwle hm2) (by norm_num))
  have herr := encode_error (u := 1 / 2 ^ 24) (η := 1 / 2 ^ 150) (X := valueOf x - valueOf mn) (S := S)
    (t := valueOf (sub x mn)) (s := valueOf size) (q := valueOf (div (sub x mn) size))
    (w := valueOf (mul (div (sub x mn) size) (ofNat (2 ^ p - 1)))) (m := 2 ^ p - 1) (by norm_num) (by norm_num)
    (by norm_num) hX0 h1 hS hm1
    (by rw [ht.2]; rw [abs_of_nonneg hX0] at hterr; exact hterr) (by rw [hsv]; exact hse)
    (by rw [hq.2]; exact rnd32_error _)
    (by rw [hw.2, hmv.2, hmc]; exact rnd32_error _)
  rw [abs_le] at herr
  have e8 : (8 : ℚ) * (1 / 2 ^ 24) * (2 ^ p - 1) = (2 ^ p - 1) / 2 ^ 21 := by ring
  rw [e8] at herr
  refine ⟨?_, ?_, ?_⟩
  · have : (toU64 (mul (div (sub x mn) size) (ofNat (2 ^ p - 1))) : ℚ) ≤ ((2 ^ p - 1 : Nat) : ℚ) := by
      rw [hmc]; linarith
    exact_mod_cast this
  · linarith
  · linarith

/-- Widening is exact. -/
theorem widen_value {x : Val b32} (hx : isFinite x = true) :
    isFinite (convert x : Val b64) = true ∧ valueOf (convert x : Val b64) = valueOf x := by
  obtain ⟨s, n, hn, rfl⟩ := finite_cases hx
  have hf := (rep_iff b32 (by decide)).mp hn
  have hrep : b64.Rep (n * 2 ^ 925) := by
    refine (rep_iff b64 (by decide)).mpr ⟨?_, ?_⟩
    · obtain ⟨a, e, ha, rfl⟩ := hf.1
      exact ⟨a, e + 925, lt_trans ha (by decide), by rw [Nat.mul_assoc, ← Nat.pow_add]⟩
    · have : b32.max * 2 ^ 925 ≤ b64.max := by decide +kernel
      exact le_trans (Nat.mul_le_mul_right _ hf.2) this
  have hv : valueOf (.fin s (n * 2 ^ 925) hrep : Val b64) = valueOf (.fin s n hn : Val b32) := by
    rw [valueOf_fin, valueOf_fin, show b64.scale = 149 + 925 from rfl, show b32.scale = 149 from rfl, pow_add, Nat.cast_mul,
      Nat.cast_pow, Nat.cast_ofNat, mul_div_mul_right _ _ (pow_ne_zero _ (by norm_num))]
  have := convert_value (g := b64) (by decide) hx (by rw [← hv]; exact abs_valueOf_le _)
  refine ⟨this.1, ?_⟩
  rw [this.2, ← hv, rnd_valueOf (by decide)]

/-- A number between the ends of the range is no larger than they are. -/
theorem between_abs {D a b M : ℚ} (h0 : 0 ≤ D) (h1 : D ≤ 1) (hab : a ≤ b) (ha : |a| ≤ M) (hb : |b| ≤ M) :
    |D * (b - a) + a| ≤ M := by
  rw [abs_le] at ha hb ⊢
  constructor <;> nlinarith

theorem frac_bounds {p c : Nat} (hp1 : 1 ≤ p) (hc : c ≤ 2 ^ p - 1) : (0 : ℚ) ≤ (c : ℚ) / (2 ^ p - 1) ∧ (c : ℚ) / (2 ^ p - 1) ≤ 1 := by
  have hmc : ((2 ^ p - 1 : Nat) : ℚ) = 2 ^ p - 1 := by
    rw [Nat.cast_sub Nat.one_le_two_pow]; push_cast; rfl
  have hm1 : (0 : ℚ) < 2 ^ p - 1 := by
    have : (2 : ℚ) ^ 1 ≤ 2 ^ p := pow_le_pow_right₀ (by norm_num) hp1
    linarith
  refine ⟨div_nonneg (Nat.cast_nonneg _) hm1.le, (div_le_one hm1).mpr ?_⟩
  rw [← hmc]
  exact_mod_cast hc

/-- Decoding in any format. -/
theorem decode_value {f : Fmt} (hP : 0 < f.prec) {u η D M : ℚ} (hu : u = 1 / 2 ^ f.prec) (hu1 : u ≤ 1 / 1000)
    (hη : η = 1 / 2 ^ (f.scale + 1)) (hη1 : η ≤ u / 8) {a b o mn mx : Val f} (ho : valueOf o = 1)
    (ha : isFinite a = true) (hb : isFinite b = true) (hb0 : valueOf b ≠ 0) (hab : valueOf a / valueOf b = D)
    (hD0 : 0 ≤ D) (hD1 : D ≤ 1) (hmn : isFinite mn = true) (hmx : isFinite mx = true)
    (hle : valueOf mn ≤ valueOf mx) (h1 : |valueOf mn| ≤ M) (h2 : |valueOf mx| ≤ M) (hM : 8 * M + 8 ≤ maxV f) :
    isFinite (add (mul (div a b) (sub mx mn)) mn) = true ∧
    |valueOf (add (mul (div a b) (sub mx mn)) mn) - (D * (valueOf mx - valueOf mn) + valueOf mn)| ≤ 15 * u * M + 3 * η := by
  have hu0 : 0 < u := by rw [hu]; positivity
  have hη0 : 0 ≤ η := by rw [hη]; positivity
  have herr : ∀ v, |rnd f v - v| ≤ u * |v| + η := by
    intro v
    have := rnd_error (f := f) hP v
    rw [hu, hη, div_mul_eq_mul_div, one_mul]
    exact this
  have hM0 : 0 ≤ M := le_trans (abs_nonneg _) h1
  have hS0 : 0 ≤ valueOf mx - valueOf mn := by linarith
  have hSM : valueOf mx - valueOf mn ≤ 2 * M := by
    rw [abs_le] at h1 h2; linarith
  have hbet := between_abs hD0 hD1 hle h1 h2
  have hd := div_value hP ha hb hb0 (by rw [hab, abs_of_nonneg hD0]; linarith)
  rw [hab] at hd
  have hs := sub_value hP hmx hmn (by rw [abs_of_nonneg hS0]; linarith)
  have hserr : |rnd f (valueOf mx - valueOf mn) - (valueOf mx - valueOf mn)| ≤ u * (valueOf mx - valueOf mn) := by
    obtain ⟨k, hk⟩ := units_valueOf mx
    obtain ⟨l, hl⟩ := units_valueOf mn
    have := rnd_error_units (f := f) hP (v := valueOf mx - valueOf mn) (k := k - l) (by rw [sub_mul, hk, hl]; push_cast; rfl)
    rw [abs_of_nonneg hS0] at this
    rw [hu, div_mul_eq_mul_div, one_mul]
    exact this
  generalize hSe : valueOf mx - valueOf mn = S at *
  have hderr := herr D
  have hdle : rnd f D ≤ 1 := by rw [← ho]; exact rnd_le_valueOf hP (by rw [ho]; exact hD1)
  have hd0 : 0 ≤ rnd f D := rnd_nonneg hD0
  have hs0 : 0 ≤ rnd f S := rnd_nonneg hS0
  have hs2 : rnd f S ≤ 2 * S := by
    rw [abs_le] at hserr
    have : u * S ≤ S := by nlinarith
    linarith
  have hprod : rnd f D * rnd f S ≤ 2 * S := le_trans (mul_le_of_le_one_left hs0 hdle) hs2
  have hprod0 : 0 ≤ rnd f D * rnd f S := mul_nonneg hd0 hs0
  have hr := mul_value hP hd.1 hs.1 (by
    rw [hd.2, hs.2, abs_of_nonneg hprod0]; linarith)
  rw [hd.2, hs.2] at hr
  have hrerr := herr (rnd f D * rnd f S)
  have hrle : |rnd f (rnd f D * rnd f S)| ≤ 5 * M + 1 := by
    rw [abs_of_nonneg (rnd_nonneg hprod0)]
    have hrerr := hrerr
    rw [abs_le, abs_of_nonneg hprod0] at hrerr
    have : u * (rnd f D * rnd f S) ≤ 1 / 4 * (4 * M) :=
      mul_le_mul (by linarith) (by linarith) hprod0 (by norm_num)
    linarith
  have hsum : |rnd f (rnd f D * rnd f S) + valueOf mn| ≤ 6 * M + 1 := by
    have := abs_add_le (rnd f (rnd f D * rnd f S)) (valueOf mn)
    linarith
  have hy := add_value hP hr.1 hmn (by rw [hr.2]; linarith)
  rw [hr.2] at hy
  refine ⟨hy.1, ?_⟩
  rw [hy.2]
  exact decode_error hu0 hu1 hη0 hη1 hD0 hD1 hS0 hbet hSM hderr hserr hrerr (herr _)

/-- How far a number in the range may move: one step, and the rounding. -/
theorem total_error {X S m c M y mn e : ℚ} (hS : 0 < S) (hm : 1 ≤ m) (h1 : c ≤ m * (X / S) + m / 2 ^ 21)
    (h2 : m * (X / S) - m / 2 ^ 21 < c + 1) (hy : |y - (c / m * S + mn)| ≤ e) (hSM : S ≤ 2 * M) :
    |y - (X + mn)| ≤ S / m + M / 2 ^ 20 + e := by
  have hm0 : (0 : ℚ) < m := by linarith
  have key : |c / m * S - X| ≤ S / m + M / 2 ^ 20 := by
    have a1 : c / m ≤ X / S + 1 / 2 ^ 21 := by
      rw [div_le_iff₀ hm0]; nlinarith
    have a2 : X / S - 1 / 2 ^ 21 - 1 / m < c / m := by
      rw [lt_div_iff₀ hm0, sub_mul, sub_mul, one_div_mul_cancel hm0.ne']
      linarith
    have a3 : X = X / S * S := (div_mul_cancel₀ _ hS.ne').symm
    have a4 : c / m * S - X = (c / m - X / S) * S := by rw [sub_mul, ← a3]
    have a5 : |c / m - X / S| ≤ 1 / m + 1 / 2 ^ 21 := by
      have : 0 < 1 / m := by positivity
      rw [abs_le]; constructor <;> linarith
    rw [a4, abs_mul, abs_of_pos hS]
    calc |c / m - X / S| * S ≤ (1 / m + 1 / 2 ^ 21) * S := mul_le_mul_of_nonneg_right a5 hS.le
      _ = S / m + S / 2 ^ 21 := by ring
      _ ≤ S / m + M / 2 ^ 20 := by linarith
  have := abs_add_le (y - (c / m * S + mn)) (c / m * S - X)
  rw [show y - (c / m * S + mn) + (c / m * S - X) = y - (X + mn) by ring] at this
  linarith

/-! ### The two pipelines -/

theorem span_error {mn mx : Val b32} (h : valueOf mn ≤ valueOf mx) :
    |rnd b32 (valueOf mx - valueOf mn) - (valueOf mx - valueOf mn)| ≤ 1 / 2 ^ 24 * (valueOf mx - valueOf mn) := by
  have := rnd32_error_sub mx mn
  rwa [abs_of_nonneg (show (0 : ℚ) ≤ valueOf mx - valueOf mn by linarith)] at this

/-- One vertex coordinate: `min`, `max` are those of the box, `size` the size used by the writer. -/
theorem coord_near {p : Nat} (hp1 : 1 ≤ p) (hp : p ≤ 24) {x mn mx size : Val b32} {M : ℚ} (hx : isFinite x = true)
    (hmn : isFinite mn = true) (hmx : isFinite mx = true) (hsz : isFinite size = true)
    (hsv : valueOf size = rnd b32 (valueOf mx - valueOf mn)) (h0 : valueOf mn ≤ valueOf x) (h1 : valueOf x ≤ valueOf mx)
    (hlt : valueOf mn < valueOf mx) (hM1 : |valueOf mn| ≤ M) (hM2 : |valueOf mx| ≤ M) (hM : M ≤ 2 ^ 120) :
    isFinite (add (mul (div (ofNat (toU64 (mul (div (sub x mn) size) (ofNat (2 ^ p - 1))) % 2 ^ p)) (ofNat (2 ^ p - 1)))
      (sub mx mn)) mn) = true ∧
    |valueOf (add (mul (div (ofNat (toU64 (mul (div (sub x mn) size) (ofNat (2 ^ p - 1))) % 2 ^ p)) (ofNat (2 ^ p - 1)))
      (sub mx mn)) mn) - valueOf x| ≤ (valueOf mx - valueOf mn) / (2 ^ p - 1) + M / 2 ^ 19 + 1 / 2 ^ 148 := by
  have hM0 : 0 ≤ M := le_trans (abs_nonneg _) hM1
  have hSM : valueOf mx - valueOf mn ≤ 2 * M := by rw [abs_le] at hM1 hM2; linarith
  obtain ⟨c1, c2, c3⟩ := code_value hp1 hp (S := valueOf mx - valueOf mn) hx hmn hsz (by linarith)
    (by linarith [show (2 : ℚ) * 2 ^ 120 ≤ 2 ^ 127 by norm_num]) h0 (by linarith) hsv (span_error hlt.le)
  generalize toU64 (mul (div (sub x mn) size) (ofNat (2 ^ p - 1))) = c at *
  have hpow : 1 ≤ 2 ^ p := Nat.one_le_two_pow
  rw [Nat.mod_eq_of_lt (show c < 2 ^ p by omega)]
  obtain ⟨hD0, hD1⟩ := frac_bounds hp1 c1
  have hm24 : 2 ^ p - 1 ≤ 2 ^ 24 := by
    have : 2 ^ p ≤ 2 ^ 24 := Nat.pow_le_pow_right (by omega) hp
    omega
  have hmc : ((2 ^ p - 1 : Nat) : ℚ) = 2 ^ p - 1 := by
    rw [Nat.cast_sub Nat.one_le_two_pow]; push_cast; rfl
  have hm1 : (1 : ℚ) ≤ 2 ^ p - 1 := by
    have : (2 : ℚ) ^ 1 ≤ 2 ^ p := pow_le_pow_right₀ (by norm_num) hp1
    linarith
  have hcv := ofNat_value (c := c) (by omega)
  have hmv := ofNat_value hm24
  obtain ⟨hf, he⟩ := decode_value (f := b32) (by decide) (u := 1 / 2 ^ 24) (η := 1 / 2 ^ 150) (D := (c : ℚ) / (2 ^ p - 1)) (M := M)
    rfl (by norm_num) rfl (by norm_num) (o := ofNat 1) (by rw [(ofNat_value (c := 1) (by norm_num)).2, Nat.cast_one])
    hcv.1 hmv.1 (by rw [hmv.2, hmc]; linarith) (by rw [hcv.2, hmv.2, hmc]) hD0 hD1 hmn hmx hlt.le hM1 hM2
    (le_trans (by linarith [show (8 : ℚ) * 2 ^ 120 + 8 ≤ 2 ^ 127 by norm_num]) maxV32)
  refine ⟨hf, ?_⟩
  have ht := total_error (S := valueOf mx - valueOf mn) (M := M) (by linarith) hm1 c2 c3 he hSM
  rw [sub_add_cancel] at ht
  have e1 : (15 : ℚ) * (1 / 2 ^ 24) * M ≤ M / 2 ^ 20 := by
    rw [mul_comm, ← mul_div_assoc]; nlinarith
  have e2 : M / 2 ^ 20 + M / 2 ^ 20 = M / 2 ^ 19 := by ring
  have e3 : (3 : ℚ) * (1 / 2 ^ 150) ≤ 1 / 2 ^ 148 := by norm_num
  linarith

/-- Decoding the code of a number of a float array. -/
theorem float_decode {p c : Nat} (hp1 : 1 ≤ p) (hp : p ≤ 53) {x mn mx : Val b32} {M : ℚ}
    (hmn : isFinite mn = true) (hmx : isFinite mx = true)
    (hlt : valueOf mn < valueOf mx) (hM1 : |valueOf mn| ≤ M) (hM2 : |valueOf mx| ≤ M) (hM : M ≤ 2 ^ 120)
    (c1 : c ≤ 2 ^ p - 1)
    (c2 : (c : ℚ) ≤ (2 ^ p - 1) * ((valueOf x - valueOf mn) / (valueOf mx - valueOf mn)) + (2 ^ p - 1) / 2 ^ 21)
    (c3 : (2 ^ p - 1) * ((valueOf x - valueOf mn) / (valueOf mx - valueOf mn)) - (2 ^ p - 1) / 2 ^ 21 < (c : ℚ) + 1) :
    isFinite (convert (add (mul (div (ofNat c : Val b64) (ofNat (2 ^ p - 1))) (sub (convert mx) (convert mn))) (convert mn)) :
      Val b32) = true ∧
    |valueOf (convert (add (mul (div (ofNat c : Val b64) (ofNat (2 ^ p - 1))) (sub (convert mx) (convert mn))) (convert mn)) :
      Val b32) - valueOf x| ≤ (valueOf mx - valueOf mn) / (2 ^ p - 1) + M / 2 ^ 19 + 1 / 2 ^ 148 := by
  have hM0 : 0 ≤ M := le_trans (abs_nonneg _) hM1
  have hSM : valueOf mx - valueOf mn ≤ 2 * M := by rw [abs_le] at hM1 hM2; linarith
  obtain ⟨hD0, hD1⟩ := frac_bounds hp1 c1
  have hm24 : 2 ^ p - 1 ≤ 2 ^ 53 := by
    have : 2 ^ p ≤ 2 ^ 53 := Nat.pow_le_pow_right (by omega) hp
    omega
  have hmc : ((2 ^ p - 1 : Nat) : ℚ) = 2 ^ p - 1 := by
    rw [Nat.cast_sub Nat.one_le_two_pow]; push_cast; rfl
  have hm1 : (1 : ℚ) ≤ 2 ^ p - 1 := by
    have : (2 : ℚ) ^ 1 ≤ 2 ^ p := pow_le_pow_right₀ (by norm_num) hp1
    linarith
  have hcv := ofNat_value64 (c := c) (by omega)
  have hmv := ofNat_value64 hm24
  have hwn := widen_value hmn
  have hwx := widen_value hmx
  have hη64 : (1 : ℚ) / 2 ^ 1075 ≤ 1 / 2 ^ 152 := one_div_le_one_div_of_le (by positivity) (pow_le_pow_right₀ (by norm_num) (by norm_num))
  obtain ⟨hf, he⟩ := decode_value (f := b64) (by decide) (u := 1 / 2 ^ 53) (η := 1 / 2 ^ 1075) (D := (c : ℚ) / (2 ^ p - 1)) (M := M)
    rfl (by norm_num) rfl (le_trans hη64 (by norm_num)) (o := ofNat 1)
    (by rw [(ofNat_value64 (c := 1) (by norm_num)).2, Nat.cast_one])
    hcv.1 hmv.1 (by rw [hmv.2, hmc]; linarith) (by rw [hcv.2, hmv.2, hmc]) hD0 hD1 hwn.1 hwx.1 (by rw [hwn.2, hwx.2]; exact hlt.le)
    (by rw [hwn.2]; exact hM1) (by rw [hwx.2]; exact hM2)
    (le_trans (by linarith [show (8 : ℚ) * 2 ^ 120 + 8 ≤ 2 ^ 200 by norm_num]) maxV64)
  rw [hwn.2, hwx.2] at he
  generalize (add (mul (div (ofNat c : Val b64) (ofNat (2 ^ p - 1))) (sub (convert mx) (convert mn))) (convert mn)) = y64 at *
  have hbet := between_abs hD0 hD1 hlt.le hM1 hM2
  have hη0 : (0 : ℚ) ≤ 1 / 2 ^ 1075 := by positivity
  generalize (1 : ℚ) / 2 ^ 1075 = η at *
  have hy64 : |valueOf y64| ≤ 2 * M + 1 := by
    have := abs_add_le (valueOf y64 - ((c : ℚ) / (2 ^ p - 1) * (valueOf mx - valueOf mn) + valueOf mn))
      ((c : ℚ) / (2 ^ p - 1) * (valueOf mx - valueOf mn) + valueOf mn)
    rw [sub_add_cancel] at this
    have e1 : (15 : ℚ) * (1 / 2 ^ 53) * M ≤ M := by nlinarith [show (15 : ℚ) * (1 / 2 ^ 53) ≤ 1 by norm_num]
    have e2 : 3 * η ≤ 1 := le_trans (mul_le_mul_of_nonneg_left hη64 (by norm_num)) (by norm_num)
    linarith
  have hfin := convert_value (g := b32) (by decide) hf (by
    refine le_trans hy64 (le_trans ?_ maxV32)
    linarith [show (2 : ℚ) * 2 ^ 120 + 1 ≤ 2 ^ 127 by norm_num])
  refine ⟨hfin.1, ?_⟩
  rw [hfin.2]
  have hrerr := rnd32_error (valueOf y64)
  have ht := total_error (S := valueOf mx - valueOf mn) (M := M) (y := rnd b32 (valueOf y64)) (mn := valueOf mn)
    (e := M / 2 ^ 20 + 1 / 2 ^ 148) (by linarith) hm1 c2 c3 ?_ hSM
  · rw [sub_add_cancel] at ht
    have e2 : M / 2 ^ 20 + M / 2 ^ 20 = M / 2 ^ 19 := by ring
    linarith
  · have := abs_add_le (rnd b32 (valueOf y64) - valueOf y64)
      (valueOf y64 - ((c : ℚ) / (2 ^ p - 1) * (valueOf mx - valueOf mn) + valueOf mn))
    rw [sub_add_sub_cancel] at this
    have hy2 : |valueOf y64| ≤ M + 15 * (1 / 2 ^ 53) * M + 3 * η := by
      have := abs_add_le (valueOf y64 - ((c : ℚ) / (2 ^ p - 1) * (valueOf mx - valueOf mn) + valueOf mn))
        ((c : ℚ) / (2 ^ p - 1) * (valueOf mx - valueOf mn) + valueOf mn)
      rw [sub_add_cancel] at this
      linarith
    have e3 : 1 / 2 ^ 24 * |valueOf y64| ≤ 1 / 2 ^ 24 * (M + 15 * (1 / 2 ^ 53) * M + 3 * η) :=
      mul_le_mul_of_nonneg_left hy2 (by norm_num)
    have e4 : (1 : ℚ) / 2 ^ 24 * (M + 15 * (1 / 2 ^ 53) * M) + 15 * (1 / 2 ^ 53) * M ≤ M / 2 ^ 20 := by
      have : (1 : ℚ) / 2 ^ 24 * (M + 15 * (1 / 2 ^ 53) * M) + 15 * (1 / 2 ^ 53) * M =
        (1 / 2 ^ 24 * (1 + 15 * (1 / 2 ^ 53)) + 15 * (1 / 2 ^ 53)) * M := by ring
      rw [this, show M / 2 ^ 20 = 1 / 2 ^ 20 * M by ring]
      exact mul_le_mul_of_nonneg_right (by norm_num) hM0
    have e5 : (1 : ℚ) / 2 ^ 24 * (3 * η) + 3 * η + 1 / 2 ^ 150 ≤ 1 / 2 ^ 148 := by
      have h4 : (1 : ℚ) / 2 ^ 152 * 5 ≤ 1 / 2 ^ 148 - 1 / 2 ^ 150 := by norm_num
      nlinarith
    linarith

/-- One number of a float array. -/
theorem float_near {p : Nat} (hp1 : 1 ≤ p) (hp : p ≤ 24) {x mn mx : Val b32} {M : ℚ} (hx : isFinite x = true)
    (hmn : isFinite mn = true) (hmx : isFinite mx = true)
    (h0 : valueOf mn ≤ valueOf x) (h1 : valueOf x ≤ valueOf mx)
    (hlt : valueOf mn < valueOf mx) (hM1 : |valueOf mn| ≤ M) (hM2 : |valueOf mx| ≤ M) (hM : M ≤ 2 ^ 120) :
    isFinite (convert (add (mul (div (ofNat (toU64 (mul (div (sub x mn) (sub mx mn)) (ofNat (2 ^ p - 1))) % 2 ^ p) : Val b64)
      (ofNat (2 ^ p - 1))) (sub (convert mx) (convert mn))) (convert mn)) : Val b32) = true ∧
    |valueOf (convert (add (mul (div (ofNat (toU64 (mul (div (sub x mn) (sub mx mn)) (ofNat (2 ^ p - 1))) % 2 ^ p) : Val b64)
      (ofNat (2 ^ p - 1))) (sub (convert mx) (convert mn))) (convert mn)) : Val b32) - valueOf x|
      ≤ (valueOf mx - valueOf mn) / (2 ^ p - 1) + M / 2 ^ 19 + 1 / 2 ^ 148 := by
  have hM0 : 0 ≤ M := le_trans (abs_nonneg _) hM1
  have hSM : valueOf mx - valueOf mn ≤ 2 * M := by rw [abs_le] at hM1 hM2; linarith
  have hS127 : valueOf mx - valueOf mn ≤ 2 ^ 127 := by linarith [show (2 : ℚ) * 2 ^ 120 ≤ 2 ^ 127 by norm_num]
  have hszv := sub_value (f := b32) (by decide) hmx hmn (by
    rw [abs_of_nonneg (by linarith)]; exact le_trans hS127 maxV32)
  obtain ⟨c1, c2, c3⟩ := code_value hp1 hp (S := valueOf mx - valueOf mn) hx hmn hszv.1 (by linarith)
    hS127 h0 (by linarith) hszv.2 (span_error hlt.le)
  generalize toU64 (mul (div (sub x mn) (sub mx mn)) (ofNat (2 ^ p - 1))) = c at *
  have hpow : 1 ≤ 2 ^ p := Nat.one_le_two_pow
  rw [Nat.mod_eq_of_lt (show c < 2 ^ p by omega)]
  exact float_decode hp1 (by omega) hmn hmx hlt hM1 hM2 hM c1 c2 c3

end Tmf.Ieee
