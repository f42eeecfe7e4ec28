import Verif.Lemmas.QuantizeAny
import Verif.Lemmas.VertexAccuracy
/-
The lemmas on quantised numbers for f64, which the feature `double_precision` uses for every number.
-/

set_option exponentiation.threshold 2000
set_option linter.unusedSectionVars false

namespace Tmf.Ieee.Double
open Spec Any

/-! ### Uv coordinates and colours -/

section
variable {p : Nat} (hp1 : 1 ≤ p) (hp : p ≤ 53)
include hp1 hp

theorem dec_le_one {c : Nat} (hc : c ≤ 2 ^ p - 1) : Any.dec b64 p c ≤ 2 ^ 1074 := by
  have hm1 := Any.one_le_mask hp1
  refine round_le_flt b64 hm1 (by decide) ⟨1, 1074, by decide, by rw [Nat.one_mul]⟩ ?_
  rw [div_le_iff₀ (by exact_mod_cast hm1)]
  have : c * 2 ^ 1074 ≤ 2 ^ 1074 * (2 ^ p - 1) := by rw [Nat.mul_comm]; exact Nat.mul_le_mul_left _ hc
  exact_mod_cast this

theorem dec_rep {c : Nat} (hc : c ≤ 2 ^ p - 1) : b64.Rep (Any.dec b64 p c) :=
  (rep_iff b64 (by decide)).mpr ⟨Any.dec_flt hp1 c, le_trans (dec_le_one hp1 hp hc) (le_trans (by norm_num) max64)⟩

/-- `c / (2^p - 1)` in f64. -/
theorem div_code {c : Nat} (hc : c ≤ 2 ^ p - 1) :
    div (ofNat c : Val b64) (ofNat (2 ^ p - 1)) = .fin false (Any.dec b64 p c) (dec_rep hp1 hp hc) := by
  have hm24 : 2 ^ p - 1 < 2 ^ 53 := Any.mask_lt (f := b64) hp
  have hm1 := Any.one_le_mask hp1
  rw [ofNat_exact64 (show c ≤ 2 ^ 53 by omega), ofNat_exact64 hm24.le]
  simp only [div]
  have hne : (2 ^ p - 1) * 2 ^ 1074 ≠ 0 := Nat.mul_ne_zero (by omega) (by positivity)
  have hr : b64.round (c * 2 ^ 1074 * 2 ^ b64.scale) ((2 ^ p - 1) * 2 ^ 1074) = Any.dec b64 p c := round_scale b64 (by positivity)
  rw [if_neg hne, rounded, hr, pack, dif_pos (dec_rep hp1 hp hc)]
  rfl

/-- `(x * (2^p - 1)) as u64`. -/
theorem code_pos {X : Nat} (hX : b64.Rep X) (hX1 : X ≤ 2 ^ 1074) :
    toU64 (mul (.fin false X hX : Val b64) (ofNat (2 ^ p - 1))) = Any.mulR b64 p X / 2 ^ 1074 := by
  have hm24 : 2 ^ p - 1 < 2 ^ 53 := Any.mask_lt (f := b64) hp
  have hm1 := Any.one_le_mask hp1
  rw [ofNat_exact64 hm24.le]
  simp only [mul]
  have hr : b64.round (X * ((2 ^ p - 1) * 2 ^ 1074)) (2 ^ b64.scale) = Any.mulR b64 p X := by
    have := round_scale b64 (num := X * (2 ^ p - 1)) (den := 1) (k := 2 ^ 1074) (by positivity)
    rw [Nat.one_mul, Nat.mul_assoc] at this
    exact this
  have hle : Any.mulR b64 p X ≤ (2 ^ p - 1) * 2 ^ 1074 :=
    Any.mulR_le (Any.flt_int hm24.le) (by rw [Nat.mul_comm (2 ^ p - 1)]; exact Nat.mul_le_mul_right _ hX1)
  have hrep : b64.Rep (Any.mulR b64 p X) := (rep_iff b64 (by decide)).mpr ⟨Any.mulR_flt p X, le_trans hle (rep_int64 hm24.le).2⟩
  rw [rounded, hr, pack, dif_pos hrep]
  simp only [toU64, bne_self_eq_false, Bool.false_eq_true, if_false]
  have : Any.mulR b64 p X / 2 ^ 1074 ≤ 2 ^ p - 1 := Any.code_le hp1 hp ((rep_iff b64 (by decide)).mp hX).1 hX1
  exact Nat.min_eq_left (by
    have : (2 : Nat) ^ 24 ≤ 2 ^ 64 - 1 := by norm_num
    show Any.mulR b64 p X / 2 ^ 1074 ≤ _
    omega)

end

/-- Negative values are stored as 0. -/
theorem code_neg {X m : Nat} (hX : b64.Rep X) (hm : m ≤ 2 ^ 53) :
    toU64 (mul (.fin true X hX : Val b64) (ofNat m)) = 0 := by
  rw [ofNat_exact64 hm]
  simp only [mul]
  rw [rounded, pack]
  split <;> simp [toU64]

/-- What `(x * (2^p - 1)) as u64`, stored in `p` bits and divided by `2^p - 1` gives. -/
def unitDec (p : Nat) (x : Val b64) : Nat := Any.dec b64 p (toU64 (mul x (ofNat (2 ^ p - 1))) % 2 ^ p)

theorem unitValue_cases {x : Val b64} (h : UnitValue x) :
    ∃ s X hX, x = .fin s X hX ∧ X ≤ 2 ^ 1074 ∧ (s = false ∨ X = 0) := by
  obtain ⟨h0, h1, h2⟩ := h
  cases x with
  | nan => cases h0
  | inf s => cases h0
  | fin s X hX =>
    refine ⟨s, X, hX, rfl, ?_⟩
    have hpos : (0 : ℚ) < 2 ^ b64.scale := by positivity
    cases s with
    | false =>
      refine ⟨?_, .inl rfl⟩
      simp only [valueOf, signed, Bool.false_eq_true, if_false] at h2
      rw [div_le_one hpos] at h2
      exact_mod_cast h2
    | true =>
      simp only [valueOf, signed, if_true] at h1
      have := (div_nonneg_iff.mp h1).resolve_right (fun h => absurd h.2 (not_le.mpr hpos))
      have h3 : (X : ℤ) ≤ 0 := by
        have := this.1
        push_cast at this
        have : (X : ℚ) ≤ 0 := by linarith
        exact_mod_cast this
      have : X = 0 := by omega
      subst this
      exact ⟨by positivity, .inr rfl⟩

/-- The decoded value is below the original by less than one step. -/
theorem stepBelow_unitDec {p : Nat} (hp1 : 1 ≤ p) (hp30 : p ≤ 30) {x : Val b64} (hx : UnitValue x)
    (h : b64.Rep (unitDec p x)) : StepBelow p x (.fin false (unitDec p x) h) := by
  obtain ⟨s, X, hX, rfl, hX1, hs⟩ := unitValue_cases hx
  have hp : p ≤ 53 := by omega
  have hm1 := Any.one_le_mask hp1
  have hlt2 : 0 < 2 ^ p := by positivity
  have hmq : (0 : ℚ) < 2 ^ p - 1 := by
    have : (1 : ℚ) < 2 ^ p := one_lt_pow₀ (by norm_num) (by omega)
    linarith
  have hS : (0 : ℚ) < 2 ^ b64.scale := by positivity
  have hXf := ((rep_iff b64 (by decide)).mp hX).1
  have hz : valueOf (.fin s X hX : Val b64) = (X : ℚ) / 2 ^ b64.scale := by
    rcases hs with rfl | rfl
    · simp [valueOf, signed]
    · cases s <;> simp [valueOf, signed]
  have key : unitDec p (.fin s X hX) ≤ X ∧ X * (2 ^ p - 1) < unitDec p (.fin s X hX) * (2 ^ p - 1) + 2 ^ 1074 := by
    cases s with
    | false =>
      rw [unitDec, code_pos hp1 hp hX hX1,
        Nat.mod_eq_of_lt (by have h : Any.mulR b64 p X / 2 ^ 1074 ≤ 2 ^ p - 1 := Any.code_le hp1 hp hXf hX1; omega)]
      exact ⟨Any.dec_code_le hp1 hp hXf hX1 (codes64 hp1 hp30), Any.code_lt_step hp1 hp hXf hX1⟩
    | true =>
      have : X = 0 := by simpa using hs
      subst this
      rw [unitDec, code_neg hX (Any.mask_lt (f := b64) hp).le, Nat.zero_mod, Any.dec_zero p hp1]
      simp
  refine ⟨rfl, ?_, ?_⟩
  · rw [hz]
    simp only [valueOf, signed, Bool.false_eq_true, if_false]
    rw [div_le_div_iff_of_pos_right hS]
    exact_mod_cast key.1
  · rw [hz]
    simp only [valueOf, signed, Bool.false_eq_true, if_false]
    rw [← sub_div, div_lt_div_iff₀ hS hmq, sub_mul, one_mul]
    have h2 : ((X * (2 ^ p - 1) : Nat) : ℚ) < ((unitDec p (.fin s X hX) * (2 ^ p - 1) + 2 ^ 1074 : Nat) : ℚ) := by
      exact_mod_cast key.2
    rw [Nat.cast_add, Nat.cast_mul, Nat.cast_mul, Nat.cast_sub (by omega)] at h2
    push_cast at h2 ⊢
    have e : (2 : ℚ) ^ b64.scale = 2 ^ 1074 := rfl
    rw [e]
    linarith

/-- Encoding a decoded code gives it back. -/
theorem code_of_dec {p c : Nat} (hp1 : 1 ≤ p) (hp30 : p ≤ 30) (hp : p ≤ 53) (hc : c ≤ 2 ^ p - 1) :
    toU64 (mul (.fin false (Any.dec b64 p c) (dec_rep hp1 hp hc) : Val b64) (ofNat (2 ^ p - 1))) = c := by
  rw [code_pos hp1 hp _ (dec_le_one hp1 hp hc)]
  exact Any.code_dec (codes64 hp1 hp30) hp1 hp hc

/-! ### Numbers in a range -/

theorem rnd64_error_sub (x y : Val b64) :
    |rnd b64 (valueOf x - valueOf y) - (valueOf x - valueOf y)| ≤ 1 / 2 ^ 53 * |valueOf x - valueOf y| := by
  obtain ⟨k, hk⟩ := units_valueOf x
  obtain ⟨l, hl⟩ := units_valueOf y
  have := rnd_error_units (f := b64) (by decide) (v := valueOf x - valueOf y) (k := k - l) (by rw [sub_mul, hk, hl]; push_cast; rfl)
  rw [prec64] at this
  rw [div_mul_eq_mul_div, one_mul]
  exact this

theorem toU64_value {w : Val b64} (hf : isFinite w = true) (h0 : 0 ≤ valueOf w) (h1 : valueOf w < 2 ^ 64) :
    (toU64 w : ℚ) ≤ valueOf w ∧ valueOf w < toU64 w + 1 := by
  obtain ⟨s, n, hn, rfl⟩ := finite_cases hf
  have hS : (0 : ℚ) < 2 ^ b64.scale := units_pos b64
  have hv : valueOf (.fin s n hn : Val b64) = (n : ℚ) / 2 ^ b64.scale := by
    rw [← abs_valueOf_fin s n hn, abs_of_nonneg h0]
  rw [hv] at h0 h1 ⊢
  cases s with
  | true =>
    have : n = 0 := by
      rw [valueOf_fin] at hv
      simp only [sgn, if_true] at hv
      have h2 : (n : ℚ) / 2 ^ b64.scale = 0 := by linarith
      rw [div_eq_zero_iff] at h2
      rcases h2 with h2 | h2
      · exact_mod_cast h2
      · exact absurd h2 hS.ne'
    subst this
    simp [toU64]
  | false =>
    have hdiv : n / 2 ^ b64.scale < 2 ^ 64 := by
      rw [Nat.div_lt_iff_lt_mul (by positivity)]
      rw [div_lt_iff₀ hS] at h1
      exact_mod_cast h1
    have e : toU64 (.fin false n hn : Val b64) = n / 2 ^ b64.scale := by
      simp only [toU64, Bool.false_eq_true, if_false]
      exact Nat.min_eq_left (by omega)
    rw [e]
    constructor
    · rw [le_div_iff₀ hS]
      exact_mod_cast Nat.div_mul_le_self n (2 ^ b64.scale)
    · rw [div_lt_iff₀ hS]
      exact_mod_cast Nat.lt_mul_of_div_lt (Nat.lt_succ_self (n / 2 ^ b64.scale)) (by positivity)

/-- The code of a number in the range: at most `2^p - 1`, and near the exact one. -/
theorem code_value {p : Nat} (hp1 : 1 ≤ p) (hp : p ≤ 53) {x mn size : Val b64} {S : ℚ} (hx : isFinite x = true)
    (hmn : isFinite mn = true) (hsz : isFinite size = true) (hS : 0 < S) (hSmax : S ≤ 2 ^ 200) (h0 : valueOf mn ≤ valueOf x)
    (h1 : valueOf x - valueOf mn ≤ S) (hsv : valueOf size = rnd b64 S) (hse : |rnd b64 S - S| ≤ 1 / 2 ^ 53 * S) :
    toU64 (mul (div (sub x mn) size) (ofNat (2 ^ p - 1))) ≤ 2 ^ p - 1 ∧
    ((toU64 (mul (div (sub x mn) size) (ofNat (2 ^ p - 1))) : ℚ) ≤
      (2 ^ p - 1) * ((valueOf x - valueOf mn) / S) + (2 ^ p - 1) / 2 ^ 50 ∧
     (2 ^ p - 1) * ((valueOf x - valueOf mn) / S) - (2 ^ p - 1) / 2 ^ 50 <
      toU64 (mul (div (sub x mn) size) (ofNat (2 ^ p - 1))) + 1) := by
  have hP : 0 < b64.prec := by decide
  have hm24 : 2 ^ p - 1 ≤ 2 ^ 53 := by
    have : 2 ^ p ≤ 2 ^ 53 := Nat.pow_le_pow_right (by omega) hp
    omega
  have hmc : ((2 ^ p - 1 : Nat) : ℚ) = 2 ^ p - 1 := by
    rw [Nat.cast_sub Nat.one_le_two_pow]; push_cast; rfl
  have hm1 : (1 : ℚ) ≤ 2 ^ p - 1 := by
    have : (2 : ℚ) ^ 1 ≤ 2 ^ p := pow_le_pow_right₀ (by norm_num) hp1
    linarith
  have hm2 : (2 : ℚ) ^ p - 1 ≤ 2 ^ 53 := by rw [← hmc]; exact_mod_cast hm24
  have hX0 : 0 ≤ valueOf x - valueOf mn := by linarith
  have hmax := maxV64
  have ht := sub_value hP hx hmn (by rw [abs_of_nonneg hX0]; linarith)
  have hterr := rnd64_error_sub x mn
  have hts : valueOf (sub x mn) ≤ valueOf size := by rw [ht.2, hsv]; exact rnd_mono hP h1
  have ht0 : 0 ≤ valueOf (sub x mn) := by rw [ht.2]; exact rnd_nonneg hX0
  have hspos : 0 < valueOf size := by
    rw [hsv]
    rw [abs_le] at hse
    have : 1 / 2 ^ 53 * S < S := by
      have : (1 : ℚ) / 2 ^ 53 < 1 := by norm_num
      nlinarith
    linarith
  have hq1 : valueOf (sub x mn) / valueOf size ≤ 1 := (div_le_one hspos).mpr hts
  have hq0 : 0 ≤ valueOf (sub x mn) / valueOf size := div_nonneg ht0 hspos.le
  have hmx1 : (1 : ℚ) ≤ maxV b64 := le_trans (by norm_num) hmax
  have hq := div_value hP ht.1 hsz hspos.ne' (by rw [abs_of_nonneg hq0]; linarith)
  have hone := ofNat_value64 (c := 1) (by norm_num)
  have hqle : valueOf (div (sub x mn) size) ≤ 1 := by
    rw [hq.2, ← Nat.cast_one (R := ℚ), ← hone.2]
    exact rnd_le_valueOf hP (by rw [hone.2, Nat.cast_one]; exact hq1)
  have hqnn : 0 ≤ valueOf (div (sub x mn) size) := by rw [hq.2]; exact rnd_nonneg hq0
  have hmv := ofNat_value64 hm24
  have hwm : valueOf (div (sub x mn) size) * valueOf (ofNat (2 ^ p - 1) : Val b64) ≤ 2 ^ p - 1 := by
    rw [hmv.2, hmc]; nlinarith
  have hw0 : 0 ≤ valueOf (div (sub x mn) size) * valueOf (ofNat (2 ^ p - 1) : Val b64) := by
    rw [hmv.2]; positivity
  have hw := mul_value hP hq.1 hmv.1 (by
    rw [abs_of_nonneg hw0]
    refine le_trans hwm (le_trans hm2 (le_trans (by norm_num) hmax)))
  have hwle : valueOf (mul (div (sub x mn) size) (ofNat (2 ^ p - 1))) ≤ 2 ^ p - 1 := by
    rw [hw.2, ← hmc, ← hmv.2]
    exact rnd_le_valueOf hP (by rw [hmv.2, hmc, ← hmc, ← hmv.2, hmv.2, hmc] ; rw [hmv.2, hmc] at hwm; exact hwm)
  have hwnn : 0 ≤ valueOf (mul (div (sub x mn) size) (ofNat (2 ^ p - 1))) := by rw [hw.2]; exact rnd_nonneg hw0
  obtain ⟨hc1, hc2⟩ := toU64_value hw.1 hwnn (lt_of_le_of_lt (le_trans hwle hm2) (by norm_num))
  have herr := encode_error (u := 1 / 2 ^ 53) (η := 1 / 2 ^ 1075) (X := valueOf x - valueOf mn) (S := S)
    (t := valueOf (sub x mn)) (s := valueOf size) (q := valueOf (div (sub x mn) size))
    (w := valueOf (mul (div (sub x mn) size) (ofNat (2 ^ p - 1)))) (m := 2 ^ p - 1) (by norm_num) (by norm_num)
    (by norm_num) hX0 h1 hS hm1
    (by rw [ht.2]; rw [abs_of_nonneg hX0] at hterr; exact hterr) (by rw [hsv]; exact hse)
    (by rw [hq.2]; exact rnd64_error _)
    (by rw [hw.2, hmv.2, hmc]; exact rnd64_error _)
  rw [abs_le] at herr
  have e8 : (8 : ℚ) * (1 / 2 ^ 53) * (2 ^ p - 1) = (2 ^ p - 1) / 2 ^ 50 := by ring
  rw [e8] at herr
  refine ⟨?_, ?_, ?_⟩
  · have : (toU64 (mul (div (sub x mn) size) (ofNat (2 ^ p - 1))) : ℚ) ≤ ((2 ^ p - 1 : Nat) : ℚ) := by
      rw [hmc]; linarith
    exact_mod_cast this
  · linarith
  · linarith

/-- How far a number in the range may move: one step, and the rounding. -/
theorem total_error {X S m c M y mn e : ℚ} (hS : 0 < S) (hm : 1 ≤ m) (h1 : c ≤ m * (X / S) + m / 2 ^ 50)
    (h2 : m * (X / S) - m / 2 ^ 50 < c + 1) (hy : |y - (c / m * S + mn)| ≤ e) (hSM : S ≤ 2 * M) :
    |y - (X + mn)| ≤ S / m + M / 2 ^ 49 + e := by
  have hm0 : (0 : ℚ) < m := by linarith
  have key : |c / m * S - X| ≤ S / m + M / 2 ^ 49 := by
    have a1 : c / m ≤ X / S + 1 / 2 ^ 50 := by
      rw [div_le_iff₀ hm0]; nlinarith
    have a2 : X / S - 1 / 2 ^ 50 - 1 / m < c / m := by
      rw [lt_div_iff₀ hm0, sub_mul, sub_mul, one_div_mul_cancel hm0.ne']
      linarith
    have a3 : X = X / S * S := (div_mul_cancel₀ _ hS.ne').symm
    have a4 : c / m * S - X = (c / m - X / S) * S := by rw [sub_mul, ← a3]
    have a5 : |c / m - X / S| ≤ 1 / m + 1 / 2 ^ 50 := by
      have : 0 < 1 / m := by positivity
      rw [abs_le]; constructor <;> linarith
    rw [a4, abs_mul, abs_of_pos hS]
    calc |c / m - X / S| * S ≤ (1 / m + 1 / 2 ^ 50) * S := mul_le_mul_of_nonneg_right a5 hS.le
      _ = S / m + S / 2 ^ 50 := by ring
      _ ≤ S / m + M / 2 ^ 49 := by linarith
  have := abs_add_le (y - (c / m * S + mn)) (c / m * S - X)
  rw [show y - (c / m * S + mn) + (c / m * S - X) = y - (X + mn) by ring] at this
  linarith

theorem span_error {mn mx : Val b64} (h : valueOf mn ≤ valueOf mx) :
    |rnd b64 (valueOf mx - valueOf mn) - (valueOf mx - valueOf mn)| ≤ 1 / 2 ^ 53 * (valueOf mx - valueOf mn) := by
  have := rnd64_error_sub mx mn
  rwa [abs_of_nonneg (show (0 : ℚ) ≤ valueOf mx - valueOf mn by linarith)] at this

/-- One vertex coordinate: `min`, `max` are those of the box, `size` the size used by the writer. -/
theorem coord_near {p : Nat} (hp1 : 1 ≤ p) (hp : p ≤ 53) {x mn mx size : Val b64} {M : ℚ} (hx : isFinite x = true)
    (hmn : isFinite mn = true) (hmx : isFinite mx = true) (hsz : isFinite size = true)
    (hsv : valueOf size = rnd b64 (valueOf mx - valueOf mn)) (h0 : valueOf mn ≤ valueOf x) (h1 : valueOf x ≤ valueOf mx)
    (hlt : valueOf mn < valueOf mx) (hM1 : |valueOf mn| ≤ M) (hM2 : |valueOf mx| ≤ M) (hM : M ≤ 2 ^ 120) :
    isFinite (add (mul (div (ofNat (toU64 (mul (div (sub x mn) size) (ofNat (2 ^ p - 1))) % 2 ^ p)) (ofNat (2 ^ p - 1)))
      (sub mx mn)) mn) = true ∧
    |valueOf (add (mul (div (ofNat (toU64 (mul (div (sub x mn) size) (ofNat (2 ^ p - 1))) % 2 ^ p)) (ofNat (2 ^ p - 1)))
      (sub mx mn)) mn) - valueOf x| ≤ (valueOf mx - valueOf mn) / (2 ^ p - 1) + M / 2 ^ 48 + 1 / 2 ^ 1073 := by
  have hM0 : 0 ≤ M := le_trans (abs_nonneg _) hM1
  have hSM : valueOf mx - valueOf mn ≤ 2 * M := by rw [abs_le] at hM1 hM2; linarith
  obtain ⟨c1, c2, c3⟩ := code_value hp1 hp (S := valueOf mx - valueOf mn) hx hmn hsz (by linarith)
    (by linarith [show (2 : ℚ) * 2 ^ 120 ≤ 2 ^ 200 by norm_num]) h0 (by linarith) hsv (span_error hlt.le)
  generalize toU64 (mul (div (sub x mn) size) (ofNat (2 ^ p - 1))) = c at *
  have hpow : 1 ≤ 2 ^ p := Nat.one_le_two_pow
  rw [Nat.mod_eq_of_lt (show c < 2 ^ p by omega)]
  obtain ⟨hD0, hD1⟩ := frac_bounds hp1 c1
  have hm24 : 2 ^ p - 1 ≤ 2 ^ 53 := by
    have : 2 ^ p ≤ 2 ^ 53 := Nat.pow_le_pow_right (by omega) hp
    omega
  have hmc : ((2 ^ p - 1 : Nat) : ℚ) = 2 ^ p - 1 := by
    rw [Nat.cast_sub Nat.one_le_two_pow]; push_cast; rfl
  have hm1 : (1 : ℚ) ≤ 2 ^ p - 1 := by
    have : (2 : ℚ) ^ 1 ≤ 2 ^ p := pow_le_pow_right₀ (by norm_num) hp1
    linarith
  have hcv := ofNat_value64 (c := c) (by omega)
  have hmv := ofNat_value64 hm24
  obtain ⟨hf, he⟩ := decode_value (f := b64) (by decide) (u := 1 / 2 ^ 53) (η := 1 / 2 ^ 1075) (D := (c : ℚ) / (2 ^ p - 1)) (M := M)
    rfl (by norm_num) rfl (by norm_num) (o := ofNat 1) (by rw [(ofNat_value64 (c := 1) (by norm_num)).2, Nat.cast_one])
    hcv.1 hmv.1 (by rw [hmv.2, hmc]; linarith) (by rw [hcv.2, hmv.2, hmc]) hD0 hD1 hmn hmx hlt.le hM1 hM2
    (le_trans (by linarith [show (8 : ℚ) * 2 ^ 120 + 8 ≤ 2 ^ 200 by norm_num]) maxV64)
  refine ⟨hf, ?_⟩
  have ht := total_error (S := valueOf mx - valueOf mn) (M := M) (by linarith) hm1 c2 c3 he hSM
  rw [sub_add_cancel] at ht
  have e1 : (15 : ℚ) * (1 / 2 ^ 53) * M ≤ M / 2 ^ 49 := by
    rw [mul_comm, ← mul_div_assoc]; nlinarith
  have e2 : M / 2 ^ 49 + M / 2 ^ 49 = M / 2 ^ 48 := by ring
  have e3 : (3 : ℚ) * (1 / 2 ^ 1075) ≤ 1 / 2 ^ 1073 := by norm_num
  linarith

/-! ### The box -/

def boxStep (s : VBox (Val b64)) (v : Vec3 (Val b64)) : VBox (Val b64) :=
  ⟨Ieee.min s.minX v.1, Ieee.max s.maxY v.2.1, Ieee.min s.minZ v.2.2, Ieee.max (Ieee.max s.maxY v.2.1) v.1,
    Ieee.min (Ieee.min s.minZ v.2.2) v.2.1, Ieee.max s.maxZ v.2.2⟩

/-- Finite coordinates. -/
def FiniteVec (v : Vec3 (Val b64)) : Prop := isFinite v.1 = true ∧ isFinite v.2.1 = true ∧ isFinite v.2.2 = true

structure BoxFinite (s : VBox (Val b64)) : Prop where
  minX : isFinite s.minX = true
  maxX : isFinite s.maxX = true
  minY : isFinite s.minY = true
  maxY : isFinite s.maxY = true
  minZ : isFinite s.minZ = true
  maxZ : isFinite s.maxZ = true

/-- What holds of the vertices seen so far. -/
structure BoxSeen (s : VBox (Val b64)) (v : Vec3 (Val b64)) : Prop where
  minX : valueOf s.minX ≤ valueOf v.1
  maxYx : valueOf v.1 ≤ valueOf s.maxY
  maxYy : valueOf v.2.1 ≤ valueOf s.maxY
  minZy : valueOf s.minZ ≤ valueOf v.2.1
  minZz : valueOf s.minZ ≤ valueOf v.2.2
  maxZ : valueOf v.2.2 ≤ valueOf s.maxZ

/-- The vertex lies in the box. -/
structure Inside (s : VBox (Val b64)) (v : Vec3 (Val b64)) : Prop where
  minX : valueOf s.minX ≤ valueOf v.1
  maxX : valueOf v.1 ≤ valueOf s.maxX
  minY : valueOf s.minY ≤ valueOf v.2.1
  maxY : valueOf v.2.1 ≤ valueOf s.maxY
  minZ : valueOf s.minZ ≤ valueOf v.2.2
  maxZ : valueOf v.2.2 ≤ valueOf s.maxZ

theorem boxStep_finite {s : VBox (Val b64)} {v : Vec3 (Val b64)} (hs : BoxFinite s) (hv : FiniteVec v) : BoxFinite (boxStep s v) := by
  obtain ⟨h1, h2, h3⟩ := hv
  have a := max_value hs.maxY h2
  have b := min_value hs.minZ h3
  exact ⟨(min_value hs.minX h1).1, a.1, b.1, (max_value a.1 h1).1, (min_value b.1 h2).1, (max_value hs.maxZ h3).1⟩

/-- Values after a step. -/
theorem boxStep_values {s : VBox (Val b64)} {v : Vec3 (Val b64)} (hs : BoxFinite s) (hv : FiniteVec v) :
    valueOf (boxStep s v).minX = Min.min (valueOf s.minX) (valueOf v.1) ∧
    valueOf (boxStep s v).maxX = Max.max (valueOf s.maxY) (valueOf v.2.1) ∧
    valueOf (boxStep s v).minY = Min.min (valueOf s.minZ) (valueOf v.2.2) ∧
    valueOf (boxStep s v).maxY = Max.max (Max.max (valueOf s.maxY) (valueOf v.2.1)) (valueOf v.1) ∧
    valueOf (boxStep s v).minZ = Min.min (Min.min (valueOf s.minZ) (valueOf v.2.2)) (valueOf v.2.1) ∧
    valueOf (boxStep s v).maxZ = Max.max (valueOf s.maxZ) (valueOf v.2.2) := by
  obtain ⟨h1, h2, h3⟩ := hv
  have a := max_value hs.maxY h2
  have b := min_value hs.minZ h3
  refine ⟨(min_value hs.minX h1).2, a.2, b.2, ?_, ?_, (max_value hs.maxZ h3).2⟩
  · rw [← a.2]; exact (max_value a.1 h1).2
  · rw [← b.2]; exact (min_value b.1 h2).2

theorem boxStep_seen {s : VBox (Val b64)} {v : Vec3 (Val b64)} (hs : BoxFinite s) (hv : FiniteVec v) :
    BoxSeen (boxStep s v) v ∧ ∀ w, BoxSeen s w → BoxSeen (boxStep s v) w ∧ Inside (boxStep s v) w := by
  obtain ⟨e1, e2, e3, e4, e5, e6⟩ := boxStep_values hs hv
  refine ⟨⟨?_, ?_, ?_, ?_, ?_, ?_⟩, fun w hw => ⟨⟨?_, ?_, ?_, ?_, ?_, ?_⟩, ⟨?_, ?_, ?_, ?_, ?_, ?_⟩⟩⟩
  all_goals first | rw [e1] | rw [e2] | rw [e3] | rw [e4] | rw [e5] | rw [e6]
  · exact min_le_right _ _
  · exact le_max_right _ _
  · exact le_max_of_le_left (le_max_right _ _)
  · exact min_le_right _ _
  · exact min_le_of_left_le (min_le_right _ _)
  · exact le_max_right _ _
  · exact min_le_of_left_le hw.minX
  · exact le_max_of_le_left (le_max_of_le_left hw.maxYx)
  · exact le_max_of_le_left (le_max_of_le_left hw.maxYy)
  · exact min_le_of_left_le (min_le_of_left_le hw.minZy)
  · exact min_le_of_left_le (min_le_of_left_le hw.minZz)
  · exact le_max_of_le_left hw.maxZ
  · exact min_le_of_left_le hw.minX
  · exact le_max_of_le_left hw.maxYx
  · exact min_le_of_left_le hw.minZy
  · exact le_max_of_le_left (le_max_of_le_left hw.maxYy)
  · exact min_le_of_left_le (min_le_of_left_le hw.minZz)
  · exact le_max_of_le_left hw.maxZ

theorem fold_seen {l : List (Vec3 (Val b64))} (hl : ∀ v ∈ l, FiniteVec v) {s : VBox (Val b64)} (hs : BoxFinite s) :
    BoxFinite (l.foldl boxStep s) ∧ (∀ w, BoxSeen s w → BoxSeen (l.foldl boxStep s) w) ∧
      ∀ w ∈ l, BoxSeen (l.foldl boxStep s) w := by
  induction l generalizing s with
  | nil => exact ⟨hs, fun _ h => h, by simp⟩
  | cons v l ih =>
    have hv := hl v List.mem_cons_self
    have hst := boxStep_seen hs hv
    obtain ⟨h1, h2, h3⟩ := ih (fun x hx => hl x (List.mem_cons_of_mem _ hx)) (boxStep_finite hs hv)
    simp only [List.foldl_cons]
    refine ⟨h1, fun w hw => h2 w (hst.2 w hw).1, fun w hw => ?_⟩
    rcases List.mem_cons.mp hw with rfl | hw
    · exact h2 _ hst.1
    · exact h3 w hw

/-- Bounds of the box. -/
theorem fold_bounds {l : List (Vec3 (Val b64))} (hl : ∀ v ∈ l, FiniteVec v) {s : VBox (Val b64)} (hs : BoxFinite s) :
    (∀ lo, lo ≤ valueOf s.minX → (∀ v ∈ l, lo ≤ valueOf v.1) → lo ≤ valueOf (l.foldl boxStep s).minX) ∧
    (∀ hi, valueOf s.maxX ≤ hi → valueOf s.maxY ≤ hi → (∀ v ∈ l, valueOf v.1 ≤ hi ∧ valueOf v.2.1 ≤ hi) →
      valueOf (l.foldl boxStep s).maxX ≤ hi ∧ valueOf (l.foldl boxStep s).maxY ≤ hi) ∧
    (∀ lo, lo ≤ valueOf s.minY → lo ≤ valueOf s.minZ → (∀ v ∈ l, lo ≤ valueOf v.2.1 ∧ lo ≤ valueOf v.2.2) →
      lo ≤ valueOf (l.foldl boxStep s).minY ∧ lo ≤ valueOf (l.foldl boxStep s).minZ) ∧
    (∀ hi, valueOf s.maxZ ≤ hi → (∀ v ∈ l, valueOf v.2.2 ≤ hi) → valueOf (l.foldl boxStep s).maxZ ≤ hi) := by
  induction l generalizing s with
  | nil => exact ⟨fun _ h _ => h, fun _ h h' _ => ⟨h, h'⟩, fun _ h h' _ => ⟨h, h'⟩, fun _ h _ => h⟩
  | cons v l ih =>
    have hv := hl v List.mem_cons_self
    obtain ⟨e1, e2, e3, e4, e5, e6⟩ := boxStep_values hs hv
    obtain ⟨i1, i2, i3, i4⟩ := ih (fun x hx => hl x (List.mem_cons_of_mem _ hx)) (boxStep_finite hs hv)
    simp only [List.foldl_cons]
    refine ⟨fun lo h ha => i1 lo ?_ (fun x hx => ha x (List.mem_cons_of_mem _ hx)),
      fun hi h h' ha => i2 hi ?_ ?_ (fun x hx => ha x (List.mem_cons_of_mem _ hx)),
      fun lo h h' ha => i3 lo ?_ ?_ (fun x hx => ha x (List.mem_cons_of_mem _ hx)),
      fun hi h ha => i4 hi ?_ (fun x hx => ha x (List.mem_cons_of_mem _ hx))⟩
    · rw [e1]; exact le_min h (ha v List.mem_cons_self)
    · rw [e2]; exact max_le h' (ha v List.mem_cons_self).2
    · rw [e4]; exact max_le (max_le h' (ha v List.mem_cons_self).2) (ha v List.mem_cons_self).1
    · rw [e3]; exact le_min h' (ha v List.mem_cons_self).2
    · rw [e5]; exact le_min (le_min h' (ha v List.mem_cons_self).2) (ha v List.mem_cons_self).1
    · rw [e6]; exact max_le h (ha v List.mem_cons_self)

/-! ### One coordinate -/

theorem code_le_mask {p : Nat} (hp1 : 1 ≤ p) (hp : p ≤ 53) {t size : Val b64} (ht : isFinite t = true)
    (hsz : isFinite size = true) (h0 : 0 ≤ valueOf t) (hspos : 0 < valueOf size) (hts : valueOf t ≤ valueOf size) :
    toU64 (mul (div t size) (ofNat (2 ^ p - 1))) ≤ 2 ^ p - 1 := by
  have hP : 0 < b64.prec := by decide
  have hm24 : 2 ^ p - 1 ≤ 2 ^ 53 := by
    have : 2 ^ p ≤ 2 ^ 53 := Nat.pow_le_pow_right (by omega) hp
    omega
  have hmc : ((2 ^ p - 1 : Nat) : ℚ) = 2 ^ p - 1 := by
    rw [Nat.cast_sub Nat.one_le_two_pow]; push_cast; rfl
  have hm1 : (1 : ℚ) ≤ 2 ^ p - 1 := by
    have : (2 : ℚ) ^ 1 ≤ 2 ^ p := pow_le_pow_right₀ (by norm_num) hp1
    linarith
  have hm2 : (2 : ℚ) ^ p - 1 ≤ 2 ^ 53 := by rw [← hmc]; exact_mod_cast hm24
  have hmax := maxV64
  have hq1 : valueOf t / valueOf size ≤ 1 := (div_le_one hspos).mpr hts
  have hq0 : 0 ≤ valueOf t / valueOf size := div_nonneg h0 hspos.le
  have hmx1 : (1 : ℚ) ≤ maxV b64 := le_trans (by norm_num) hmax
  have hq := div_value hP ht hsz hspos.ne' (by rw [abs_of_nonneg hq0]; linarith)
  have hone := ofNat_value64 (c := 1) (by norm_num)
  have hqle : valueOf (div t size) ≤ 1 := by
    rw [hq.2, ← Nat.cast_one (R := ℚ), ← hone.2]
    exact rnd_le_valueOf hP (by rw [hone.2, Nat.cast_one]; exact hq1)
  have hqnn : 0 ≤ valueOf (div t size) := by rw [hq.2]; exact rnd_nonneg hq0
  have hmv := ofNat_value64 hm24
  have hwm : valueOf (div t size) * valueOf (ofNat (2 ^ p - 1) : Val b64) ≤ valueOf (ofNat (2 ^ p - 1) : Val b64) := by
    rw [hmv.2, hmc]; nlinarith
  have hw0 : 0 ≤ valueOf (div t size) * valueOf (ofNat (2 ^ p - 1) : Val b64) := by
    rw [hmv.2]; positivity
  have hw := mul_value hP hq.1 hmv.1 (by
    rw [abs_of_nonneg hw0]
    refine le_trans hwm ?_
    rw [hmv.2, hmc]
    exact le_trans hm2 (le_trans (by norm_num) hmax))
  have hwle : valueOf (mul (div t size) (ofNat (2 ^ p - 1))) ≤ ((2 ^ p - 1 : Nat) : ℚ) := by
    rw [hw.2, ← hmv.2]
    exact rnd_le_valueOf hP hwm
  have hwnn : 0 ≤ valueOf (mul (div t size) (ofNat (2 ^ p - 1))) := by rw [hw.2]; exact rnd_nonneg hw0
  obtain ⟨hc1, _⟩ := toU64_value hw.1 hwnn (lt_of_le_of_lt (le_trans hwle (le_of_eq_of_le hmc hm2)) (by norm_num))
  have := le_trans hc1 hwle
  exact_mod_cast this

/-- The size used by the writer. -/
def sizeOf (mn mx : Val b64) : Val b64 := Ieee.max (sub mx mn) (lit 1 6)

/-- A coordinate written and read back. -/
def coordQ (p : Nat) (mn mx x : Val b64) : Val b64 :=
  add (mul (div (ofNat (toU64 (mul (div (sub x mn) (sizeOf mn mx)) (ofNat (2 ^ p - 1))) % 2 ^ p)) (ofNat (2 ^ p - 1)))
    (sub mx mn)) mn

theorem eps_value : isFinite (lit 1 6 : Val b64) = true ∧ 0 < valueOf (lit 1 6 : Val b64) ∧
    valueOf (lit 1 6 : Val b64) < 1 / 999999 := by
  have h := rounded_value (f := b64) (by decide) false (num := 1 * 2 ^ b64.scale) (den := 10 ^ 6) (v := 1 / 10 ^ 6) (by norm_num)
    (by
      simp only [sgn, Bool.false_eq_true, if_false, one_mul]
      rw [show b64.scale = 1074 from rfl, Nat.cast_pow, Nat.cast_pow]
      norm_num)
    (le_trans (by rw [abs_of_nonneg (by norm_num)]; norm_num) maxV64)
  have he := rnd64_error (1 / 10 ^ 6)
  refine ⟨h.1, ?_, ?_⟩
  · show 0 < valueOf (rounded false (1 * 2 ^ b64.scale) (10 ^ 6) : Val b64)
    rw [h.2]
    rw [abs_le] at he
    have : |(1 : ℚ) / 10 ^ 6| = 1 / 10 ^ 6 := abs_of_nonneg (by norm_num)
    rw [this] at he
    linarith [show (1 : ℚ) / 2 ^ 53 * (1 / 10 ^ 6) + 1 / 2 ^ 1075 < 1 / 10 ^ 6 by norm_num]
  · show valueOf (rounded false (1 * 2 ^ b64.scale) (10 ^ 6) : Val b64) < 1 / 999999
    rw [h.2]
    rw [abs_le] at he
    have : |(1 : ℚ) / 10 ^ 6| = 1 / 10 ^ 6 := abs_of_nonneg (by norm_num)
    rw [this] at he
    linarith [show (1 : ℚ) / 10 ^ 6 + (1 / 2 ^ 53 * (1 / 10 ^ 6) + 1 / 2 ^ 1075) < 1 / 999999 by norm_num]

/-- A coordinate in the box comes back within a step of the box, or a millionth, plus rounding. -/
theorem coordQ_near {p : Nat} (hp1 : 1 ≤ p) (hp : p ≤ 53) {x mn mx : Val b64} {M : ℚ} (hx : isFinite x = true)
    (hmn : isFinite mn = true) (hmx : isFinite mx = true) (h0 : valueOf mn ≤ valueOf x) (h1 : valueOf x ≤ valueOf mx)
    (hM1 : |valueOf mn| ≤ M) (hM2 : |valueOf mx| ≤ M) (hM : M ≤ 2 ^ 120) :
    isFinite (coordQ p mn mx x) = true ∧
    |valueOf (coordQ p mn mx x) - valueOf x| ≤
      Max.max ((valueOf mx - valueOf mn) / (2 ^ p - 1)) (1 / 999999) + M / 2 ^ 48 + 1 / 2 ^ 1073 := by
  have hP : 0 < b64.prec := by decide
  have hM0 : 0 ≤ M := le_trans (abs_nonneg _) hM1
  have hS0 : 0 ≤ valueOf mx - valueOf mn := by linarith
  have hSM : valueOf mx - valueOf mn ≤ 2 * M := by rw [abs_le] at hM1 hM2; linarith
  have hS127 : valueOf mx - valueOf mn ≤ 2 ^ 200 := by linarith [show (2 : ℚ) * 2 ^ 120 ≤ 2 ^ 200 by norm_num]
  have hspan := sub_value (f := b64) hP hmx hmn (by rw [abs_of_nonneg hS0]; exact le_trans hS127 maxV64)
  obtain ⟨heps, heps0, heps1⟩ := eps_value
  have hszv := max_value hspan.1 heps
  rcases le_or_gt (valueOf (lit 1 6 : Val b64)) (valueOf (sub mx mn)) with hc | hc
  · have hsz : valueOf (sizeOf mn mx) = rnd b64 (valueOf mx - valueOf mn) := by
      rw [sizeOf, hszv.2, max_eq_left hc, hspan.2]
    have hlt : valueOf mn < valueOf mx := by
      by_contra hle
      have : valueOf mx - valueOf mn = 0 := by linarith
      rw [hspan.2, this, rnd_zero hP] at hc
      linarith
    have := coord_near hp1 hp hx hmn hmx hszv.1 hsz h0 h1 hlt hM1 hM2 hM
    refine ⟨this.1, le_trans this.2 ?_⟩
    have := le_max_left ((valueOf mx - valueOf mn) / (2 ^ p - 1)) (1 / 999999)
    show _ ≤ _
    linarith
  · have hsz : valueOf (sizeOf mn mx) = valueOf (lit 1 6 : Val b64) := by rw [sizeOf, hszv.2, max_eq_right hc.le]
    have hX0 : 0 ≤ valueOf x - valueOf mn := by linarith
    have ht := sub_value (f := b64) hP hx hmn (by
      rw [abs_of_nonneg hX0]; exact le_trans (by linarith) (le_trans hS127 maxV64))
    have hts : valueOf (sub x mn) ≤ valueOf (sizeOf mn mx) := by
      rw [hsz]
      refine le_trans ?_ hc.le
      rw [ht.2, hspan.2]
      exact rnd_mono hP (by linarith)
    have hcode := code_le_mask hp1 hp ht.1 hszv.1 (by rw [ht.2]; exact rnd_nonneg hX0)
      (by show 0 < valueOf (sizeOf mn mx); rw [hsz]; exact heps0) hts
    have hS1 : valueOf mx - valueOf mn < 1 / 999999 := by
      by_contra hcon
      push Not at hcon
      have := valueOf_le_rnd hP (x := (lit 1 6 : Val b64)) (v := valueOf mx - valueOf mn) (by linarith)
      rw [← hspan.2] at this
      linarith
    rw [coordQ]
    change toU64 (mul (div (sub x mn) (sizeOf mn mx)) (ofNat (2 ^ p - 1))) ≤ 2 ^ p - 1 at hcode
    generalize toU64 (mul (div (sub x mn) (sizeOf mn mx)) (ofNat (2 ^ p - 1))) = c at *
    have hpow : 1 ≤ 2 ^ p := Nat.one_le_two_pow
    rw [Nat.mod_eq_of_lt (show c < 2 ^ p by omega)]
    obtain ⟨hD0, hD1⟩ := frac_bounds hp1 hcode
    have hm24 : 2 ^ p - 1 ≤ 2 ^ 53 := by
      have : 2 ^ p ≤ 2 ^ 53 := Nat.pow_le_pow_right (by omega) hp
      omega
    have hmc : ((2 ^ p - 1 : Nat) : ℚ) = 2 ^ p - 1 := by
      rw [Nat.cast_sub Nat.one_le_two_pow]; push_cast; rfl
    have hm1 : (1 : ℚ) ≤ 2 ^ p - 1 := by
      have : (2 : ℚ) ^ 1 ≤ 2 ^ p := pow_le_pow_right₀ (by norm_num) hp1
      linarith
    have hcv := ofNat_value64 (c := c) (by omega)
    have hmv := ofNat_value64 hm24
    obtain ⟨hf, he⟩ := decode_value (f := b64) hP (u := 1 / 2 ^ 53) (η := 1 / 2 ^ 1075) (D := (c : ℚ) / (2 ^ p - 1)) (M := M)
      rfl (by norm_num) rfl (by norm_num) (o := ofNat 1) (by rw [(ofNat_value64 (c := 1) (by norm_num)).2, Nat.cast_one])
      hcv.1 hmv.1 (by rw [hmv.2, hmc]; linarith) (by rw [hcv.2, hmv.2, hmc]) hD0 hD1 hmn hmx (by linarith) hM1 hM2
      (le_trans (by linarith [show (8 : ℚ) * 2 ^ 120 + 8 ≤ 2 ^ 200 by norm_num]) maxV64)
    refine ⟨hf, ?_⟩
    generalize (c : ℚ) / (2 ^ p - 1) = D at *
    generalize valueOf (add (mul (div (ofNat c) (ofNat (2 ^ p - 1))) (sub mx mn)) mn : Val b64) = y at *
    have hmid : |D * (valueOf mx - valueOf mn) + valueOf mn - valueOf x| ≤ 1 / 999999 := by
      rw [abs_le]
      constructor <;> nlinarith
    have h5 := abs_add_le (y - (D * (valueOf mx - valueOf mn) + valueOf mn)) (D * (valueOf mx - valueOf mn) + valueOf mn - valueOf x)
    rw [sub_add_sub_cancel] at h5
    have h6 := le_max_right ((valueOf mx - valueOf mn) / (2 ^ p - 1)) (1 / 999999)
    have e1 : (15 : ℚ) * (1 / 2 ^ 53) * M ≤ M / 2 ^ 48 := by
      rw [mul_comm, ← mul_div_assoc]; nlinarith
    have e3 : (3 : ℚ) * (1 / 2 ^ 1075) ≤ 1 / 2 ^ 1073 := by norm_num
    linarith

end Tmf.Ieee.Double
