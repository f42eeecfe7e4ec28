import Verif.Lemmas.VertexAccuracy
/-
Vertex coordinates and floats stored in 25 to 31 bits: the multiplier `2^p - 1` is rounded to `2^p`,
so that the largest number wraps around to the code 0; below it the error is that of the other widths.
-/

set_option exponentiation.threshold 2000

namespace Tmf.Ieee
open Spec

/-- The quotient that is multiplied: in `[0, 1]`, and near the exact one. -/
theorem quotient_value {x mn size : Val b32} {S : ℚ} (hx : isFinite x = true)
    (hmn : isFinite mn = true) (hsz : isFinite size = true) (hS : 0 < S) (hSmax : S ≤ 2 ^ 127) (h0 : valueOf mn ≤ valueOf x)
    (h1 : valueOf x - valueOf mn ≤ S) (hsv : valueOf size = rnd b32 S) (hse : |rnd b32 S - S| ≤ 1 / 2 ^ 24 * S) :
    UnitValue (div (sub x mn) size) ∧ |valueOf (div (sub x mn) size) - (valueOf x - valueOf mn) / S| ≤ 6 / 2 ^ 24 := by
  have hP : 0 < b32.prec := by decide
  have hX0 : 0 ≤ valueOf x - valueOf mn := by linarith
  have hmax := maxV32
  have ht := sub_value hP hx hmn (by rw [abs_of_nonneg hX0]; linarith)
  have hterr := rnd32_error_sub x mn
  rw [abs_of_nonneg hX0] at hterr
  have hts : valueOf (sub x mn) ≤ valueOf size := by rw [ht.2, hsv]; exact rnd_mono hP h1
  have ht0 : 0 ≤ valueOf (sub x mn) := by rw [ht.2]; exact rnd_nonneg hX0
  have hspos : 0 < valueOf size := by
    rw [hsv]
    rw [abs_le] at hse
    have : 1 / 2 ^ 24 * S < S := by
      have : (1 : ℚ) / 2 ^ 24 < 1 := by norm_num
      nlinarith
    linarith
  have hq1 : valueOf (sub x mn) / valueOf size ≤ 1 := (div_le_one hspos).mpr hts
  have hq0 : 0 ≤ valueOf (sub x mn) / valueOf size := div_nonneg ht0 hspos.le
  have hmx1 : (1 : ℚ) ≤ maxV b32 := le_trans (by norm_num) hmax
  have hq := div_value hP ht.1 hsz hspos.ne' (by rw [abs_of_nonneg hq0]; linarith)
  have hone := ofNat_value (c := 1) (by norm_num)
  have hqle : valueOf (div (sub x mn) size) ≤ 1 := by
    rw [hq.2, ← Nat.cast_one (R := ℚ), ← hone.2]
    exact rnd_le_valueOf hP (by rw [hone.2, Nat.cast_one]; exact hq1)
  have hqnn : 0 ≤ valueOf (div (sub x mn) size) := by rw [hq.2]; exact rnd_nonneg hq0
  refine ⟨⟨hq.1, hqnn, hqle⟩, ?_⟩
  have hqerr := rnd32_error (valueOf (sub x mn) / valueOf size)
  rw [← hq.2, abs_of_nonneg hq0] at hqerr
  rw [← ht.2] at hterr
  rw [← hsv] at hse
  have hF0 : 0 ≤ (valueOf x - valueOf mn) / S := div_nonneg hX0 hS.le
  have hF1 : (valueOf x - valueOf mn) / S ≤ 1 := (div_le_one hS).mpr h1
  have hXF : valueOf x - valueOf mn = (valueOf x - valueOf mn) / S * S := (div_mul_cancel₀ _ hS.ne').symm
  generalize valueOf (div (sub x mn) size) = q at *
  generalize valueOf (sub x mn) = t at *
  generalize valueOf size = s at *
  generalize (valueOf x - valueOf mn) / S = F at *
  generalize valueOf x - valueOf mn = X at *
  have hmid : |t / s - F| ≤ 3 / 2 ^ 24 := by
    rw [abs_le] at hterr hse ⊢
    have hFS : F * S ≤ S := mul_le_of_le_one_left hS.le hF1
    have hFS0 : 0 ≤ F * S := mul_nonneg hF0 hS.le
    constructor
    · rw [le_sub_iff_add_le, le_div_iff₀ hspos]
      have : (-(3 / 2 ^ 24) + F) * s = F * s - 3 / 2 ^ 24 * s := by ring
      rw [this]
      have h3 : F * s ≤ F * (S + 1 / 2 ^ 24 * S) := mul_le_mul_of_nonneg_left (by linarith) hF0
      have h4 : F * (S + 1 / 2 ^ 24 * S) = F * S + 1 / 2 ^ 24 * (F * S) := by ring
      linarith
    · rw [sub_le_iff_le_add, div_le_iff₀ hspos]
      have : (3 / 2 ^ 24 + F) * s = F * s + 3 / 2 ^ 24 * s := by ring
      rw [this]
      have h3 : F * (S - 1 / 2 ^ 24 * S) ≤ F * s := mul_le_mul_of_nonneg_left (by linarith) hF0
      have h4 : F * (S - 1 / 2 ^ 24 * S) = F * S - 1 / 2 ^ 24 * (F * S) := by ring
      linarith
  have := abs_add_le (q - t / s) (t / s - F)
  rw [sub_add_sub_cancel] at this
  have : (1 : ℚ) / 2 ^ 24 * (t / s) + 1 / 2 ^ 150 ≤ 3 / 2 ^ 24 := by
    have := mul_le_mul_of_nonneg_left hq1 (show (0 : ℚ) ≤ 1 / 2 ^ 24 by positivity)
    linarith [show (1 : ℚ) / 2 ^ 24 * 1 + 1 / 2 ^ 150 ≤ 3 / 2 ^ 24 by norm_num]
  linarith [show (3 : ℚ) / 2 ^ 24 + 3 / 2 ^ 24 = 6 / 2 ^ 24 by norm_num]

theorem eps_lower : 1 / 10 ^ 6 - (1 / 2 ^ 24 * (1 / 10 ^ 6) + 1 / 2 ^ 150) ≤ valueOf (lit 1 6 : Val b32) := by
  have h := rounded_value (f := b32) (by decide) false (num := 1 * 2 ^ b32.scale) (den := 10 ^ 6) (v := 1 / 10 ^ 6) (by norm_num)
    (by
      simp only [sgn, Bool.false_eq_true, if_false, one_mul]
      rw [show b32.scale = 149 from rfl, Nat.cast_pow, Nat.cast_pow]
      norm_num)
    (le_trans (by rw [abs_of_nonneg (by norm_num)]; norm_num) maxV32)
  have he := rnd32_error (1 / 10 ^ 6)
  show _ ≤ valueOf (rounded false (1 * 2 ^ b32.scale) (10 ^ 6) : Val b32)
  rw [h.2]
  rw [abs_le, abs_of_nonneg (show (0 : ℚ) ≤ 1 / 10 ^ 6 by norm_num)] at he
  linarith

section
variable {p : Nat} (hp1 : 25 ≤ p) (hp : p ≤ 31)
include hp1 hp

theorem mask_value : isFinite (ofNat (2 ^ p - 1) : Val b32) = true ∧ valueOf (ofNat (2 ^ p - 1) : Val b32) = 2 ^ p := by
  rw [ofNat_mask hp1 hp]
  refine ⟨rfl, ?_⟩
  rw [valueOf_fin]
  simp only [sgn, Bool.false_eq_true, if_false, one_mul]
  rw [show b32.scale = 149 from rfl, Nat.cast_mul, Nat.cast_pow, Nat.cast_pow, Nat.cast_ofNat]
  rw [mul_div_cancel_right₀ _ (pow_ne_zero _ (by norm_num))]

/-- The code of a number in `[0, 1]`: it is kept exactly by f32, and if the number is less than 1, it
is the number times `2^p`, rounded down. -/
theorem unit_code {q : Val b32} (hq : UnitValue q) : ∃ c : Nat, toU64 (mul q (ofNat (2 ^ p - 1))) % 2 ^ p = c ∧ c < 2 ^ p ∧
    isFinite (ofNat c : Val b32) = true ∧ valueOf (ofNat c : Val b32) = c ∧
    (valueOf q < 1 → (c : ℚ) ≤ 2 ^ p * valueOf q ∧ 2 ^ p * valueOf q < c + 1) := by
  obtain ⟨X, hX, hlt, hc, hv⟩ := code_unit_high hp1 hp hq
  have hXf := ((rep_iff b32 (by decide)).mp hX).1
  have e1 : (ofNat (X / 2 ^ (149 - p)) : Val b32) = .fin false (X / 2 ^ (149 - p) * 2 ^ 149) (code_rep hp1 hp hXf hlt) := by
    have := rounded_exact (f := b32) false (k := 1) (by decide) (code_rep hp1 hp hXf hlt)
    rwa [Nat.mul_one] at this
  refine ⟨_, hc, code_high_lt hp1 hp hlt, by rw [e1]; rfl, ?_, fun h => ?_⟩
  · rw [e1, valueOf_fin]
    simp only [sgn, Bool.false_eq_true, if_false, one_mul]
    rw [show b32.scale = 149 from rfl, Nat.cast_mul, Nat.cast_pow, Nat.cast_ofNat]
    rw [mul_div_cancel_right₀ _ (pow_ne_zero _ (by norm_num))]
  · rw [hv h]
    have e : (2 : ℚ) ^ 149 = 2 ^ (149 - p) * 2 ^ p := by rw [← pow_add]; congr 1; omega
    have e2 : (2 : ℚ) ^ p * ((X : ℚ) / 2 ^ 149) = X / 2 ^ (149 - p) := by rw [e]; field_simp
    rw [e2]
    have hpos : (0 : ℚ) < 2 ^ (149 - p) := by positivity
    constructor
    · rw [le_div_iff₀ hpos]
      exact_mod_cast Nat.div_mul_le_self X (2 ^ (149 - p))
    · rw [div_lt_iff₀ hpos]
      exact_mod_cast Nat.lt_mul_of_div_lt (Nat.lt_succ_self (X / 2 ^ (149 - p))) (by positivity)

/-- The number 1 gets the code 0. -/
theorem unit_code_one {q : Val b32} (hf : isFinite q = true) (hv : valueOf q = 1) :
    toU64 (mul q (ofNat (2 ^ p - 1))) % 2 ^ p = 0 := by
  have hm := mask_value hp1 hp
  have h31 : (2 : ℚ) ^ p ≤ 2 ^ 31 := pow_le_pow_right₀ (by norm_num) hp
  have hw := mul_value (f := b32) (by decide) hf hm.1 (by
    rw [hv, hm.2, one_mul, abs_of_nonneg (by positivity)]
    exact le_trans h31 (le_trans (by norm_num) maxV32))
  rw [hv, one_mul, rnd_valueOf (by decide), hm.2] at hw
  obtain ⟨c1, c2⟩ := toU64_value hw.1 (by rw [hw.2]; positivity) (by rw [hw.2]; exact lt_of_le_of_lt h31 (by norm_num))
  rw [hw.2] at c1 c2
  have : toU64 (mul q (ofNat (2 ^ p - 1))) = 2 ^ p := by
    have a : toU64 (mul q (ofNat (2 ^ p - 1))) ≤ 2 ^ p := by exact_mod_cast c1
    have b : 2 ^ p < toU64 (mul q (ofNat (2 ^ p - 1))) + 1 := by exact_mod_cast c2
    omega
  rw [this, Nat.mod_self]

omit hp in
theorem pow_ge_25 : (2 : ℚ) ^ 25 ≤ 2 ^ p := pow_le_pow_right₀ (by norm_num) hp1

/-- A coordinate in the box comes back within a step of the box, or a millionth, plus rounding, unless
it is at the upper end. -/
theorem coordQ_near_high {x mn mx : Val b32} {M : ℚ} (hx : isFinite x = true)
    (hmn : isFinite mn = true) (hmx : isFinite mx = true) (h0 : valueOf mn ≤ valueOf x) (h1 : valueOf x ≤ valueOf mx)
    (hM1 : |valueOf mn| ≤ M) (hM2 : |valueOf mx| ≤ M) (hM : M ≤ 2 ^ 120)
    (hedge : 1 / 1000001 < valueOf mx - valueOf mn →
      valueOf x - valueOf mn ≤ (1 - 1 / 2 ^ 21) * (valueOf mx - valueOf mn)) :
    isFinite (coordQ p mn mx x) = true ∧
    |valueOf (coordQ p mn mx x) - valueOf x| ≤
      Max.max ((valueOf mx - valueOf mn) / (2 ^ p - 1)) (1 / 999999) + M / 2 ^ 19 + 1 / 2 ^ 148 := by
  have hP : 0 < b32.prec := by decide
  have hM0 : 0 ≤ M := le_trans (abs_nonneg _) hM1
  have hS0 : 0 ≤ valueOf mx - valueOf mn := by linarith
  have hSM : valueOf mx - valueOf mn ≤ 2 * M := by rw [abs_le] at hM1 hM2; linarith
  have hS127 : valueOf mx - valueOf mn ≤ 2 ^ 127 := by linarith [show (2 : ℚ) * 2 ^ 120 ≤ 2 ^ 127 by norm_num]
  have hspan := sub_value (f := b32) hP hmx hmn (by rw [abs_of_nonneg hS0]; exact le_trans hS127 maxV32)
  obtain ⟨heps, heps0, heps1⟩ := eps_value
  have hszv := max_value hspan.1 heps
  have hm := mask_value hp1 hp
  have hpow := pow_ge_25 hp1
  have hpow0 : (0 : ℚ) < 2 ^ p := by positivity
  have e1 : (15 : ℚ) * (1 / 2 ^ 24) * M ≤ M / 2 ^ 20 := by
    rw [mul_comm, ← mul_div_assoc]; nlinarith
  have e2 : M / 2 ^ 20 + M / 2 ^ 20 = M / 2 ^ 19 := by ring
  have e3 : (3 : ℚ) * (1 / 2 ^ 150) ≤ 1 / 2 ^ 148 := by norm_num
  have dec : ∀ c : Nat, c < 2 ^ p → isFinite (ofNat c : Val b32) = true → valueOf (ofNat c : Val b32) = c →
      isFinite (add (mul (div (ofNat c) (ofNat (2 ^ p - 1))) (sub mx mn)) mn) = true ∧
      (0 : ℚ) ≤ (c : ℚ) / 2 ^ p ∧ (c : ℚ) / 2 ^ p ≤ 1 ∧
      |valueOf (add (mul (div (ofNat c) (ofNat (2 ^ p - 1))) (sub mx mn)) mn) -
        ((c : ℚ) / 2 ^ p * (valueOf mx - valueOf mn) + valueOf mn)| ≤ 15 * (1 / 2 ^ 24) * M + 3 * (1 / 2 ^ 150) := by
    intro c hc hcf hcv
    have hD0 : (0 : ℚ) ≤ (c : ℚ) / 2 ^ p := by positivity
    have hD1 : (c : ℚ) / 2 ^ p ≤ 1 := by
      rw [div_le_one hpow0]; exact_mod_cast hc.le
    obtain ⟨hf, he⟩ := decode_value (f := b32) hP (u := 1 / 2 ^ 24) (η := 1 / 2 ^ 150) (D := (c : ℚ) / 2 ^ p) (M := M)
      rfl (by norm_num) rfl (by norm_num) (o := ofNat 1) (by rw [(ofNat_value (c := 1) (by norm_num)).2, Nat.cast_one])
      hcf hm.1 (by rw [hm.2]; exact hpow0.ne') (by rw [hcv, hm.2]) hD0 hD1 hmn hmx (by linarith) hM1 hM2
      (le_trans (by linarith [show (8 : ℚ) * 2 ^ 120 + 8 ≤ 2 ^ 127 by norm_num]) maxV32)
    exact ⟨hf, hD0, hD1, he⟩
  rw [coordQ]
  rcases le_or_gt (valueOf (lit 1 6 : Val b32)) (valueOf (sub mx mn)) with hc | hc
  · have hsz : valueOf (sizeOf mn mx) = rnd b32 (valueOf mx - valueOf mn) := by
      rw [sizeOf, hszv.2, max_eq_left hc, hspan.2]
    have hlt : valueOf mn < valueOf mx := by
      by_contra hle
      have : valueOf mx - valueOf mn = 0 := by linarith
      rw [hspan.2, this, rnd_zero hP] at hc
      linarith
    have hSpos : 0 < valueOf mx - valueOf mn := by linarith
    have hwide : 1 / 1000001 < valueOf mx - valueOf mn := by
      by_contra hcon
      push Not at hcon
      have := rnd_mono (f := b32) hP hcon
      rw [← hspan.2] at this
      have h4 := rnd32_error (1 / 1000001)
      rw [abs_le, abs_of_nonneg (show (0 : ℚ) ≤ 1 / 1000001 by norm_num)] at h4
      have := eps_lower
      linarith [show (1 : ℚ) / 1000001 + (1 / 2 ^ 24 * (1 / 1000001) + 1 / 2 ^ 150) < 1 / 10 ^ 6 - (1 / 2 ^ 24 * (1 / 10 ^ 6) + 1 / 2 ^ 150) by
        norm_num]
    obtain ⟨hu, hqe⟩ := quotient_value hx hmn (show isFinite (sizeOf mn mx) = true from hszv.1) hSpos hS127 h0 (by linarith) hsz
      (span_error hlt.le)
    obtain ⟨c, hce, hcl, hcf, hcv, hcb⟩ := unit_code hp1 hp hu
    rw [hce]
    obtain ⟨hf, hD0, hD1, he⟩ := dec c hcl hcf hcv
    refine ⟨hf, ?_⟩
    have hF : (valueOf x - valueOf mn) / (valueOf mx - valueOf mn) ≤ 1 - 1 / 2 ^ 21 := by
      rw [div_le_iff₀ hSpos]; exact hedge hwide
    have hqe' := abs_le.mp hqe
    obtain ⟨b1, b2⟩ := hcb (by linarith [hqe'.2, show (6 : ℚ) / 2 ^ 24 < 1 / 2 ^ 21 by norm_num])
    generalize valueOf (div (sub x mn) (sizeOf mn mx)) = q at *
    have c1 : (2 : ℚ) ^ p * q ≤ 2 ^ p * ((valueOf x - valueOf mn) / (valueOf mx - valueOf mn)) + 2 ^ p / 2 ^ 21 := by
      have := mul_le_mul_of_nonneg_left (show q ≤ (valueOf x - valueOf mn) / (valueOf mx - valueOf mn) + 1 / 2 ^ 21 by
        linarith [hqe'.2, show (6 : ℚ) / 2 ^ 24 < 1 / 2 ^ 21 by norm_num]) hpow0.le
      rw [mul_add, mul_one_div] at this
      exact this
    have c2 : (2 : ℚ) ^ p * ((valueOf x - valueOf mn) / (valueOf mx - valueOf mn)) - 2 ^ p / 2 ^ 21 ≤ 2 ^ p * q := by
      have := mul_le_mul_of_nonneg_left (show (valueOf x - valueOf mn) / (valueOf mx - valueOf mn) - 1 / 2 ^ 21 ≤ q by
        linarith [hqe'.1, show (6 : ℚ) / 2 ^ 24 < 1 / 2 ^ 21 by norm_num]) hpow0.le
      rw [mul_sub, mul_one_div] at this
      exact this
    have ht := total_error (S := valueOf mx - valueOf mn) (M := M) (m := 2 ^ p) hSpos (by linarith)
      (le_trans b1 c1) (lt_of_le_of_lt c2 b2) he hSM
    rw [sub_add_cancel] at ht
    have h6 := le_max_left ((valueOf mx - valueOf mn) / (2 ^ p - 1)) (1 / 999999)
    have h7 : (valueOf mx - valueOf mn) / 2 ^ p ≤ (valueOf mx - valueOf mn) / (2 ^ p - 1) :=
      div_le_div_of_nonneg_left hS0 (by linarith) (by linarith)
    linarith
  · have hsz : valueOf (sizeOf mn mx) = valueOf (lit 1 6 : Val b32) := by rw [sizeOf, hszv.2, max_eq_right hc.le]
    have hX0 : 0 ≤ valueOf x - valueOf mn := by linarith
    have ht := sub_value (f := b32) hP hx hmn (by
      rw [abs_of_nonneg hX0]; exact le_trans (by linarith) (le_trans hS127 maxV32))
    have hts : valueOf (sub x mn) ≤ valueOf (sizeOf mn mx) := by
      rw [hsz]
      refine le_trans ?_ hc.le
      rw [ht.2, hspan.2]
      exact rnd_mono hP (by linarith)
    have hspos : 0 < valueOf (sizeOf mn mx) := by rw [hsz]; exact heps0
    have hq1 : valueOf (sub x mn) / valueOf (sizeOf mn mx) ≤ 1 := (div_le_one hspos).mpr hts
    have hq0 : 0 ≤ valueOf (sub x mn) / valueOf (sizeOf mn mx) := div_nonneg (by rw [ht.2]; exact rnd_nonneg hX0) hspos.le
    have hq := div_value hP ht.1 (show isFinite (sizeOf mn mx) = true from hszv.1) hspos.ne' (by
      rw [abs_of_nonneg hq0]; exact le_trans hq1 (le_trans (by norm_num) maxV32))
    have hone := ofNat_value (c := 1) (by norm_num)
    have hu : UnitValue (div (sub x mn) (sizeOf mn mx)) := by
      refine ⟨hq.1, ?_, ?_⟩
      · rw [hq.2]; exact rnd_nonneg hq0
      · rw [hq.2, ← Nat.cast_one (R := ℚ), ← hone.2]
        exact rnd_le_valueOf hP (by rw [hone.2, Nat.cast_one]; exact hq1)
    have hS1 : valueOf mx - valueOf mn < 1 / 999999 := by
      by_contra hcon
      push Not at hcon
      have := valueOf_le_rnd hP (x := (lit 1 6 : Val b32)) (v := valueOf mx - valueOf mn) (by linarith)
      rw [← hspan.2] at this
      linarith
    obtain ⟨c, hce, hcl, hcf, hcv, -⟩ := unit_code hp1 hp hu
    rw [hce]
    obtain ⟨hf, hD0, hD1, he⟩ := dec c hcl hcf hcv
    refine ⟨hf, ?_⟩
    generalize (c : ℚ) / 2 ^ p = D at *
    generalize valueOf (add (mul (div (ofNat c) (ofNat (2 ^ p - 1))) (sub mx mn)) mn : Val b32) = y at *
    have hmid : |D * (valueOf mx - valueOf mn) + valueOf mn - valueOf x| ≤ 1 / 999999 := by
      rw [abs_le]
      constructor <;> nlinarith
    have h5 := abs_add_le (y - (D * (valueOf mx - valueOf mn) + valueOf mn)) (D * (valueOf mx - valueOf mn) + valueOf mn - valueOf x)
    rw [sub_add_sub_cancel] at h5
    have h6 := le_max_right ((valueOf mx - valueOf mn) / (2 ^ p - 1)) (1 / 999999)
    have h8 : 0 ≤ M / 2 ^ 20 := by positivity
    linarith

/-- A quotient of 1 is decoded as the minimum. -/
theorem top_zero {t size mn span : Val b32} (ht : isFinite t = true) (hsz : isFinite size = true)
    (he : valueOf t = valueOf size) (hpos : 0 < valueOf size) (hmn : isFinite mn = true) (hspan : isFinite span = true) :
    isFinite (add (mul (div (ofNat (toU64 (mul (div t size) (ofNat (2 ^ p - 1))) % 2 ^ p)) (ofNat (2 ^ p - 1))) span) mn) = true ∧
    valueOf (add (mul (div (ofNat (toU64 (mul (div t size) (ofNat (2 ^ p - 1))) % 2 ^ p)) (ofNat (2 ^ p - 1))) span) mn) =
      valueOf mn := by
  have hP : 0 < b32.prec := by decide
  have hone := ofNat_value (c := 1) (by norm_num)
  have hm := mask_value hp1 hp
  have hmx0 : (0 : ℚ) ≤ maxV b32 := le_trans (by norm_num) maxV32
  have hq := div_value hP ht hsz hpos.ne' (by
    rw [he, div_self hpos.ne', abs_one]; exact le_trans (by norm_num) maxV32)
  rw [he, div_self hpos.ne', one_le_rnd hP (by rw [hone.2, Nat.cast_one])] at hq
  rw [unit_code_one hp1 hp hq.1 hq.2]
  have hz := ofNat_value (c := 0) (by norm_num)
  have hpow0 : (0 : ℚ) < 2 ^ p := by positivity
  have hd := div_value hP hz.1 hm.1 (by rw [hm.2]; exact hpow0.ne') (by rw [hz.2, Nat.cast_zero, zero_div, abs_zero]; exact hmx0)
  rw [hz.2, Nat.cast_zero, zero_div, rnd_zero hP] at hd
  have hr := mul_value hP hd.1 hspan (by rw [hd.2, zero_mul, abs_zero]; exact hmx0)
  rw [hd.2, zero_mul, rnd_zero hP] at hr
  have hy := add_value hP hr.1 hmn (by rw [hr.2, zero_add]; exact abs_valueOf_le _)
  rw [hr.2, zero_add, rnd_valueOf hP] at hy
  exact hy

/-- A number of a float array below the largest one. -/
theorem floatQ_near_high {x mn mx : Val b32} {M : ℚ} (hx : isFinite x = true)
    (hmn : isFinite mn = true) (hmx : isFinite mx = true) (h0 : valueOf mn ≤ valueOf x) (hlt : valueOf mn < valueOf mx) (hM1 : |valueOf mn| ≤ M) (hM2 : |valueOf mx| ≤ M) (hM : M ≤ 2 ^ 120)
    (hedge : valueOf x - valueOf mn ≤ (1 - 1 / 2 ^ 21) * (valueOf mx - valueOf mn)) :
    isFinite (floatQ p mn mx x) = true ∧
    |valueOf (floatQ p mn mx x) - valueOf x| ≤ (valueOf mx - valueOf mn) / (2 ^ p - 1) + M / 2 ^ 19 + 1 / 2 ^ 148 := by
  have hS127 : valueOf mx - valueOf mn ≤ 2 ^ 127 := by
    rw [abs_le] at hM1 hM2
    linarith [show (2 : ℚ) * 2 ^ 120 ≤ 2 ^ 127 by norm_num]
  have hSpos : 0 < valueOf mx - valueOf mn := by linarith
  have hszv := sub_value (f := b32) (by decide) hmx hmn (by
    rw [abs_of_nonneg hSpos.le]; exact le_trans hS127 maxV32)
  obtain ⟨hu, hqe⟩ := quotient_value hx hmn hszv.1 hSpos hS127 h0 (by nlinarith) hszv.2 (span_error hlt.le)
  obtain ⟨c, hce, hcl, hcf, hcv, hcb⟩ := unit_code hp1 hp hu
  rw [floatQ, hce]
  have hF0 : 0 ≤ (valueOf x - valueOf mn) / (valueOf mx - valueOf mn) := div_nonneg (by linarith) hSpos.le
  have hF : (valueOf x - valueOf mn) / (valueOf mx - valueOf mn) ≤ 1 - 1 / 2 ^ 21 := by
    rw [div_le_iff₀ hSpos]; exact hedge
  have hqe' := abs_le.mp hqe
  obtain ⟨b1, b2⟩ := hcb (by linarith [hqe'.2, show (6 : ℚ) / 2 ^ 24 < 1 / 2 ^ 21 by norm_num])
  have hpow := pow_ge_25 hp1
  refine float_decode (by omega) (by omega) hmn hmx hlt hM1 hM2 hM (by omega) ?_ ?_
  all_goals
    generalize valueOf (div (sub x mn) (sub mx mn)) = q at *
    generalize (valueOf x - valueOf mn) / (valueOf mx - valueOf mn) = F at *
    generalize (2 : ℚ) ^ p = m at *
  · have := mul_le_mul_of_nonneg_left (show q ≤ F + 6 / 2 ^ 24 by linarith [hqe'.2]) (show 0 ≤ m by linarith)
    have e : (m - 1) * F + (m - 1) / 2 ^ 21 - m * (F + 6 / 2 ^ 24) = m / 2 ^ 23 - F - 1 / 2 ^ 21 := by ring
    linarith [show (2 : ℚ) ^ 25 / 2 ^ 23 = 4 by norm_num]
  · have := mul_le_mul_of_nonneg_left (show F - 6 / 2 ^ 24 ≤ q by linarith [hqe'.1]) (show 0 ≤ m by linarith)
    have e : (m - 1) * F - (m - 1) / 2 ^ 21 - m * (F - 6 / 2 ^ 24) = - (m / 2 ^ 23) - F + 1 / 2 ^ 21 := by ring
    linarith [show (2 : ℚ) ^ 25 / 2 ^ 23 = 4 by norm_num]

/-- The largest coordinate comes back as the smallest one. -/
theorem coordQ_top {mn mx x : Val b32} (hx : isFinite x = true) (hmn : isFinite mn = true) (hmx : isFinite mx = true)
    (he : valueOf x = valueOf mx) (h : 1 / 999999 ≤ valueOf mx - valueOf mn) (hmax : valueOf mx - valueOf mn ≤ 2 ^ 127) :
    isFinite (coordQ p mn mx x) = true ∧ valueOf (coordQ p mn mx x) = valueOf mn := by
  have hP : 0 < b32.prec := by decide
  have hS0 : 0 < valueOf mx - valueOf mn := lt_of_lt_of_le (by norm_num) h
  have hspan := sub_value (f := b32) hP hmx hmn (by rw [abs_of_nonneg hS0.le]; exact le_trans hmax maxV32)
  have hsub := sub_value (f := b32) hP hx hmn (by rw [he, abs_of_nonneg hS0.le]; exact le_trans hmax maxV32)
  obtain ⟨heps, heps0, heps1⟩ := eps_value
  have hszv := max_value hspan.1 heps
  have hge := valueOf_le_rnd hP (x := (lit 1 6 : Val b32)) (v := valueOf mx - valueOf mn) (by linarith)
  rw [← hspan.2] at hge
  have hsz : valueOf (sizeOf mn mx) = valueOf (sub x mn) := by
    rw [sizeOf, hszv.2, max_eq_left hge, hspan.2, hsub.2, he]
  have hpos : 0 < valueOf (sizeOf mn mx) := by
    rw [sizeOf, hszv.2]; exact lt_of_lt_of_le heps0 (le_max_right _ _)
  exact top_zero hp1 hp hsub.1 (show isFinite (sizeOf mn mx) = true from hszv.1) hsz.symm hpos hmn hspan.1

/-- The largest float comes back as the smallest one. -/
theorem floatQ_top {mn mx x : Val b32} (hx : isFinite x = true) (hmn : isFinite mn = true) (hmx : isFinite mx = true)
    (he : valueOf x = valueOf mx) (h : valueOf mn < valueOf mx) (hmax : valueOf mx - valueOf mn ≤ 2 ^ 127) :
    isFinite (floatQ p mn mx x) = true ∧ valueOf (floatQ p mn mx x) = valueOf mn := by
  have hP : 0 < b32.prec := by decide
  have hP6 : 0 < b64.prec := by decide
  have hS0 : 0 < valueOf mx - valueOf mn := by linarith
  have hspan := sub_value (f := b32) hP hmx hmn (by rw [abs_of_nonneg hS0.le]; exact le_trans hmax maxV32)
  have hsub := sub_value (f := b32) hP hx hmn (by rw [he, abs_of_nonneg hS0.le]; exact le_trans hmax maxV32)
  have hpos : 0 < valueOf (sub mx mn) := by
    rw [hspan.2]
    have := abs_le.mp (span_error h.le)
    linarith [mul_lt_mul_of_pos_right (show (1 : ℚ) / 2 ^ 24 < 1 by norm_num) hS0]
  have hes : valueOf (sub x mn) = valueOf (sub mx mn) := by rw [hsub.2, hspan.2, he]
  have hone := ofNat_value (c := 1) (by norm_num)
  have hq := div_value hP hsub.1 hspan.1 hpos.ne' (by
    rw [hes, div_self hpos.ne', abs_one]; exact le_trans (by norm_num) maxV32)
  rw [hes, div_self hpos.ne', one_le_rnd hP (by rw [hone.2, Nat.cast_one])] at hq
  rw [floatQ, unit_code_one hp1 hp hq.1 hq.2]
  have hz := ofNat_value64 (c := 0) (by norm_num)
  have hm53 : 2 ^ p - 1 ≤ 2 ^ 53 := by
    have : 2 ^ p ≤ 2 ^ 53 := Nat.pow_le_pow_right (by omega) (by omega)
    omega
  have hm := ofNat_value64 hm53
  have hm0 : ((2 ^ p - 1 : Nat) : ℚ) ≠ 0 := by
    have : 1 < 2 ^ p := Nat.one_lt_two_pow (by omega)
    exact_mod_cast (by omega : 2 ^ p - 1 ≠ 0)
  have hmx0 : (0 : ℚ) ≤ maxV b64 := le_trans (by positivity) maxV64
  have wn := widen_value hmn
  have wx := widen_value hmx
  have hs64 := sub_value (f := b64) hP6 wx.1 wn.1 (by
    rw [wx.2, wn.2, abs_of_nonneg hS0.le]
    exact le_trans hmax (le_trans (pow_le_pow_right₀ (by norm_num) (by norm_num)) maxV64))
  have hd := div_value hP6 hz.1 hm.1 (by rw [hm.2]; exact hm0) (by rw [hz.2, Nat.cast_zero, zero_div, abs_zero]; exact hmx0)
  rw [hz.2, Nat.cast_zero, zero_div, rnd_zero hP6] at hd
  have hr := mul_value hP6 hd.1 hs64.1 (by rw [hd.2, zero_mul, abs_zero]; exact hmx0)
  rw [hd.2, zero_mul, rnd_zero hP6] at hr
  have hy := add_value hP6 hr.1 wn.1 (by rw [hr.2, zero_add]; exact abs_valueOf_le _)
  rw [hr.2, zero_add, rnd_valueOf hP6, wn.2] at hy
  have hn := convert_value (g := b32) hP hy.1 (by rw [hy.2]; exact abs_valueOf_le _)
  rw [hy.2, rnd_valueOf hP] at hn
  exact hn

end

end Tmf.Ieee
