import Verif.Lemmas.CoordHigh
import Verif.Spec.LayoutNumbers
/-
Codes as numbers of steps: what the writer's arithmetic gives below, above and at the ends of a scale.
-/

set_option exponentiation.threshold 3000

namespace Tmf.Ieee
open Spec

theorem toU64_neg {r : Val b32} (hf : isFinite r = true) (h : valueOf r ≤ 0) : toU64 r = 0 := by
  obtain ⟨s, n, hn, rfl⟩ := finite_cases hf
  have hS : (0 : ℚ) < 2 ^ b32.scale := units_pos b32
  cases s with
  | true => simp [toU64]
  | false =>
    rw [valueOf_fin] at h
    simp only [sgn, Bool.false_eq_true, if_false, one_mul] at h
    have h2 : (n : ℚ) ≤ 0 := by
      by_contra hc
      exact absurd h (not_le.mpr (div_pos (not_le.mp hc) hS))
    have : n = 0 := by
      have : n ≤ 0 := by exact_mod_cast h2
      omega
    subst this
    simp [toU64]

theorem rnd_nonpos {v : ℚ} (h : v ≤ 0) : rnd b32 v ≤ 0 := by
  have h1 := rnd_nonneg (f := b32) (v := -v) (by linarith)
  rw [rnd_neg (by decide)] at h1
  linarith

/-- The number codes are scaled by: at most 2^-24 of it above the exact one. -/
theorem scale_bounds {w : Nat} (hw1 : 1 ≤ w) (hw : w ≤ 31) : isFinite (ofNat (2 ^ w - 1) : Val b32) = true ∧
    (2 : ℚ) ^ w - 1 ≤ valueOf (ofNat (2 ^ w - 1) : Val b32) ∧
    valueOf (ofNat (2 ^ w - 1) : Val b32) ≤ (1 + 1 / 2 ^ 24) * (2 ^ w - 1) := by
  have hmc : ((2 ^ w - 1 : Nat) : ℚ) = 2 ^ w - 1 := by
    rw [Nat.cast_sub Nat.one_le_two_pow]; push_cast; rfl
  have hm1 : (1 : ℚ) ≤ 2 ^ w - 1 := by
    have : (2 : ℚ) ^ 1 ≤ 2 ^ w := pow_le_pow_right₀ (by norm_num) hw1
    linarith
  rcases Nat.lt_or_ge 24 w with h24 | h24
  · obtain ⟨mf, mv⟩ := mask_value h24 hw
    have := pow_ge_25 h24
    refine ⟨mf, by rw [mv]; linarith, ?_⟩
    rw [mv]
    norm_num at this ⊢
    linarith
  · obtain ⟨mf, mv⟩ := ofNat_value (c := 2 ^ w - 1) (by
      have : 2 ^ w ≤ 2 ^ 24 := Nat.pow_le_pow_right (by omega) h24
      omega)
    rw [mv, hmc]
    refine ⟨mf, le_refl _, ?_⟩
    norm_num
    linarith

/-- A fraction `d` of the scale, off from the exact `T` by a few roundings. -/
theorem steps_of_fraction {w : Nat} (hw1 : 1 ≤ w) (hw : w ≤ 31) {d : Val b32} (hd : isFinite d = true) {T : ℚ}
    (h0 : 0 ≤ T) (h1 : T ≤ 2 ^ 30) (hd0 : 0 ≤ valueOf d)
    (hlo : T * (1 - 6 / 2 ^ 24) - 1 / 2 ^ 150 ≤ valueOf d) (hhi : valueOf d ≤ T * (1 + 6 / 2 ^ 24) + 1 / 2 ^ 150) :
    ∃ k : Nat, toU64 (mul d (ofNat (2 ^ w - 1))) % 2 ^ w = k % 2 ^ w ∧
      (k : ℚ) ≤ (1 + 1 / 2 ^ 20) * (T * (2 ^ w - 1)) + 1 / 2 ^ 100 ∧
      (1 - 1 / 2 ^ 20) * (T * (2 ^ w - 1)) - 1 / 2 ^ 100 < k + 1 := by
  obtain ⟨mf, m1, m2⟩ := scale_bounds hw1 hw
  have hM1 : (1 : ℚ) ≤ 2 ^ w - 1 := by
    have : (2 : ℚ) ^ 1 ≤ 2 ^ w := pow_le_pow_right₀ (by norm_num) hw1
    linarith
  have hM2 : (2 : ℚ) ^ w - 1 ≤ 2 ^ 31 := by
    have : (2 : ℚ) ^ w ≤ 2 ^ 31 := pow_le_pow_right₀ (by norm_num) hw
    linarith
  have hm0 : 0 ≤ valueOf (ofNat (2 ^ w - 1) : Val b32) := by linarith
  have hp0 : 0 ≤ valueOf d * valueOf (ofNat (2 ^ w - 1) : Val b32) := mul_nonneg hd0 hm0
  have hdle : valueOf d ≤ 2 ^ 30 * 2 := by norm_num at *; linarith
  have hmle : valueOf (ofNat (2 ^ w - 1) : Val b32) ≤ 2 ^ 31 * 2 := by norm_num at *; linarith
  have hple : valueOf d * valueOf (ofNat (2 ^ w - 1) : Val b32) ≤ (2 ^ 30 * 2) * (2 ^ 31 * 2) :=
    mul_le_mul hdle hmle hm0 (by norm_num)
  obtain ⟨rf, rv⟩ := mul_value (f := b32) (by decide) hd mf (by
    rw [abs_of_nonneg hp0]; exact le_trans hple (le_trans (by norm_num) maxV32))
  have he := rnd32_error (valueOf d * valueOf (ofNat (2 ^ w - 1) : Val b32))
  rw [← rv, abs_of_nonneg hp0] at he
  have hr0 : 0 ≤ valueOf (mul d (ofNat (2 ^ w - 1))) := by rw [rv]; exact rnd_nonneg hp0
  -- the product before its last rounding
  have hTM : 0 ≤ T * (2 ^ w - 1) := mul_nonneg h0 (by linarith)
  have up : valueOf d * valueOf (ofNat (2 ^ w - 1) : Val b32) ≤ (1 + 8 / 2 ^ 24) * (T * (2 ^ w - 1)) + 1 / 2 ^ 117 := by
    have hpos : 0 ≤ T * (1 + 6 / 2 ^ 24) + 1 / 2 ^ 150 := by positivity
    calc valueOf d * valueOf (ofNat (2 ^ w - 1) : Val b32)
        ≤ (T * (1 + 6 / 2 ^ 24) + 1 / 2 ^ 150) * ((1 + 1 / 2 ^ 24) * (2 ^ w - 1)) := mul_le_mul hhi m2 hm0 hpos
      _ = (1 + 6 / 2 ^ 24) * (1 + 1 / 2 ^ 24) * (T * (2 ^ w - 1)) + (1 + 1 / 2 ^ 24) / 2 ^ 150 * (2 ^ w - 1) := by ring
      _ ≤ _ := by
        have a1 : (1 + 6 / 2 ^ 24) * (1 + 1 / 2 ^ 24) * (T * (2 ^ w - 1)) ≤ (1 + 8 / 2 ^ 24) * (T * (2 ^ w - 1)) :=
          mul_le_mul_of_nonneg_right (by norm_num) hTM
        have a2 : (1 + 1 / 2 ^ 24) / 2 ^ 150 * ((2 : ℚ) ^ w - 1) ≤ (1 + 1 / 2 ^ 24) / 2 ^ 150 * 2 ^ 31 :=
          mul_le_mul_of_nonneg_left hM2 (by norm_num)
        have a3 : ((1 : ℚ) + 1 / 2 ^ 24) / 2 ^ 150 * 2 ^ 31 ≤ 1 / 2 ^ 117 := by norm_num
        linarith
  have down : (1 - 6 / 2 ^ 24) * (T * (2 ^ w - 1)) - 1 / 2 ^ 117 ≤ valueOf d * valueOf (ofNat (2 ^ w - 1) : Val b32) := by
    have b1 : (T * (1 - 6 / 2 ^ 24) - 1 / 2 ^ 150) * (2 ^ w - 1) ≤ valueOf d * (2 ^ w - 1) :=
      mul_le_mul_of_nonneg_right hlo (by linarith)
    have b2 : valueOf d * (2 ^ w - 1) ≤ valueOf d * valueOf (ofNat (2 ^ w - 1) : Val b32) := mul_le_mul_of_nonneg_left m1 hd0
    have b3 : (1 : ℚ) / 2 ^ 150 * (2 ^ w - 1) ≤ 1 / 2 ^ 150 * 2 ^ 31 := mul_le_mul_of_nonneg_left hM2 (by norm_num)
    have b4 : (1 : ℚ) / 2 ^ 150 * 2 ^ 31 ≤ 1 / 2 ^ 117 := by norm_num
    have b5 : (T * (1 - 6 / 2 ^ 24) - 1 / 2 ^ 150) * ((2 : ℚ) ^ w - 1) =
      (1 - 6 / 2 ^ 24) * (T * (2 ^ w - 1)) - 1 / 2 ^ 150 * (2 ^ w - 1) := by ring
    linarith
  generalize valueOf d * valueOf (ofNat (2 ^ w - 1) : Val b32) = P at *
  have hTMle : T * (2 ^ w - 1) ≤ 2 ^ 30 * 2 ^ 31 := mul_le_mul h1 hM2 (by linarith) (by norm_num)
  rw [abs_le] at he
  obtain ⟨c1, c2⟩ := toU64_value rf hr0 (by
    norm_num at *
    linarith [he.2])
  refine ⟨_, rfl, ?_, ?_⟩
  · norm_num at *
    linarith [he.2]
  · norm_num at *
    linarith [he.1]

/-- A number on the scale from 0 to 1. -/
theorem steps_of_unit {w : Nat} (hw1 : 1 ≤ w) (hw : w ≤ 31) {x : Val b32} (hx : isFinite x = true) :
    StepsCode 0 1 w (toU64 (mul x (ofNat (2 ^ w - 1))) % 2 ^ w) (valueOf x) := by
  intro hR
  rw [sub_zero, mul_one] at hR
  refine ⟨fun hlt => ?_, fun hle => ?_⟩
  · obtain ⟨mf, m1, m2⟩ := scale_bounds hw1 hw
    have hM1 : (1 : ℚ) ≤ 2 ^ w - 1 := by
      have : (2 : ℚ) ^ 1 ≤ 2 ^ w := pow_le_pow_right₀ (by norm_num) hw1
      linarith
    have hM2 : (2 : ℚ) ^ w - 1 ≤ 2 ^ 31 := by
      have : (2 : ℚ) ^ w ≤ 2 ^ 31 := pow_le_pow_right₀ (by norm_num) hw
      linarith
    have hmabs : |valueOf (ofNat (2 ^ w - 1) : Val b32)| ≤ 2 ^ 32 := by
      rw [abs_of_nonneg (by linarith)]
      norm_num at *
      linarith
    obtain ⟨rf, rv⟩ := mul_value (f := b32) (by decide) hx mf (by
      rw [abs_mul]
      exact le_trans (mul_le_mul hR hmabs (abs_nonneg _) (by norm_num)) (le_trans (by norm_num) maxV32))
    rw [toU64_neg rf (by
      rw [rv]
      exact rnd_nonpos (mul_nonpos_of_nonpos_of_nonneg hlt.le (by linarith)))]
    exact Nat.zero_mod _
  · rw [sub_zero, div_one]
    rw [abs_of_nonneg hle] at hR
    refine steps_of_fraction hw1 hw hx hle hR hle ?_ ?_ <;> norm_num <;> linarith

theorem eps_error : |valueOf (lit 1 6 : Val b32) - 1 / 10 ^ 6| ≤ 2 / 2 ^ 24 * (1 / 10 ^ 6) := by
  have h := rounded_value (f := b32) (by decide) false (num := 1 * 2 ^ b32.scale) (den := 10 ^ 6) (v := 1 / 10 ^ 6) (by norm_num)
    (by
      simp only [sgn, Bool.false_eq_true, if_false, one_mul]
      rw [show b32.scale = 149 from rfl, Nat.cast_pow, Nat.cast_pow]
      norm_num)
    (le_trans (by rw [abs_of_nonneg (by norm_num)]; norm_num) maxV32)
  have he := rnd32_error (1 / 10 ^ 6)
  show |valueOf (rounded false (1 * 2 ^ b32.scale) (10 ^ 6) : Val b32) - 1 / 10 ^ 6| ≤ _
  rw [h.2]
  refine le_trans he ?_
  rw [abs_of_nonneg (by norm_num)]
  norm_num

/-- The distance from the lower end, divided by the size of the scale, and the code of it. -/
theorem steps_of_scale {w : Nat} (hw1 : 1 ≤ w) (hw : w ≤ 31) {x mn size : Val b32} (hx : isFinite x = true)
    (hmn : isFinite mn = true) (hs : isFinite size = true) {S : ℚ} (hS : 0 < S)
    (he : |valueOf size - S| ≤ 2 / 2 ^ 24 * S) (hd : |valueOf x - valueOf mn| ≤ 2 ^ 127) :
    StepsCode (valueOf mn) S w (toU64 (mul (div (sub x mn) size) (ofNat (2 ^ w - 1))) % 2 ^ w) (valueOf x) := by
  intro hR
  obtain ⟨sf, sv⟩ := sub_value (f := b32) (by decide) hx hmn (le_trans hd maxV32)
  have hsub := rnd32_error_sub x mn
  rw [← sv] at hsub
  have hsz1 : S * (1 - 2 / 2 ^ 24) ≤ valueOf size := by rw [abs_le] at he; linarith [he.1]
  have hsz2 : valueOf size ≤ S * (1 + 2 / 2 ^ 24) := by rw [abs_le] at he; linarith [he.2]
  have hsz0 : 0 < valueOf size := lt_of_lt_of_le (by positivity) hsz1
  have hquot : |valueOf (sub x mn) / valueOf size| ≤ 2 ^ 32 := by
    rw [abs_div, abs_of_pos hsz0, div_le_iff₀ hsz0]
    have : |valueOf (sub x mn)| ≤ |valueOf x - valueOf mn| + 1 / 2 ^ 24 * |valueOf x - valueOf mn| := by
      have := abs_sub_abs_le_abs_sub (valueOf (sub x mn)) (valueOf x - valueOf mn)
      linarith
    norm_num at *
    linarith
  obtain ⟨df, dv⟩ := div_value (f := b32) (by decide) sf hs hsz0.ne' (le_trans hquot (le_trans (by norm_num) maxV32))
  have hde := rnd32_error (valueOf (sub x mn) / valueOf size)
  rw [← dv] at hde
  refine ⟨fun hlt => ?_, fun hle => ?_⟩
  · have hneg : valueOf (sub x mn) ≤ 0 := by
      rw [abs_of_neg (show valueOf x - valueOf mn < 0 by linarith), abs_le] at hsub
      norm_num at hsub
      linarith [hsub.2]
    have hdneg : valueOf (div (sub x mn) size) ≤ 0 := by
      rw [dv]
      exact rnd_nonpos (div_nonpos_of_nonpos_of_nonneg hneg hsz0.le)
    obtain ⟨mf, m1, m2⟩ := scale_bounds hw1 hw
    have hM1 : (1 : ℚ) ≤ 2 ^ w - 1 := by
      have : (2 : ℚ) ^ 1 ≤ 2 ^ w := pow_le_pow_right₀ (by norm_num) hw1
      linarith
    have hM2 : (2 : ℚ) ^ w - 1 ≤ 2 ^ 31 := by
      have : (2 : ℚ) ^ w ≤ 2 ^ 31 := pow_le_pow_right₀ (by norm_num) hw
      linarith
    have hdabs : |valueOf (div (sub x mn) size)| ≤ 2 ^ 33 := by
      have := abs_sub_abs_le_abs_sub (valueOf (div (sub x mn) size)) (valueOf (sub x mn) / valueOf size)
      norm_num at *
      linarith
    have hmabs : |valueOf (ofNat (2 ^ w - 1) : Val b32)| ≤ 2 ^ 32 := by
      rw [abs_of_nonneg (by linarith)]
      norm_num at *
      linarith
    obtain ⟨rf, rv⟩ := mul_value (f := b32) (by decide) df mf (by
      rw [abs_mul]
      exact le_trans (mul_le_mul hdabs hmabs (abs_nonneg _) (by norm_num)) (le_trans (by norm_num) maxV32))
    rw [toU64_neg rf (by
      rw [rv]
      exact rnd_nonpos (mul_nonpos_of_nonpos_of_nonneg hdneg (by linarith)))]
    exact Nat.zero_mod _
  · have hx0 : 0 ≤ valueOf x - valueOf mn := by linarith
    rw [abs_of_nonneg hx0] at hsub hR
    rw [abs_le] at hsub
    have hsub0 : 0 ≤ valueOf (sub x mn) := by rw [sv]; exact rnd_nonneg hx0
    have hq0 : 0 ≤ valueOf (sub x mn) / valueOf size := div_nonneg hsub0 hsz0.le
    rw [abs_of_nonneg hq0, abs_le] at hde
    have hT0 : 0 ≤ (valueOf x - valueOf mn) / S := div_nonneg hx0 hS.le
    have hXT : valueOf x - valueOf mn = (valueOf x - valueOf mn) / S * S := by field_simp
    have qhi : valueOf (sub x mn) / valueOf size ≤ (valueOf x - valueOf mn) / S * (1 + 4 / 2 ^ 24) := by
      rw [div_le_iff₀ hsz0]
      rw [hXT] at hsub
      generalize (valueOf x - valueOf mn) / S = T at *
      have h1 : valueOf (sub x mn) ≤ (1 + 1 / 2 ^ 24) * (T * S) := by linarith [hsub.2]
      have h2 : T * (1 + 4 / 2 ^ 24) * (S * (1 - 2 / 2 ^ 24)) ≤ T * (1 + 4 / 2 ^ 24) * valueOf size :=
        mul_le_mul_of_nonneg_left hsz1 (by positivity)
      have h3 : (1 + 1 / 2 ^ 24) * (T * S) ≤ (1 + 4 / 2 ^ 24) * (1 - 2 / 2 ^ 24) * (T * S) :=
        mul_le_mul_of_nonneg_right (by norm_num) (by positivity)
      linarith
    have qlo : (valueOf x - valueOf mn) / S * (1 - 3 / 2 ^ 24) ≤ valueOf (sub x mn) / valueOf size := by
      rw [le_div_iff₀ hsz0]
      rw [hXT] at hsub
      generalize (valueOf x - valueOf mn) / S = T at *
      have h1 : (1 - 1 / 2 ^ 24) * (T * S) ≤ valueOf (sub x mn) := by linarith [hsub.1]
      have h2 : T * (1 - 3 / 2 ^ 24) * valueOf size ≤ T * (1 - 3 / 2 ^ 24) * (S * (1 + 2 / 2 ^ 24)) :=
        mul_le_mul_of_nonneg_left hsz2 (mul_nonneg hT0 (by norm_num))
      have h3 : (1 - 3 / 2 ^ 24) * (1 + 2 / 2 ^ 24) * (T * S) ≤ (1 - 1 / 2 ^ 24) * (T * S) :=
        mul_le_mul_of_nonneg_right (by norm_num) (by positivity)
      linarith
    have hTle : (valueOf x - valueOf mn) / S ≤ 2 ^ 30 := (div_le_iff₀ hS).mpr hR
    refine steps_of_fraction hw1 hw df hT0 hTle (by rw [dv]; exact rnd_nonneg hq0) ?_ ?_
    · generalize (valueOf x - valueOf mn) / S = T at *
      norm_num at *
      linarith [hde.1]
    · generalize (valueOf x - valueOf mn) / S = T at *
      norm_num at *
      linarith [hde.2]

/-- The size of a scale that is never shorter than a millionth. -/
theorem size_error {mn mx : Val b32} (hmn : isFinite mn = true) (hmx : isFinite mx = true)
    (h : |valueOf mx - valueOf mn| ≤ 2 ^ 127) :
    isFinite (sizeOf mn mx) = true ∧ 0 < Max.max (valueOf mx - valueOf mn) (1 / 10 ^ 6) ∧
    |valueOf (sizeOf mn mx) - Max.max (valueOf mx - valueOf mn) (1 / 10 ^ 6)| ≤
      2 / 2 ^ 24 * Max.max (valueOf mx - valueOf mn) (1 / 10 ^ 6) := by
  obtain ⟨sf, sv⟩ := sub_value (f := b32) (by decide) hmx hmn (le_trans h maxV32)
  obtain ⟨ef, -, -⟩ := eps_value
  obtain ⟨mf, mv⟩ := max_value sf ef
  have h1 := rnd32_error_sub mx mn
  have h2 := eps_error
  have hpos : (0 : ℚ) < Max.max (valueOf mx - valueOf mn) (1 / 10 ^ 6) := lt_of_lt_of_le (by norm_num) (le_max_right _ _)
  refine ⟨mf, hpos, ?_⟩
  rw [sizeOf, mv, sv]
  generalize rnd b32 (valueOf mx - valueOf mn) = r at *
  generalize valueOf (lit 1 6 : Val b32) = e at *
  generalize valueOf mx - valueOf mn = u at *
  have g1 : 1 / 10 ^ 6 ≤ Max.max u (1 / 10 ^ 6) := le_max_right _ _
  have g2 : u ≤ Max.max u (1 / 10 ^ 6) := le_max_left _ _
  rw [abs_le] at h2
  rcases le_total 0 u with hu | hu
  · rw [abs_of_nonneg hu, abs_le] at h1
    rcases max_choice u (1 / 10 ^ 6) with hm | hm <;> rcases max_choice r e with hr | hr <;>
      have k1 := le_max_left r e <;> have k2 := le_max_right r e <;> rw [hm] at g1 g2 ⊢ <;> rw [hr] at k1 k2 ⊢ <;>
      rw [abs_le] <;> constructor <;> norm_num at * <;> linarith [h1.1, h1.2, h2.1, h2.2]
  · rw [abs_of_nonpos hu, abs_le] at h1
    have hr : r ≤ e := by norm_num at *; linarith [h1.1, h1.2, h2.1, h2.2]
    rw [max_eq_right hr, max_eq_right (by norm_num at *; linarith), abs_le]
    exact h2

end Tmf.Ieee
