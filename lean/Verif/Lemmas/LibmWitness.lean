import Verif.Lemmas.Log2
import Verif.Lemmas.NormalAngle
/-
A libm as the properties of normals assume it exists: truncation of the exact values to 22 binary
places, with the f32 values of π/2 and of its cosine where they matter.
-/

set_option exponentiation.threshold 2000

namespace Tmf.Ieee
open Spec

theorem trunc_rep22 {n : Nat} (h : n < 2 ^ 24) : b32.Rep (n * 2 ^ 127) := by
  refine (rep_iff b32 (by decide)).mpr ⟨⟨n, 127, h, rfl⟩, ?_⟩
  have h1 : n * 2 ^ 127 ≤ 2 ^ 24 * 2 ^ 127 := Nat.mul_le_mul_right _ h.le
  exact le_trans h1 (by decide +kernel)

/-- A number with at most 22 binary places, toward zero. -/
noncomputable def toPlaces (r : ℝ) : Val b32 :=
  if h : ⌊|r| * 2 ^ 22⌋₊ < 2 ^ 24 then .fin (@decide (r < 0) (Classical.propDecidable _)) (⌊|r| * 2 ^ 22⌋₊ * 2 ^ 127) (trunc_rep22 h)
  else .nan

theorem toPlaces_value {r : ℝ} (hr : |r| ≤ 2) : isFinite (toPlaces r) = true ∧ |realOf (toPlaces r) - r| ≤ 1 / 2 ^ 22 ∧
    (0 ≤ r → 0 ≤ valueOf (toPlaces r) ∧ realOf (toPlaces r) ≤ r) := by
  have hk : ⌊|r| * 2 ^ 22⌋₊ < 2 ^ 24 := by
    rw [Nat.floor_lt (by positivity)]
    have : |r| * 2 ^ 22 ≤ 2 * 2 ^ 22 := mul_le_mul_of_nonneg_right hr (by norm_num)
    norm_num at *
    linarith
  have h1 := Nat.floor_le (show 0 ≤ |r| * 2 ^ 22 by positivity)
  have h2 := Nat.lt_floor_add_one (|r| * 2 ^ 22)
  rw [toPlaces, dif_pos hk]
  have hv : ∀ s, valueOf (.fin s (⌊|r| * 2 ^ 22⌋₊ * 2 ^ 127) (trunc_rep22 hk) : Val b32) = sgn s * ((⌊|r| * 2 ^ 22⌋₊ : ℚ) / 2 ^ 22) := by
    intro s
    rw [valueOf_fin, show b32.scale = 149 from rfl, Nat.cast_mul, Nat.cast_pow, Nat.cast_ofNat]
    congr 1
    rw [div_eq_div_iff (by norm_num) (by norm_num), mul_assoc]
    norm_num
  refine ⟨rfl, ?_, ?_⟩
  · rw [realOf, hv]
    rcases lt_or_ge r 0 with hneg | hnn
    · rw [decide_eq_true hneg]
      simp only [sgn, if_true]
      push_cast
      rw [abs_of_neg hneg] at *
      generalize ((⌊-r * 2 ^ 22⌋₊ : Nat) : ℝ) = k at *
      rw [abs_le]
      norm_num at *
      constructor <;> linarith
    · rw [decide_eq_false (not_lt.mpr hnn)]
      simp only [sgn, Bool.false_eq_true, if_false]
      push_cast
      rw [abs_of_nonneg hnn] at *
      generalize ((⌊r * 2 ^ 22⌋₊ : Nat) : ℝ) = k at *
      rw [abs_le]
      norm_num at *
      constructor <;> linarith
  · intro hnn
    rw [realOf, hv, decide_eq_false (not_lt.mpr hnn)]
    simp only [sgn, Bool.false_eq_true, if_false, one_mul]
    refine ⟨by positivity, ?_⟩
    push_cast
    rw [abs_of_nonneg hnn] at *
    rw [div_le_iff₀ (by positivity)]
    exact h1

/-- `-2^-24`. -/
def cosHalfPi : Val b32 := .fin true (2 ^ 125) (by decide +kernel)

/-- `0`. -/
def zeroV : Val b32 := .fin false 0 (by decide +kernel)
/-- `1`. -/
def oneV : Val b32 := .fin false (2 ^ 149) (by decide +kernel)

theorem trunc_rep17 {n : Nat} (h : n < 2 ^ 24) : b32.Rep (n * 2 ^ 132) := by
  refine (rep_iff b32 (by decide)).mpr ⟨⟨n, 132, h, rfl⟩, ?_⟩
  have h1 : n * 2 ^ 132 ≤ 2 ^ 24 * 2 ^ 132 := Nat.mul_le_mul_right _ h.le
  exact le_trans h1 (by decide +kernel)

/-- The logarithm with 17 binary places, toward zero. -/
noncomputable def someLog2 : Val b32 → Val b32
  | .nan => .nan
  | .inf s => if s then .nan else .inf false
  | .fin s n h => if n = 0 then .inf true else if s then .nan else if n < 2 ^ 149 then zeroV else
      if h' : ⌊Real.logb 2 (realOf (.fin s n h)) * 2 ^ 17⌋₊ < 2 ^ 24 then
        .fin false (⌊Real.logb 2 (realOf (.fin s n h)) * 2 ^ 17⌋₊ * 2 ^ 132) (trunc_rep17 h')
      else .nan

noncomputable def someLibm : Libm where
  log2 := someLog2
  sin x := if x = zeroV then zeroV else toPlaces (Real.sin (realOf x))
  cos x := if x = halfPi32 then cosHalfPi else if x = zeroV then oneV else toPlaces (Real.cos (realOf x))
  asin x := if x = zeroV then zeroV else if x = oneV then halfPi32 else toPlaces (Real.arcsin (realOf x))

theorem realOf_zeroV : realOf zeroV = 0 := by
  rw [realOf, zeroV, valueOf_fin]; simp

theorem realOf_oneV : realOf oneV = 1 := by
  rw [realOf, oneV, valueOf_fin, show b32.scale = 149 from rfl]
  simp only [sgn, Bool.false_eq_true, if_false, one_mul]
  norm_num

theorem realOf_halfPi : realOf halfPi32 = 13176795 / 2 ^ 23 := by
  rw [realOf, halfPi_value.2]; push_cast; rfl

theorem realOf_cosHalfPi : realOf cosHalfPi = -(1 / 2 ^ 24) := by
  rw [realOf, cosHalfPi, valueOf_fin, show b32.scale = 149 from rfl]
  simp only [sgn, if_true]
  norm_num

theorem halfPi_above : Real.pi / 2 < realOf halfPi32 ∧ realOf halfPi32 - Real.pi / 2 < 1 / 2 ^ 24 := by
  rw [realOf_halfPi]
  have h1 := Real.pi_gt_d20
  have h2 := Real.pi_lt_d20
  norm_num at *
  constructor <;> linarith

theorem someLibm_accurate : AccurateLibm someLibm where
  sin_near := by
    intro x hx h0 h2
    have hr0 : 0 ≤ realOf x := by rw [realOf]; exact_mod_cast h0
    have hr2 : realOf x ≤ 2 := by rw [realOf]; exact_mod_cast h2
    simp only [someLibm]
    split
    · rename_i h
      subst h
      rw [realOf_zeroV, Real.sin_zero]
      exact ⟨rfl, by norm_num, h0⟩
    · obtain ⟨a, b, c⟩ := toPlaces_value (r := Real.sin (realOf x)) (le_trans (Real.abs_sin_le_one _) (by norm_num))
      exact ⟨a, b, (c (Real.sin_nonneg_of_nonneg_of_le_pi hr0 (by linarith [Real.pi_gt_three]))).1⟩
  cos_near := by
    intro x hx h0 h2
    simp only [someLibm]
    split
    · rename_i h
      subst h
      obtain ⟨p1, p2⟩ := halfPi_above
      have hneg : Real.cos (realOf halfPi32) < 0 := by
        refine Real.cos_neg_of_pi_div_two_lt_of_lt p1 ?_
        have := Real.pi_gt_three
        have h3 : (1 : ℝ) / 2 ^ 24 < 1 := by norm_num
        linarith
      have hge : -(1 / 2 ^ 24) ≤ Real.cos (realOf halfPi32) := by
        rw [← Real.sin_pi_div_two_sub]
        have hs := Real.abs_sin_le_abs (x := Real.pi / 2 - realOf halfPi32)
        rw [abs_of_neg (show Real.pi / 2 - realOf halfPi32 < 0 by linarith)] at hs
        linarith [neg_abs_le (Real.sin (Real.pi / 2 - realOf halfPi32))]
      refine ⟨rfl, ?_, fun h => absurd h (not_le.mpr hneg)⟩
      rw [realOf_cosHalfPi, abs_le]
      norm_num at *
      constructor <;> linarith
    · split
      · rename_i h
        subst h
        rw [realOf_zeroV, Real.cos_zero, realOf_oneV]
        refine ⟨rfl, by norm_num, fun _ => ?_⟩
        rw [oneV, valueOf_fin]
        simp only [sgn, Bool.false_eq_true, if_false, one_mul]
        exact div_nonneg (Nat.cast_nonneg _) (units_pos b32).le
      · obtain ⟨a, b, c⟩ := toPlaces_value (r := Real.cos (realOf x)) (le_trans (Real.abs_cos_le_one _) (by norm_num))
        exact ⟨a, b, fun h => (c h).1⟩
  asin_near := by
    intro x hx
    obtain ⟨hf, h0, h1⟩ := hx
    have hr0 : 0 ≤ realOf x := by rw [realOf]; exact_mod_cast h0
    obtain ⟨p1, p2⟩ := halfPi_above
    have hpv := halfPi_value
    simp only [someLibm]
    split
    · rename_i h
      subst h
      rw [realOf_zeroV, Real.arcsin_zero]
      exact ⟨rfl, by norm_num, h0, by rw [hpv.2]; exact le_trans h1 (by norm_num)⟩
    · split
      · rename_i h
        subst h
        rw [realOf_oneV, Real.arcsin_one]
        refine ⟨hpv.1, ?_, by rw [hpv.2]; norm_num, le_refl _⟩
        rw [abs_le]
        norm_num at *
        constructor <;> linarith
      · have hle := Real.arcsin_le_pi_div_two (realOf x)
        have hnn := Real.arcsin_nonneg.mpr hr0
        have hpi := Real.pi_lt_d2
        obtain ⟨a, b, c⟩ := toPlaces_value (r := Real.arcsin (realOf x)) (by
          rw [abs_of_nonneg hnn]; norm_num at hpi; linarith)
        obtain ⟨c1, c2⟩ := c hnn
        refine ⟨a, b, c1, ?_⟩
        have h : realOf (toPlaces (Real.arcsin (realOf x))) ≤ realOf halfPi32 := by linarith
        exact Rat.cast_le.mp h

theorem someLog2_value {x : Val b32} (hx : isFinite x = true) (h1 : 1 ≤ valueOf x) :
    isFinite (someLog2 x) = true ∧
      valueOf (someLog2 x) = (⌊Real.logb 2 (realOf x) * 2 ^ 17⌋₊ : ℚ) / 2 ^ 17 ∧ 0 ≤ Real.logb 2 (realOf x) := by
  have hr1 : 1 ≤ realOf x := by rw [realOf]; exact_mod_cast h1
  have hL0 : 0 ≤ Real.logb 2 (realOf x) := Real.logb_nonneg (by norm_num) hr1
  obtain ⟨s, n, hn, rfl⟩ := finite_cases hx
  cases s with
  | true =>
    rw [valueOf_fin] at h1
    simp only [sgn, if_true] at h1
    have : (0 : ℚ) ≤ (n : ℚ) / 2 ^ b32.scale := by positivity
    linarith
  | false =>
    have hge : 2 ^ 149 ≤ n := by
      rw [valueOf_fin, show b32.scale = 149 from rfl] at h1
      simp only [sgn, Bool.false_eq_true, if_false, one_mul] at h1
      rw [le_div_iff₀ (by positivity), one_mul] at h1
      exact_mod_cast h1
    have hlt : realOf (.fin false n hn) < (2 : ℝ) ^ (128 : ℝ) := by
      have hm : n ≤ b32.max := ((rep_iff b32 (by decide)).mp hn).2
      have hm' : n < 2 ^ 277 := lt_of_le_of_lt hm (by decide +kernel)
      have hq : valueOf (.fin false n hn : Val b32) < 2 ^ 128 := by
        rw [valueOf_fin, show b32.scale = 149 from rfl]
        simp only [sgn, Bool.false_eq_true, if_false, one_mul]
        rw [div_lt_iff₀ (by positivity), ← pow_add]
        exact_mod_cast hm'
      rw [realOf, show (128 : ℝ) = ((128 : ℕ) : ℝ) by norm_num, Real.rpow_natCast]
      have : ((valueOf (.fin false n hn : Val b32) : ℚ) : ℝ) < ((2 ^ 128 : ℚ) : ℝ) := Rat.cast_lt.mpr hq
      push_cast at this
      exact this
    have hL : Real.logb 2 (realOf (.fin false n hn)) < 128 :=
      (Real.logb_lt_iff_lt_rpow (by norm_num) (by linarith)).mpr hlt
    have hk : ⌊Real.logb 2 (realOf (.fin false n hn)) * 2 ^ 17⌋₊ < 2 ^ 24 := by
      rw [Nat.floor_lt (by positivity)]
      norm_num
      linarith
    have e : someLog2 (.fin false n hn) =
        .fin false (⌊Real.logb 2 (realOf (.fin false n hn)) * 2 ^ 17⌋₊ * 2 ^ 132) (trunc_rep17 hk) := by
      have h0 : n ≠ 0 := by have := Nat.two_pow_pos 149; omega
      rw [someLog2, if_neg h0, if_neg Bool.false_ne_true, if_neg (by omega), dif_pos hk]
    rw [e]
    refine ⟨rfl, ?_, hL0⟩
    rw [valueOf_fin, show b32.scale = 149 from rfl, Nat.cast_mul, Nat.cast_pow, Nat.cast_ofNat]
    simp only [sgn, Bool.false_eq_true, if_false, one_mul]
    rw [div_eq_div_iff (by norm_num) (by norm_num), mul_assoc]
    norm_num

theorem someLibm_log2 : AccurateLog2 someLibm where
  nan := rfl
  infinite := rfl
  negative := ⟨rfl, fun n h h0 => by rw [show someLibm.log2 = someLog2 from rfl, someLog2, if_neg h0, if_pos rfl]⟩
  zero s h := by rw [show someLibm.log2 = someLog2 from rfl, someLog2, if_pos rfl]
  below_one := by
    intro x hx h0 h1
    obtain ⟨s, n, hn, rfl⟩ := finite_cases hx
    cases s with
    | true =>
      rw [valueOf_fin] at h0
      simp only [sgn, if_true] at h0
      have : (0 : ℚ) ≤ (n : ℚ) / 2 ^ b32.scale := by positivity
      linarith
    | false =>
      rw [valueOf_fin, show b32.scale = 149 from rfl] at h0 h1
      simp only [sgn, Bool.false_eq_true, if_false, one_mul] at h0 h1
      have hlt : n < 2 ^ 149 := by
        rw [div_lt_one (by positivity)] at h1
        exact_mod_cast h1
      have hn0 : n ≠ 0 := by
        rintro rfl
        norm_num at h0
      have e : someLibm.log2 (.fin false n hn) = zeroV := by
        rw [show someLibm.log2 = someLog2 from rfl, someLog2, if_neg hn0, if_neg Bool.false_ne_true, if_pos hlt]
      rw [e]
      refine ⟨rfl, ?_⟩
      rw [zeroV, valueOf_fin]
      simp
  near := by
    intro x hx h1
    obtain ⟨a, b, c⟩ := someLog2_value hx h1
    have h2 := Nat.floor_le (show 0 ≤ Real.logb 2 (realOf x) * 2 ^ 17 by positivity)
    have h3 := Nat.lt_floor_add_one (Real.logb 2 (realOf x) * 2 ^ 17)
    refine ⟨a, ?_, ?_⟩
    · show 0 ≤ valueOf (someLog2 x)
      rw [b]; positivity
    · show |realOf (someLog2 x) - _| ≤ _
      rw [realOf, b]
      push_cast
      generalize ((⌊Real.logb 2 (realOf x) * 2 ^ 17⌋₊ : Nat) : ℝ) = k at *
      rw [abs_le]
      norm_num at *
      constructor <;> linarith
  power := by
    intro x hx k hk
    obtain ⟨a, b, c⟩ := someLog2_value hx (by rw [hk]; exact one_le_pow₀ (by norm_num))
    show valueOf (someLog2 x) = k
    have hr : realOf x = (2 : ℝ) ^ (k : ℝ) := by rw [realOf, hk, Real.rpow_natCast]; push_cast; rfl
    rw [b, hr, Real.logb_rpow (by norm_num) (by norm_num),
      show ((k : ℝ) * 2 ^ 17) = ((k * 2 ^ 17 : ℕ) : ℝ) by push_cast; ring, Nat.floor_natCast]
    push_cast
    field_simp
    norm_num

end Tmf.Ieee
