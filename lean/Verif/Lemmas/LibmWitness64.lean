import Verif.Lemmas.DoubleNormal
/-
An f64 libm as the properties of normals assume it exists: truncation of the exact values to 50 binary places.
-/

set_option exponentiation.threshold 2500

namespace Tmf.Ieee.Double
open Spec

theorem trunc_rep50 {n : Nat} (h : n < 2 ^ 53) : b64.Rep (n * 2 ^ 1024) := by
  refine (rep_iff b64 (by decide)).mpr ⟨⟨n, 1024, h, rfl⟩, ?_⟩
  have h1 : n * 2 ^ 1024 ≤ 2 ^ 53 * 2 ^ 1024 := Nat.mul_le_mul_right _ h.le
  exact le_trans h1 (by decide +kernel)

/-- A number with at most 50 binary places, toward zero. -/
noncomputable def toPlaces (r : ℝ) : Val b64 :=
  if h : ⌊|r| * 2 ^ 50⌋₊ < 2 ^ 53 then .fin (@decide (r < 0) (Classical.propDecidable _)) (⌊|r| * 2 ^ 50⌋₊ * 2 ^ 1024) (trunc_rep50 h)
  else .nan

theorem toPlaces_value {r : ℝ} (hr : |r| ≤ 2) : isFinite (toPlaces r) = true ∧ |realOf (toPlaces r) - r| ≤ 1 / 2 ^ 50 ∧
    (0 ≤ r → valueOf (toPlaces r) = (⌊r * 2 ^ 50⌋₊ : ℚ) / 2 ^ 50) := by
  have hk : ⌊|r| * 2 ^ 50⌋₊ < 2 ^ 53 := by
    rw [Nat.floor_lt (by positivity)]
    have : |r| * 2 ^ 50 ≤ 2 * 2 ^ 50 := mul_le_mul_of_nonneg_right hr (by norm_num)
    norm_num at *
    linarith
  have h1 := Nat.floor_le (show 0 ≤ |r| * 2 ^ 50 by positivity)
  have h2 := Nat.lt_floor_add_one (|r| * 2 ^ 50)
  rw [toPlaces, dif_pos hk]
  have hv : ∀ s, valueOf (.fin s (⌊|r| * 2 ^ 50⌋₊ * 2 ^ 1024) (trunc_rep50 hk) : Val b64) = sgn s * ((⌊|r| * 2 ^ 50⌋₊ : ℚ) / 2 ^ 50) := by
    intro s
    rw [valueOf_fin, show b64.scale = 1074 from rfl, Nat.cast_mul, Nat.cast_pow, Nat.cast_ofNat]
    congr 1
    rw [div_eq_div_iff (by norm_num) (by norm_num), mul_assoc]
    norm_num
  refine ⟨rfl, ?_, ?_⟩
  · rw [realOf, hv]
    rcases lt_or_ge r 0 with hneg | hnn
    · rw [decide_eq_true hneg]
      simp only [sgn, if_true]
      push_cast
      rw [abs_of_neg hneg] at *
      generalize ((⌊-r * 2 ^ 50⌋₊ : Nat) : ℝ) = k at *
      rw [abs_le]
      norm_num at *
      constructor <;> linarith
    · rw [decide_eq_false (not_lt.mpr hnn)]
      simp only [sgn, Bool.false_eq_true, if_false]
      push_cast
      rw [abs_of_nonneg hnn] at *
      generalize ((⌊r * 2 ^ 50⌋₊ : Nat) : ℝ) = k at *
      rw [abs_le]
      norm_num at *
      constructor <;> linarith
  · intro hnn
    rw [hv, decide_eq_false (not_lt.mpr hnn)]
    simp only [sgn, Bool.false_eq_true, if_false, one_mul]
    rw [abs_of_nonneg hnn]

/-- Such a libm, with any logarithm. -/
noncomputable def someLibm (log2 : Val b64 → Val b64) : Libm64 where
  log2 := log2
  sin x := toPlaces (Real.sin (realOf x))
  cos x := toPlaces (Real.cos (realOf x))
  asin x := toPlaces (Real.arcsin (realOf x))

theorem someLibm_accurate (log2 : Val b64 → Val b64) : AccurateLibm64 (someLibm log2) where
  sin_near := by
    intro x hx h0 h2
    have hr0 : 0 ≤ realOf x := by rw [realOf]; exact_mod_cast h0
    have hr2 : realOf x ≤ 2 := by rw [realOf]; exact_mod_cast h2
    obtain ⟨a, b, c⟩ := toPlaces_value (r := Real.sin (realOf x)) (le_trans (Real.abs_sin_le_one _) (by norm_num))
    refine ⟨a, b, ?_⟩
    show 0 ≤ valueOf (toPlaces _)
    rw [c (Real.sin_nonneg_of_nonneg_of_le_pi hr0 (by linarith [Real.pi_gt_three]))]
    positivity
  cos_near := by
    intro x hx h0 h2
    obtain ⟨a, b, c⟩ := toPlaces_value (r := Real.cos (realOf x)) (le_trans (Real.abs_cos_le_one _) (by norm_num))
    refine ⟨a, b, fun h => ?_⟩
    show 0 ≤ valueOf (toPlaces _)
    rw [c h]
    positivity
  asin_near := by
    intro x hx
    obtain ⟨hf, h0, h1⟩ := hx
    have hr0 : 0 ≤ realOf x := by rw [realOf]; exact_mod_cast h0
    have hle := Real.arcsin_le_pi_div_two (realOf x)
    have hnn := Real.arcsin_nonneg.mpr hr0
    have hpi := Real.pi_lt_d20
    obtain ⟨a, b, c⟩ := toPlaces_value (r := Real.arcsin (realOf x)) (by
      rw [abs_of_nonneg hnn]; norm_num at hpi; linarith)
    refine ⟨a, b, ?_, ?_⟩
    · show 0 ≤ valueOf (toPlaces _)
      rw [c hnn]
      positivity
    · show valueOf (toPlaces _) ≤ _
      rw [c hnn, halfPi_value.2]
      have hfl : ⌊Real.arcsin (realOf x) * 2 ^ 50⌋₊ < 1768559438007111 := by
        rw [Nat.floor_lt (by positivity)]
        norm_num at hpi ⊢
        linarith
      have : ((⌊Real.arcsin (realOf x) * 2 ^ 50⌋₊ : Nat) : ℚ) ≤ ((1768559438007110 : Nat) : ℚ) := Nat.cast_le.mpr (by omega)
      generalize ((⌊Real.arcsin (realOf x) * 2 ^ 50⌋₊ : Nat) : ℚ) = k at this
      norm_num at this ⊢
      linarith

end Tmf.Ieee.Double
