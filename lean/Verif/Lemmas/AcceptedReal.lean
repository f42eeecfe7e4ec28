import Verif.Lemmas.NormalReal
/-
The encoding of directions that are not quite of length 1, over the real numbers.
-/

namespace Tmf.Geometry
open Spec

/-- `around_axis` for directions of squared length up to `1 + 1/400`. -/
theorem around_axis_long {X Y R q : ℝ} (hX : 0 ≤ X) (hY : 0 ≤ Y) (hR : 0 ≤ R) (hRR : R ^ 2 = X ^ 2 + Y ^ 2) (hR1 : R ^ 2 ≤ 1 + 1 / 400)
    (hq0 : 0 ≤ q) (hq1 : q ≤ 1) (hq : |q * R - X| ≤ 1 / 2 ^ 21 * R) :
    (X - R * Real.sin (Real.arcsin q)) ^ 2 + (Y - R * Real.cos (Real.arcsin q)) ^ 2 ≤ (101 / 100000) ^ 2 := by
  have h := around_axis (X := 100 / 101 * X) (Y := 100 / 101 * Y) (R := 100 / 101 * R) (q := q) (by positivity) (by positivity)
    (by positivity) (by linear_combination (100 / 101) ^ 2 * hRR) (by rw [mul_pow]; norm_num; linarith) hq0 hq1 (by
      have e : q * (100 / 101 * R) - 100 / 101 * X = 100 / 101 * (q * R - X) := by ring
      rw [e, abs_mul, abs_of_pos (by norm_num : (0 : ℝ) < 100 / 101)]
      linarith)
  have e : (100 / 101 * X - 100 / 101 * R * Real.sin (Real.arcsin q)) ^ 2 + (100 / 101 * Y - 100 / 101 * R * Real.cos (Real.arcsin q)) ^ 2 =
      (100 / 101) ^ 2 * ((X - R * Real.sin (Real.arcsin q)) ^ 2 + (Y - R * Real.cos (Real.arcsin q)) ^ 2) := by ring
  rw [e] at h
  norm_num at *
  linarith

/-- The step along the meridian. -/
theorem meridian_long {R Z m z h e : ℝ} (hR : 0 ≤ R) (hm : 0 ≤ m) (hzZ : z ≤ Z) (hZ : Z ≤ 1 + 1 / 800) (hh : Z - z ≤ h)
    (h1 : |R ^ 2 - m ^ 2| ≤ (Z ^ 2 - z ^ 2) + e) : (R - m) ^ 2 + (Z - z) ^ 2 ≤ (2 + 1 / 400) * h + e := by
  have h3 := sq_sub_le hR hm
  have h5 : Z * (Z - z) ≤ (1 + 1 / 800) * h := mul_le_mul hZ hh (by linarith) (by norm_num)
  nlinarith

/-- The same in the half of the sphere nearer to the equator. -/
theorem meridian_equator_long {R Z m z h : ℝ} (hR : 0 ≤ R) (hm : 0 ≤ m) (hz : 0 ≤ z) (hzZ : z ≤ Z) (hZ : Z ^ 2 ≤ 1 / 2) (hh : Z - z ≤ h)
    (h1 : |R ^ 2 + Z ^ 2 - 1| ≤ 1 / 400) (h2 : |m ^ 2 + z ^ 2 - 1| ≤ 1 / 2 ^ 20) :
    |R - m| ≤ 1002 / 1000 * h + 179 / 100000 := by
  have hz2 : z ^ 2 ≤ 1 / 2 := le_trans (pow_le_pow_left₀ hz hzZ 2) hZ
  have hR1 : 7053 / 10000 ≤ R := by
    rw [abs_le] at h1
    by_contra hc
    push Not at hc
    have : R ^ 2 ≤ (7053 / 10000) ^ 2 := pow_le_pow_left₀ hR hc.le 2
    norm_num at *
    linarith
  have hm1 : 7071 / 10000 ≤ m := by
    rw [abs_le] at h2
    by_contra hc
    push Not at hc
    have : m ^ 2 ≤ (7071 / 10000) ^ 2 := pow_le_pow_left₀ hm hc.le 2
    norm_num at *
    linarith
  have hZ1 : Z ≤ 70711 / 100000 := by
    by_contra hc
    push Not at hc
    have : (70711 / 100000 : ℝ) ^ 2 ≤ Z ^ 2 := pow_le_pow_left₀ (by norm_num) hc.le 2
    norm_num at *
    linarith
  have h4 : |R ^ 2 - m ^ 2| ≤ (Z - z) * (2 * (70711 / 100000)) + 2502 / 1000000 := by
    have h6 : (Z - z) * (Z + z) ≤ (Z - z) * (2 * (70711 / 100000)) := mul_le_mul_of_nonneg_left (by linarith) (by linarith)
    have h7 : 0 ≤ (Z - z) * (Z + z) := mul_nonneg (by linarith) (by linarith)
    have e : (Z - z) * (Z + z) = Z ^ 2 - z ^ 2 := by ring
    rw [e] at h6 h7
    rw [abs_le] at *
    norm_num at *
    constructor <;> linarith
  have e : R ^ 2 - m ^ 2 = (R - m) * (R + m) := by ring
  rw [e, abs_mul, abs_of_nonneg (by linarith : 0 ≤ R + m)] at h4
  have h5 : |R - m| * (14124 / 10000) ≤ |R - m| * (R + m) := mul_le_mul_of_nonneg_left (by linarith) (abs_nonneg _)
  linarith

/-- The distance of a direction of squared length `1 ± 1/400` from its encoding. -/
theorem direction_near_long {X Y Z R A t S C m x y z h : ℝ} (hR : 0 ≤ R) (hm : 0 ≤ m)
    (h1 : |R ^ 2 + Z ^ 2 - 1| ≤ 1 / 400) (h2 : |m ^ 2 + z ^ 2 - 1| ≤ 1 / 2 ^ 20)
    (hz : 0 ≤ z) (hzZ : z ≤ Z) (hZ : Z ≤ 1 + 1 / 800) (hh : Z - z ≤ h) (hh0 : 0 ≤ h) (hh1 : h ≤ 1)
    (hA : (X - R * Real.sin A) ^ 2 + (Y - R * Real.cos A) ^ 2 ≤ (101 / 100000) ^ 2)
    (ht : |t - A| ≤ 1.5708 * h + 1 / 2 ^ 21)
    (hS : |S - Real.sin t| ≤ 1 / 2 ^ 22) (hC : |C - Real.cos t| ≤ 1 / 2 ^ 22)
    (hx : |x - S * m| ≤ 1 / 2 ^ 22) (hy : |y - C * m| ≤ 1 / 2 ^ 22) :
    length3 (X - x) (Y - y) (Z - z) ≤ √(2 * h + 5 / 2 * h ^ 2 + 1 / 380) + 1 / 2 ^ 8 ∧
    (Z ^ 2 ≤ 1 / 2 → length3 (X - x) (Y - y) (Z - z) ≤ 17 / 8 * h + 1 / 2 ^ 8) := by
  have hRle : R ^ 2 ≤ 1 + 1 / 400 := by rw [abs_le] at h1; nlinarith
  have hmle : m ^ 2 ≤ 1 + 1 / 2 ^ 20 := by rw [abs_le] at h2; nlinarith
  have hm2 : m ≤ 2 := by nlinarith
  have hRm : R * m ≤ 1 + 13 / 10000 := by
    have := sq_nonneg (R - m)
    norm_num at *
    nlinarith
  have hRm0 : 0 ≤ R * m := mul_nonneg hR hm
  have hL : length3 (X - x) (Y - y) (Z - z) ≤
      length3 (R * Real.sin A - m * Real.sin t) (R * Real.cos A - m * Real.cos t) (Z - z) + 101 / 100000 + 1 / 2 ^ 18 := by
    have a1 := length3_add (R * Real.sin A - m * Real.sin t) (R * Real.cos A - m * Real.cos t) (Z - z)
      (X - R * Real.sin A) (Y - R * Real.cos A) 0
    have a2 := length3_add (R * Real.sin A - m * Real.sin t + (X - R * Real.sin A))
      (R * Real.cos A - m * Real.cos t + (Y - R * Real.cos A)) (Z - z + 0) (m * Real.sin t - x) (m * Real.cos t - y) 0
    have e1 : R * Real.sin A - m * Real.sin t + (X - R * Real.sin A) + (m * Real.sin t - x) = X - x := by ring
    have e2 : R * Real.cos A - m * Real.cos t + (Y - R * Real.cos A) + (m * Real.cos t - y) = Y - y := by ring
    have e3 : Z - z + 0 + 0 = Z - z := by ring
    rw [e1, e2, e3] at a2
    have b1 : length3 (X - R * Real.sin A) (Y - R * Real.cos A) 0 ≤ 101 / 100000 :=
      length3_le (by norm_num) (by linarith)
    have b2 : length3 (m * Real.sin t - x) (m * Real.cos t - y) 0 ≤ 1 / 2 ^ 18 := by
      refine length3_le (by norm_num) ?_
      have c1 := pow_le_pow_left₀ (abs_nonneg _) (component_error hm hm2 hS hx) 2
      have c2 := pow_le_pow_left₀ (abs_nonneg _) (component_error hm hm2 hC hy) 2
      rw [sq_abs] at c1 c2
      have : (2 * ((1 : ℝ) / 2 ^ 22) + 1 / 2 ^ 22) ^ 2 + (2 * (1 / 2 ^ 22) + 1 / 2 ^ 22) ^ 2 ≤ (1 / 2 ^ 18) ^ 2 := by norm_num
      linarith
    linarith
  have hat : (R * Real.sin A - m * Real.sin t) ^ 2 + (R * Real.cos A - m * Real.cos t) ^ 2 + (Z - z) ^ 2 ≤
      (R - m) ^ 2 + (Z - z) ^ 2 + (2471 / 1000 * h ^ 2 + 1 / 2 ^ 19) := by
    rw [two_steps (Real.sin_sq_add_cos_sq A) (Real.sin_sq_add_cos_sq t)]
    have a1 := circle_le A t
    have a2 : (A - t) ^ 2 ≤ (1.5708 * h + 1 / 2 ^ 21) ^ 2 := by
      rw [← sq_abs, abs_sub_comm]
      exact pow_le_pow_left₀ (abs_nonneg _) ht 2
    have a3 : R * m * ((Real.sin A - Real.sin t) ^ 2 + (Real.cos A - Real.cos t) ^ 2) ≤
        (1 + 13 / 10000) * (1.5708 * h + 1 / 2 ^ 21) ^ 2 :=
      mul_le_mul hRm (le_trans a1 a2) (by positivity) (by norm_num)
    have a4 : (1 + 13 / 10000) * (1.5708 * h + 1 / 2 ^ 21) ^ 2 ≤ 2471 / 1000 * h ^ 2 + 1 / 2 ^ 19 := by
      have e : (1 + 13 / 10000) * (1.5708 * h + 1 / 2 ^ 21) ^ 2 = (1 + 13 / 10000) * 1.5708 ^ 2 * h ^ 2 +
        (1 + 13 / 10000) * 2 * 1.5708 * (1 / 2 ^ 21) * h + (1 + 13 / 10000) * (1 / 2 ^ 21) ^ 2 := by ring
      rw [e]
      have hsq : 0 ≤ h ^ 2 := sq_nonneg h
      generalize h ^ 2 = H at *
      norm_num
      linarith
    linarith
  have hh2 : 0 ≤ h ^ 2 := sq_nonneg h
  constructor
  · have h4 : |R ^ 2 - m ^ 2| ≤ (Z ^ 2 - z ^ 2) + 2502 / 1000000 := by
      have h6 := pow_le_pow_left₀ hz hzZ 2
      rw [abs_le] at *
      norm_num at *
      constructor <;> linarith
    have b := meridian_long hR hm hzZ hZ hh h4
    have c : length3 (R * Real.sin A - m * Real.sin t) (R * Real.cos A - m * Real.cos t) (Z - z) ≤
        √(2 * h + 5 / 2 * h ^ 2 + 1 / 380) + 1 / 400 := by
      rw [length3]
      have d : (R * Real.sin A - m * Real.sin t) ^ 2 + (R * Real.cos A - m * Real.cos t) ^ 2 + (Z - z) ^ 2 ≤
          (2 * h + 5 / 2 * h ^ 2 + 1 / 380) + (1 / 400) ^ 2 := by
        have f : 1 / 400 * h ≤ 29 / 1000 * h ^ 2 + 6 / 100000 := by nlinarith [sq_nonneg (29 / 1000 * h - 1 / 800)]
        norm_num at *
        linarith
      refine le_trans (Real.sqrt_le_sqrt d) (le_trans (sqrt_add_le (by positivity) (by positivity)) ?_)
      rw [Real.sqrt_sq (by norm_num)]
    norm_num at *
    linarith
  · intro hZ2
    have b := meridian_equator_long hR hm hz hzZ hZ2 hh h1 h2
    have b2 : (R - m) ^ 2 ≤ (1002 / 1000 * h + 179 / 100000) ^ 2 := by
      rw [← sq_abs]
      exact pow_le_pow_left₀ (abs_nonneg _) b 2
    have b3 : (Z - z) ^ 2 ≤ h ^ 2 := pow_le_pow_left₀ (by linarith) hh 2
    have c : length3 (R * Real.sin A - m * Real.sin t) (R * Real.cos A - m * Real.cos t) (Z - z) ≤
        17 / 8 * h + 1 / 400 := by
      refine length3_le (by positivity) (le_trans hat ?_)
      have e : (17 / 8 * h + 1 / 400) ^ 2 = (17 / 8) ^ 2 * h ^ 2 + 2 * (17 / 8) * (1 / 400) * h + (1 / 400) ^ 2 := by ring
      have e' : (1002 / 1000 * h + 179 / 100000) ^ 2 = (1002 / 1000) ^ 2 * h ^ 2 + 2 * (1002 / 1000) * (179 / 100000) * h +
        (179 / 100000) ^ 2 := by ring
      rw [e]
      rw [e'] at b2
      generalize h ^ 2 = H at *
      norm_num at *
      linarith
    norm_num at *
    linarith

end Tmf.Geometry
