import Mathlib.Analysis.SpecialFunctions.Trigonometric.Inverse
import Mathlib.Analysis.SpecialFunctions.Trigonometric.Bounds
import Mathlib.Analysis.InnerProductSpace.PiL2
import Verif.Spec.Normals
/-
The geometry of the encoding of a direction, over the real numbers: a point of the unit sphere is
moved along its meridian by a step of `z` and around the axis by a step of the angle.
-/

namespace Tmf.Geometry
open Spec

theorem length3_add (a b c a' b' c' : ℝ) :
    length3 (a + a') (b + b') (c + c') ≤ length3 a b c + length3 a' b' c' := by
  have e : ∀ x y z : ℝ, length3 x y z = ‖(!₂[x, y, z] : EuclideanSpace ℝ (Fin 3))‖ := by
    intro x y z
    rw [EuclideanSpace.norm_eq, Fin.sum_univ_three, length3]
    simp [sq_abs]
  rw [e, e, e]
  have := norm_add_le (!₂[a, b, c] : EuclideanSpace ℝ (Fin 3)) !₂[a', b', c']
  refine le_trans (le_of_eq ?_) this
  congr 1
  ext i
  fin_cases i <;> simp

theorem length3_le {a b c r : ℝ} (hr : 0 ≤ r) (h : a ^ 2 + b ^ 2 + c ^ 2 ≤ r ^ 2) : length3 a b c ≤ r := by
  rw [length3]
  exact Real.sqrt_le_iff.mpr ⟨hr, h⟩

theorem sqrt_add_le {a b : ℝ} (ha : 0 ≤ a) (hb : 0 ≤ b) : √(a + b) ≤ √a + √b := by
  rw [Real.sqrt_le_iff]
  refine ⟨by positivity, ?_⟩
  have h1 := Real.sq_sqrt ha
  have h2 := Real.sq_sqrt hb
  have h3 : 0 ≤ √a * √b := by positivity
  nlinarith

/-- Two points of the unit circle. -/
theorem circle_le (A t : ℝ) : (Real.sin A - Real.sin t) ^ 2 + (Real.cos A - Real.cos t) ^ 2 ≤ (A - t) ^ 2 := by
  have h := Real.one_sub_sq_div_two_le_cos (x := A - t)
  rw [Real.cos_sub] at h
  have h1 := Real.sin_sq_add_cos_sq A
  have h2 := Real.sin_sq_add_cos_sq t
  nlinarith

theorem sq_sub_le {a b : ℝ} (ha : 0 ≤ a) (hb : 0 ≤ b) : (a - b) ^ 2 ≤ |a ^ 2 - b ^ 2| := by
  have e : a ^ 2 - b ^ 2 = (a - b) * (a + b) := by ring
  rw [e, abs_mul, abs_of_nonneg (show 0 ≤ a + b by linarith), ← sq_abs, sq]
  refine mul_le_mul_of_nonneg_left ?_ (abs_nonneg _)
  rw [abs_le]
  constructor <;> linarith

/-- The meridian step and the step around the axis. `R`, `Z` and `m`, `z` are the old and the new
distance from the axis and height; `(s, c)` and `(s', c')` the old and new directions around it. -/
theorem two_steps {R Z m z s c s' c' : ℝ} (hs : s ^ 2 + c ^ 2 = 1) (hs' : s' ^ 2 + c' ^ 2 = 1) :
    (R * s - m * s') ^ 2 + (R * c - m * c') ^ 2 + (Z - z) ^ 2 =
      (R - m) ^ 2 + R * m * ((s - s') ^ 2 + (c - c') ^ 2) + (Z - z) ^ 2 := by
  linear_combination (R ^ 2 - R * m) * hs + (m ^ 2 - R * m) * hs'

/-- The step along the meridian, anywhere. -/
theorem meridian {R Z m z h ε : ℝ} (hR : 0 ≤ R) (hm : 0 ≤ m) (hz : 0 ≤ z) (hzZ : z ≤ Z) (hZ : Z ≤ 1) (hh : Z - z ≤ h)
    (h1 : |R ^ 2 + Z ^ 2 - 1| ≤ ε) (h2 : |m ^ 2 + z ^ 2 - 1| ≤ ε) : (R - m) ^ 2 + (Z - z) ^ 2 ≤ 2 * h + 2 * ε := by
  have h3 := sq_sub_le hR hm
  have h4 : |R ^ 2 - m ^ 2| ≤ (Z ^ 2 - z ^ 2) + 2 * ε := by
    rw [abs_le] at h1 h2 ⊢
    have : z ^ 2 ≤ Z ^ 2 := by nlinarith
    constructor <;> linarith
  nlinarith

/-- The step along the meridian in the half of the sphere nearer to the equator. -/
theorem meridian_equator {R Z m z h ε : ℝ} (hR : 0 ≤ R) (hm : 0 ≤ m) (hz : 0 ≤ z) (hzZ : z ≤ Z) (hZ : Z ^ 2 ≤ 1 / 2)
    (hh : Z - z ≤ h) (hε : 0 ≤ ε) (hε1 : ε ≤ 1 / 2 ^ 10) (hh1 : h ≤ 1) (h1 : |R ^ 2 + Z ^ 2 - 1| ≤ ε) (h2 : |m ^ 2 + z ^ 2 - 1| ≤ ε) :
    (R - m) ^ 2 + (Z - z) ^ 2 ≤ (2 + 1 / 100) * h ^ 2 + 5 * ε := by
  obtain ⟨d, hd⟩ : ∃ d, d = Z - z := ⟨_, rfl⟩
  have hd0 : 0 ≤ d := by linarith
  have hdh : d ≤ h := by linarith
  have h4 : |R ^ 2 - m ^ 2| ≤ 2 * d * Z + 2 * ε := by
    rw [abs_le] at h1 h2 ⊢
    have : Z ^ 2 - z ^ 2 = d * (2 * Z - d) := by rw [hd]; ring
    have h3 : d * (2 * Z - d) ≤ 2 * d * Z := by nlinarith
    have h5 : 0 ≤ d * (2 * Z - d) := mul_nonneg hd0 (by linarith)
    constructor <;> linarith
  have hlow : (1 / 2 - ε) ≤ R ^ 2 := by rw [abs_le] at h1; linarith
  have hlow' : (1 / 2 - ε) ≤ m ^ 2 := by
    rw [abs_le] at h2
    have : z ^ 2 ≤ Z ^ 2 := by nlinarith
    linarith
  have hsum : 4 * (1 / 2 - ε) ≤ (R + m) ^ 2 := by
    have hRm : (1 / 2 - ε) ≤ R * m := by
      have : (1 / 2 - ε) * (1 / 2 - ε) ≤ (R * m) * (R * m) := by
        have := mul_le_mul hlow hlow' (by linarith) (by positivity)
        nlinarith
      by_contra hc
      push Not at hc
      exact absurd this (not_le.mpr (mul_self_lt_mul_self (by positivity) hc))
    nlinarith
  have hprod : (R - m) ^ 2 * (R + m) ^ 2 ≤ (2 * d * Z + 2 * ε) ^ 2 := by
    have e : (R - m) ^ 2 * (R + m) ^ 2 = |R ^ 2 - m ^ 2| ^ 2 := by rw [sq_abs]; ring
    rw [e]
    exact pow_le_pow_left₀ (abs_nonneg _) h4 2
  have hZ1 : Z ≤ 1 := by nlinarith
  have hd1 : d ≤ 1 := by linarith
  have hbound : (2 * d * Z + 2 * ε) ^ 2 ≤ 2 * d ^ 2 + 9 * ε := by
    have a1 : d ^ 2 * Z ^ 2 ≤ d ^ 2 * (1 / 2) := mul_le_mul_of_nonneg_left hZ (by positivity)
    have a2 : d * Z ≤ 1 := by nlinarith
    have a3 : ε * (d * Z) ≤ ε * 1 := mul_le_mul_of_nonneg_left a2 hε
    have a4 : ε * ε ≤ ε * (1 / 2 ^ 10) := mul_le_mul_of_nonneg_left hε1 hε
    nlinarith
  have hfin : (R - m) ^ 2 * (4 * (1 / 2 - ε)) ≤ 2 * d ^ 2 + 9 * ε :=
    le_trans (mul_le_mul_of_nonneg_left hsum (sq_nonneg _)) (le_trans hprod hbound)
  have hdd : d ^ 2 ≤ h ^ 2 := pow_le_pow_left₀ hd0 hdh 2
  rw [← hd]
  have hb : (R - m) ^ 2 * (2 - 4 / 2 ^ 10) ≤ (R - m) ^ 2 * (4 * (1 / 2 - ε)) := by
    refine mul_le_mul_of_nonneg_left ?_ (sq_nonneg _)
    linarith
  have hD0 : 0 ≤ d ^ 2 := sq_nonneg d
  generalize (R - m) ^ 2 = q at *
  generalize d ^ 2 = D at *
  generalize h ^ 2 = H at *
  norm_num at hb
  linarith

/-- Components computed with a little error. -/
theorem component_error {m S s x e1 e2 : ℝ} (hm : 0 ≤ m) (hm1 : m ≤ 2) (h1 : |S - s| ≤ e1) (h2 : |x - S * m| ≤ e2) :
    |m * s - x| ≤ 2 * e1 + e2 := by
  have e : m * s - x = -(x - S * m) - m * (S - s) := by ring
  rw [e]
  have := abs_sub (-(x - S * m)) (m * (S - s))
  rw [abs_neg, abs_mul, abs_of_nonneg hm] at this
  have h3 : m * |S - s| ≤ 2 * e1 := mul_le_mul hm1 h1 (abs_nonneg _) (by norm_num)
  linarith

/-- The angle of the old direction around the axis, as the encoder computes it from `q`, which is
`X / R` up to rounding. -/
theorem around_axis {X Y R q : ℝ} (hX : 0 ≤ X) (hY : 0 ≤ Y) (hR : 0 ≤ R) (hRR : R ^ 2 = X ^ 2 + Y ^ 2) (hR1 : R ^ 2 ≤ 1 + 1 / 2 ^ 20)
    (hq0 : 0 ≤ q) (hq1 : q ≤ 1) (hq : |q * R - X| ≤ 1 / 2 ^ 21 * R) :
    (X - R * Real.sin (Real.arcsin q)) ^ 2 + (Y - R * Real.cos (Real.arcsin q)) ^ 2 ≤ (1 / 1000) ^ 2 := by
  rw [Real.sin_arcsin (by linarith) hq1]
  have hc0 : 0 ≤ Real.cos (Real.arcsin q) := Real.cos_arcsin_nonneg q
  have hc : Real.cos (Real.arcsin q) ^ 2 = 1 - q ^ 2 := by
    rw [Real.cos_arcsin, Real.sq_sqrt (by nlinarith)]
  generalize Real.cos (Real.arcsin q) = c at *
  have h1 : (X - R * q) ^ 2 ≤ (1 / 2 ^ 21 * R) ^ 2 := by
    rw [← sq_abs, abs_sub_comm, mul_comm R q]
    exact pow_le_pow_left₀ (abs_nonneg _) hq 2
  have h2 := sq_sub_le hY (mul_nonneg hR hc0)
  have hXR : X ≤ R := by nlinarith
  have h3 : |Y ^ 2 - (R * c) ^ 2| ≤ 1 / 2 ^ 21 * R * (2 * R) := by
    have e : Y ^ 2 - (R * c) ^ 2 = (q * R - X) * (q * R + X) := by rw [mul_pow, hc]; linear_combination -hRR
    rw [e, abs_mul, abs_of_nonneg (show 0 ≤ q * R + X by positivity)]
    exact mul_le_mul hq (by nlinarith) (by positivity) (by positivity)
  have e : (1 / 2 ^ 21 * R) ^ 2 + 1 / 2 ^ 21 * R * (2 * R) = (1 / 2 ^ 42 + 1 / 2 ^ 20) * R ^ 2 := by ring
  have h4 : (1 / 2 ^ 42 + 1 / 2 ^ 20) * R ^ 2 ≤ (1 / 2 ^ 42 + 1 / 2 ^ 20) * (1 + 1 / 2 ^ 20) :=
    mul_le_mul_of_nonneg_left hR1 (by norm_num)
  have h5 : ((1 : ℝ) / 2 ^ 42 + 1 / 2 ^ 20) * (1 + 1 / 2 ^ 20) ≤ (1 / 1000) ^ 2 := by norm_num
  linarith

/-- Near the axis the angle does not matter. -/
theorem near_axis {X Y R t : ℝ} (hRR : R ^ 2 = X ^ 2 + Y ^ 2) (hR1 : R ^ 2 ≤ 1 / 2 ^ 40) :
    (X - R * Real.sin t) ^ 2 + (Y - R * Real.cos t) ^ 2 ≤ (1 / 1000) ^ 2 := by
  have h := Real.sin_sq_add_cos_sq t
  have e : (X - R * Real.sin t) ^ 2 + (Y - R * Real.cos t) ^ 2 ≤
      2 * (X ^ 2 + Y ^ 2) + 2 * (R ^ 2 * (Real.sin t ^ 2 + Real.cos t ^ 2)) := by
    nlinarith [sq_nonneg (X + R * Real.sin t), sq_nonneg (Y + R * Real.cos t)]
  rw [h, ← hRR, mul_one] at e
  have : (4 : ℝ) * (1 / 2 ^ 40) ≤ (1 / 1000) ^ 2 := by norm_num
  linarith

/-- The distance of a direction from its encoding. -/
theorem direction_near {X Y Z R A t S C m x y z h : ℝ} (hR : 0 ≤ R) (hm : 0 ≤ m)
    (h1 : |R ^ 2 + Z ^ 2 - 1| ≤ 1 / 2 ^ 20) (h2 : |m ^ 2 + z ^ 2 - 1| ≤ 1 / 2 ^ 20)
    (hz : 0 ≤ z) (hzZ : z ≤ Z) (hZ : Z ≤ 1) (hh : Z - z ≤ h) (hh0 : 0 ≤ h) (hh1 : h ≤ 1)
    (hA : (X - R * Real.sin A) ^ 2 + (Y - R * Real.cos A) ^ 2 ≤ (1 / 1000) ^ 2)
    (ht : |t - A| ≤ 1.5708 * h + 1 / 2 ^ 21)
    (hS : |S - Real.sin t| ≤ 1 / 2 ^ 22) (hC : |C - Real.cos t| ≤ 1 / 2 ^ 22)
    (hx : |x - S * m| ≤ 1 / 2 ^ 22) (hy : |y - C * m| ≤ 1 / 2 ^ 22) :
    length3 (X - x) (Y - y) (Z - z) ≤ √(2 * h + 5 / 2 * h ^ 2) + 1 / 2 ^ 8 ∧
    (Z ^ 2 ≤ 1 / 2 → length3 (X - x) (Y - y) (Z - z) ≤ 17 / 8 * h + 1 / 2 ^ 8) := by
  have hRle : R ^ 2 ≤ 1 + 1 / 2 ^ 20 := by rw [abs_le] at h1; nlinarith
  have hmle : m ^ 2 ≤ 1 + 1 / 2 ^ 20 := by rw [abs_le] at h2; nlinarith
  have hm2 : m ≤ 2 := by nlinarith
  have hRm : R * m ≤ 1 + 1 / 2 ^ 20 := by nlinarith [sq_nonneg (R - m)]
  have hRm0 : 0 ≤ R * m := mul_nonneg hR hm
  have hL : length3 (X - x) (Y - y) (Z - z) ≤
      length3 (R * Real.sin A - m * Real.sin t) (R * Real.cos A - m * Real.cos t) (Z - z) + 1 / 1000 + 1 / 2 ^ 18 := by
    have a1 := length3_add (R * Real.sin A - m * Real.sin t) (R * Real.cos A - m * Real.cos t) (Z - z)
      (X - R * Real.sin A) (Y - R * Real.cos A) 0
    have a2 := length3_add (R * Real.sin A - m * Real.sin t + (X - R * Real.sin A))
      (R * Real.cos A - m * Real.cos t + (Y - R * Real.cos A)) (Z - z + 0) (m * Real.sin t - x) (m * Real.cos t - y) 0
    have e1 : R * Real.sin A - m * Real.sin t + (X - R * Real.sin A) + (m * Real.sin t - x) = X - x := by ring
    have e2 : R * Real.cos A - m * Real.cos t + (Y - R * Real.cos A) + (m * Real.cos t - y) = Y - y := by ring
    have e3 : Z - z + 0 + 0 = Z - z := by ring
    rw [e1, e2, e3] at a2
    have b1 : length3 (X - R * Real.sin A) (Y - R * Real.cos A) 0 ≤ 1 / 1000 :=
      length3_le (by norm_num) (by linarith)
    have b2 : length3 (m * Real.sin t - x) (m * Real.cos t - y) 0 ≤ 1 / 2 ^ 18 := by
      refine length3_le (by norm_num) ?_
      have c1 := pow_le_pow_left₀ (abs_nonneg _) (component_error hm hm2 hS hx) 2
      have c2 := pow_le_pow_left₀ (abs_nonneg _) (component_error hm hm2 hC hy) 2
      rw [sq_abs] at c1 c2
      have : (2 * ((1 : ℝ) / 2 ^ 22) + 1 / 2 ^ 22) ^ 2 + (2 * (1 / 2 ^ 22) + 1 / 2 ^ 22) ^ 2 ≤ (1 / 2 ^ 18) ^ 2 := by norm_num
      linarith
    linarith
  have hat : (R * Real.sin A - m * Real.sin t) ^ 2 + (R * Real.cos A - m * Real.cos t) ^ 2 + (Z - z) ^ 2 ≤
      (R - m) ^ 2 + (Z - z) ^ 2 + (247 / 100 * h ^ 2 + 1 / 2 ^ 19) := by
    rw [two_steps (Real.sin_sq_add_cos_sq A) (Real.sin_sq_add_cos_sq t)]
    have a1 := circle_le A t
    have a2 : (A - t) ^ 2 ≤ (1.5708 * h + 1 / 2 ^ 21) ^ 2 := by
      rw [← sq_abs, abs_sub_comm]
      exact pow_le_pow_left₀ (abs_nonneg _) ht 2
    have a3 : R * m * ((Real.sin A - Real.sin t) ^ 2 + (Real.cos A - Real.cos t) ^ 2) ≤
        (1 + 1 / 2 ^ 20) * (1.5708 * h + 1 / 2 ^ 21) ^ 2 :=
      mul_le_mul hRm (le_trans a1 a2) (by positivity) (by norm_num)
    have a4 : (1 + 1 / 2 ^ 20) * (1.5708 * h + 1 / 2 ^ 21) ^ 2 ≤ 247 / 100 * h ^ 2 + 1 / 2 ^ 19 := by
      have e : (1 + 1 / 2 ^ 20) * (1.5708 * h + 1 / 2 ^ 21) ^ 2 = (1 + 1 / 2 ^ 20) * 1.5708 ^ 2 * h ^ 2 +
        (1 + 1 / 2 ^ 20) * 2 * 1.5708 * (1 / 2 ^ 21) * h + (1 + 1 / 2 ^ 20) * (1 / 2 ^ 21) ^ 2 := by ring
      rw [e]
      have hsq : 0 ≤ h ^ 2 := sq_nonneg h
      generalize h ^ 2 = H at *
      norm_num
      linarith
    linarith
  have hh2 : 0 ≤ h ^ 2 := sq_nonneg h
  constructor
  · have b := meridian hR hm hz hzZ hZ hh h1 h2
    have c : length3 (R * Real.sin A - m * Real.sin t) (R * Real.cos A - m * Real.cos t) (Z - z) ≤
        √(2 * h + 5 / 2 * h ^ 2) + 1 / 400 := by
      rw [length3]
      have d : (R * Real.sin A - m * Real.sin t) ^ 2 + (R * Real.cos A - m * Real.cos t) ^ 2 + (Z - z) ^ 2 ≤
          (2 * h + 5 / 2 * h ^ 2) + (1 / 400) ^ 2 := by
        have : 2 * ((1 : ℝ) / 2 ^ 20) + 1 / 2 ^ 19 ≤ (1 / 400) ^ 2 := by norm_num
        linarith
      refine le_trans (Real.sqrt_le_sqrt d) (le_trans (sqrt_add_le (by positivity) (by positivity)) ?_)
      rw [Real.sqrt_sq (by norm_num)]
    have : (1 : ℝ) / 400 + 1 / 1000 + 1 / 2 ^ 18 ≤ 1 / 2 ^ 8 := by norm_num
    linarith
  · intro hZ2
    have b := meridian_equator hR hm hz hzZ hZ2 hh (by norm_num) (by norm_num) hh1 h1 h2
    have c : length3 (R * Real.sin A - m * Real.sin t) (R * Real.cos A - m * Real.cos t) (Z - z) ≤
        17 / 8 * h + 1 / 350 := by
      refine length3_le (by positivity) ?_
      have e : (17 / 8 * h + 1 / 350) ^ 2 = (17 / 8) ^ 2 * h ^ 2 + 2 * (17 / 8) * (1 / 350) * h + (1 / 350) ^ 2 := by ring
      rw [e]
      generalize h ^ 2 = H at *
      have : 5 * ((1 : ℝ) / 2 ^ 20) + 1 / 2 ^ 19 ≤ (1 / 350) ^ 2 + 1 / 350 ^ 2 := by norm_num
      norm_num at *
      linarith
    have : (1 : ℝ) / 350 + 1 / 1000 + 1 / 2 ^ 18 ≤ 1 / 2 ^ 8 := by norm_num
    linarith

/-- The quotient `X / R` computed with a rounded `R`. -/
theorem axis_quotient_near {X R g q : ℝ} (hX : 0 ≤ X) (hXg : X ≤ g) (hR : 0 < R) (hg : 0 < g)
    (h : |g ^ 2 - R ^ 2| ≤ 7 / 2 ^ 24 * R ^ 2) (hq : |q - X / g| ≤ 1 / 2 ^ 24 * (X / g) + 1 / 2 ^ 150) :
    |q * R - X| ≤ 1 / 2 ^ 21 * R := by
  have hle : X / g ≤ 1 := (div_le_one hg).mpr hXg
  have hnn : 0 ≤ X / g := div_nonneg hX hg.le
  have hRg : |R - g| ≤ 6 / 2 ^ 24 * R := by
    by_contra hc
    push Not at hc
    have e : g ^ 2 - R ^ 2 = -((R - g) * (R + g)) := by ring
    rw [e, abs_neg, abs_mul, abs_of_pos (show 0 < R + g by linarith)] at h
    rcases le_total ((1 - 6 / 2 ^ 24) * R) g with h1 | h1
    · have : 6 / 2 ^ 24 * R * ((2 - 6 / 2 ^ 24) * R) ≤ |R - g| * (R + g) :=
        mul_le_mul hc.le (by linarith) (by norm_num; linarith) (abs_nonneg _)
      have hR2 : 0 < R ^ 2 := by positivity
      have e2 : 6 / 2 ^ 24 * R * ((2 - 6 / 2 ^ 24) * R) = (6 / 2 ^ 24 * (2 - 6 / 2 ^ 24)) * R ^ 2 := by ring
      rw [e2] at this
      generalize R ^ 2 = Q at *
      norm_num at *
      linarith
    · have h2 : g ^ 2 ≤ ((1 - 6 / 2 ^ 24) * R) ^ 2 := pow_le_pow_left₀ hg.le h1 2
      rw [mul_pow] at h2
      have hR2 : 0 < R ^ 2 := by positivity
      have h3 : |R - g| * (R + g) = R ^ 2 - g ^ 2 := by
        rw [abs_of_nonneg (by norm_num at h1; linarith)]; ring
      rw [h3] at h
      generalize R ^ 2 = Q at *
      generalize g ^ 2 = G at *
      norm_num at *
      linarith
  have e : q * R - X = (q - X / g) * R + X / g * (R - g) := by
    field_simp
    ring
  rw [e]
  refine le_trans (abs_add_le _ _) ?_
  rw [abs_mul, abs_mul, abs_of_pos hR, abs_of_nonneg hnn]
  have a1 : |q - X / g| * R ≤ (1 / 2 ^ 24 + 1 / 2 ^ 150) * R := by
    refine mul_le_mul_of_nonneg_right (le_trans hq ?_) hR.le
    linarith
  have a2 : X / g * |R - g| ≤ 1 * (6 / 2 ^ 24 * R) := mul_le_mul hle hRg (abs_nonneg _) (by norm_num)
  norm_num at *
  linarith

/-- The decoded vector has almost length 1. -/
theorem decoded_unit {t S C m x y z : ℝ} (hm : 0 ≤ m) (h2 : |m ^ 2 + z ^ 2 - 1| ≤ 1 / 2 ^ 21)
    (hS : |S - Real.sin t| ≤ 1 / 2 ^ 22) (hC : |C - Real.cos t| ≤ 1 / 2 ^ 22)
    (hx : |x - S * m| ≤ 1 / 2 ^ 22) (hy : |y - C * m| ≤ 1 / 2 ^ 22) : |x ^ 2 + y ^ 2 + z ^ 2 - 1| ≤ 1 / 2 ^ 18 := by
  have hmle : m ≤ 101 / 100 := by
    rw [abs_le] at h2
    have := h2.2
    norm_num at this
    nlinarith [sq_nonneg z]
  have hm2 : m ≤ 2 := by linarith
  have c1 := component_error hm hm2 hS hx
  have c2 := component_error hm hm2 hC hy
  have key : ∀ {s v : ℝ}, |s| ≤ 1 → |m * s - v| ≤ 2 * (1 / 2 ^ 22) + 1 / 2 ^ 22 → |v ^ 2 - m ^ 2 * s ^ 2| ≤ 7 / 2 ^ 22 := by
    intro s v hs h
    have hms : |m * s| ≤ 101 / 100 := by
      rw [abs_mul, abs_of_nonneg hm]
      exact le_trans (mul_le_mul hmle hs (abs_nonneg _) (by norm_num)) (by norm_num)
    have e : v ^ 2 - m ^ 2 * s ^ 2 = -(m * s - v) * (2 * (m * s) - (m * s - v)) := by ring
    rw [e, abs_mul, abs_neg]
    have h3 : |2 * (m * s) - (m * s - v)| ≤ 203 / 100 := by
      refine le_trans (abs_sub _ _) ?_
      rw [abs_mul, abs_of_pos (show (0 : ℝ) < 2 by norm_num)]
      norm_num at h
      linarith
    refine le_trans (mul_le_mul h h3 (abs_nonneg _) (by norm_num)) (by norm_num)
  have k1 := key (Real.abs_sin_le_one t) c1
  have k2 := key (Real.abs_cos_le_one t) c2
  have h := Real.sin_sq_add_cos_sq t
  have e : x ^ 2 + y ^ 2 + z ^ 2 - 1 = (x ^ 2 - m ^ 2 * Real.sin t ^ 2) + (y ^ 2 - m ^ 2 * Real.cos t ^ 2) + (m ^ 2 + z ^ 2 - 1) := by
    linear_combination m ^ 2 * h
  rw [e]
  generalize x ^ 2 - m ^ 2 * Real.sin t ^ 2 = a at *
  generalize y ^ 2 - m ^ 2 * Real.cos t ^ 2 = b at *
  generalize m ^ 2 + z ^ 2 - 1 = c at *
  rw [abs_le] at *
  have a1 := k1.1
  have a2 := k1.2
  have b1 := k2.1
  have b2 := k2.2
  have d1 := h2.1
  have d2 := h2.2
  norm_num at a1 a2 b1 b2 d1 d2 ⊢
  constructor <;> linarith

end Tmf.Geometry
