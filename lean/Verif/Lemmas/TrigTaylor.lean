import Mathlib.Analysis.Complex.Trigonometric
import Mathlib.Tactic.NormNum.NatFactorial
import Verif.Lemmas.PolyBound
/-
Sine and cosine on [0, 2] as polynomials with rational coefficients, up to `2^16/16! * 2`.
-/

namespace Tmf.PolyBound

def sinP : List ℚ := [0, 1, 0, -1 / 6, 0, 1 / 120, 0, -1 / 5040, 0, 1 / 362880, 0, -1 / 39916800, 0, 1 / 6227020800, 0,
  -1 / 1307674368000]

def cosP : List ℚ := [1, 0, -1 / 2, 0, 1 / 24, 0, -1 / 720, 0, 1 / 40320, 0, -1 / 3628800, 0, 1 / 479001600, 0,
  -1 / 87178291200, 0]

theorem taylor {t : ℝ} (h0 : 0 ≤ t) (h1 : t ≤ 8 / 5) :
    |Real.cos t - eval cosP t| ≤ 1 / 10 ^ 9 ∧ |Real.sin t - eval sinP t| ≤ 1 / 10 ^ 9 := by
  have hn : ‖(t : ℂ) * Complex.I‖ = t := by simp [abs_of_nonneg h0]
  have h := Complex.exp_bound' (x := (t : ℂ) * Complex.I) (n := 16) (by
    rw [hn]; norm_num; linarith)
  rw [hn] at h
  have hb : t ^ 16 / (Nat.factorial 16 : ℝ) * 2 ≤ 1 / 10 ^ 9 := by
    have : t ^ 16 ≤ (8 / 5) ^ 16 := pow_le_pow_left₀ h0 h1 16
    have hf : ((Nat.factorial 16 : ℕ) : ℝ) = 20922789888000 := by norm_num [Nat.factorial]
    rw [hf]
    norm_num at this ⊢
    linarith
  have h2 := le_trans h hb
  have e : (∑ m ∈ Finset.range 16, ((t : ℂ) * Complex.I) ^ m / (m.factorial : ℂ)) =
      ((eval cosP t : ℝ) : ℂ) + ((eval sinP t : ℝ) : ℂ) * Complex.I := by
    have I2 : Complex.I ^ 2 = -1 := Complex.I_sq
    simp only [Finset.sum_range_succ, Finset.sum_range_zero, eval, cosP, sinP, Nat.factorial]
    push_cast
    have i3 : Complex.I ^ 3 = -Complex.I := by rw [pow_succ, I2]; ring
    have i4 : Complex.I ^ 4 = 1 := by rw [show (4 : ℕ) = 2 * 2 from rfl, pow_mul, I2]; ring
    have i5 : Complex.I ^ 5 = Complex.I := by rw [pow_succ, i4]; ring
    have i6 : Complex.I ^ 6 = -1 := by rw [pow_succ, i5, ← sq, I2]
    have i7 : Complex.I ^ 7 = -Complex.I := by rw [pow_succ, i6]; ring
    have i8 : Complex.I ^ 8 = 1 := by rw [show (8 : ℕ) = 4 * 2 from rfl, pow_mul, i4]; ring
    have i9 : Complex.I ^ 9 = Complex.I := by rw [pow_succ, i8]; ring
    have i10 : Complex.I ^ 10 = -1 := by rw [pow_succ, i9, ← sq, I2]
    have i11 : Complex.I ^ 11 = -Complex.I := by rw [pow_succ, i10]; ring
    have i12 : Complex.I ^ 12 = 1 := by rw [show (12 : ℕ) = 4 * 3 from rfl, pow_mul, i4]; ring
    have i13 : Complex.I ^ 13 = Complex.I := by rw [pow_succ, i12]; ring
    have i14 : Complex.I ^ 14 = -1 := by rw [pow_succ, i13, ← sq, I2]
    have i15 : Complex.I ^ 15 = -Complex.I := by rw [pow_succ, i14]; ring
    simp only [mul_pow, I2, i3, i4, i5, i6, i7, i8, i9, i10, i11, i12, i13, i14, i15]
    ring
  rw [e, Complex.exp_mul_I] at h2
  have e2 : Complex.cos (t : ℂ) + Complex.sin (t : ℂ) * Complex.I -
      (((eval cosP t : ℝ) : ℂ) + ((eval sinP t : ℝ) : ℂ) * Complex.I) =
      ((Real.cos t - eval cosP t : ℝ) : ℂ) + ((Real.sin t - eval sinP t : ℝ) : ℂ) * Complex.I := by
    push_cast
    ring
  rw [e2] at h2
  constructor
  · refine le_trans ?_ h2
    have := Complex.abs_re_le_norm (((Real.cos t - eval cosP t : ℝ) : ℂ) + ((Real.sin t - eval sinP t : ℝ) : ℂ) * Complex.I)
    simpa only [Complex.add_re, Complex.ofReal_re, Complex.re_ofReal_mul, Complex.I_re, mul_zero, add_zero] using this
  · refine le_trans ?_ h2
    have := Complex.abs_im_le_norm (((Real.cos t - eval cosP t : ℝ) : ℂ) + ((Real.sin t - eval sinP t : ℝ) : ℂ) * Complex.I)
    simpa only [Complex.add_im, Complex.ofReal_im, Complex.im_ofReal_mul, Complex.I_im, mul_one, zero_add] using this

end Tmf.PolyBound
