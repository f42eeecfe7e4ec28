import Mathlib.Analysis.Complex.Trigonometric
import Mathlib.Analysis.SpecialFunctions.Trigonometric.Inverse
/-
Values of sine and cosine by their series, precise to twelve digits up to 2.
-/

namespace Tmf.Geometry

/-- The first eleven terms of the series of the sine, on rationals. -/
def sineQ (x : ℚ) : ℚ :=
  let y := x * x
  x * (1 - y / (2 * 3) * (1 - y / (4 * 5) * (1 - y / (6 * 7) * (1 - y / (8 * 9) * (1 - y / (10 * 11) * (1 - y / (12 * 13) *
    (1 - y / (14 * 15) * (1 - y / (16 * 17) * (1 - y / (18 * 19) * (1 - y / (20 * 21)))))))))))

/-- The first eleven terms of the series of the cosine, on rationals. -/
def cosineQ (x : ℚ) : ℚ :=
  let y := x * x
  1 - y / (1 * 2) * (1 - y / (3 * 4) * (1 - y / (5 * 6) * (1 - y / (7 * 8) * (1 - y / (9 * 10) * (1 - y / (11 * 12) *
    (1 - y / (13 * 14) * (1 - y / (15 * 16) * (1 - y / (17 * 18) * (1 - y / (19 * 20))))))))))

theorem series_sum (x : ℚ) : ∑ m ∈ Finset.range 22, ((x : ℂ) * Complex.I) ^ m / (m.factorial : ℂ) =
    ((cosineQ x : ℝ) : ℂ) + ((sineQ x : ℝ) : ℂ) * Complex.I := by
  have h : ∀ j : Nat, ((x : ℂ) * Complex.I) ^ (2 * j) = (-((x : ℂ) * x)) ^ j := by
    intro j
    rw [pow_mul]
    congr 1
    have := Complex.I_sq
    linear_combination (x : ℂ) ^ 2 * this
  have h' : ∀ j : Nat, ((x : ℂ) * Complex.I) ^ (2 * j + 1) = (-((x : ℂ) * x)) ^ j * ((x : ℂ) * Complex.I) := by
    intro j
    rw [pow_succ, h]
  have e : ∀ g : ℕ → ℂ, ∑ m ∈ Finset.range 22, g m = ∑ j ∈ Finset.range 11, (g (2 * j) + g (2 * j + 1)) := by
    intro g
    simp only [Finset.sum_range_succ, Finset.sum_range_zero]
    ring
  rw [e]
  simp only [h, h', cosineQ, sineQ]
  simp only [Finset.sum_range_succ, Finset.sum_range_zero, Nat.factorial]
  push_cast
  ring

theorem series_near {x : ℚ} (h0 : 0 ≤ x) (h2 : x ≤ 2) :
    |Real.cos x - (cosineQ x : ℝ)| ≤ 1 / 10 ^ 13 ∧ |Real.sin x - (sineQ x : ℝ)| ≤ 1 / 10 ^ 13 := by
  have hn : ‖(x : ℂ) * Complex.I‖ = (x : ℝ) := by
    rw [norm_mul, Complex.norm_I, mul_one]
    have : ((x : ℂ)) = ((x : ℝ) : ℂ) := by push_cast; rfl
    rw [this, Complex.norm_real, Real.norm_of_nonneg (by exact_mod_cast h0)]
  have hx2 : (x : ℝ) ≤ 2 := by exact_mod_cast h2
  have hx0 : (0 : ℝ) ≤ x := by exact_mod_cast h0
  have hb := Complex.exp_bound' (x := (x : ℂ) * Complex.I) (n := 22) (by rw [hn]; norm_num; linarith)
  rw [hn, series_sum] at hb
  have hb2 : (x : ℝ) ^ 22 / (Nat.factorial 22 : ℝ) * 2 ≤ 1 / 10 ^ 13 := by
    have h1 := pow_le_pow_left₀ hx0 hx2 22
    have h3 : (Nat.factorial 22 : ℝ) = 1124000727777607680000 := by norm_num [Nat.factorial]
    rw [h3]
    norm_num at h1 ⊢
    linarith
  have hexp : Complex.exp ((x : ℂ) * Complex.I) = ((Real.cos x : ℝ) : ℂ) + ((Real.sin x : ℝ) : ℂ) * Complex.I := by
    rw [Complex.exp_mul_I]
    push_cast
    rfl
  rw [hexp] at hb
  have e : ((Real.cos x : ℝ) : ℂ) + ((Real.sin x : ℝ) : ℂ) * Complex.I - (((cosineQ x : ℝ) : ℂ) + ((sineQ x : ℝ) : ℂ) * Complex.I) =
      ((Real.cos x - (cosineQ x : ℝ) : ℝ) : ℂ) + ((Real.sin x - (sineQ x : ℝ) : ℝ) : ℂ) * Complex.I := by
    push_cast
    ring
  rw [e] at hb
  have hre := (Complex.abs_re_le_norm _).trans (hb.trans hb2)
  have him := (Complex.abs_im_le_norm _).trans (hb.trans hb2)
  rw [Complex.add_re, Complex.re_ofReal_mul, Complex.ofReal_re, Complex.I_re, mul_zero, add_zero] at hre
  rw [Complex.add_im, Complex.im_ofReal_mul, Complex.ofReal_im, Complex.I_im, mul_one, zero_add] at him
  exact ⟨hre, him⟩

end Tmf.Geometry
