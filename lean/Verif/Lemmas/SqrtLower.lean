import Verif.Lemmas.SqrtValue
/-
`sqrt (x * x) ≥ x` in f32 arithmetic, although the square is rounded.
-/

set_option exponentiation.threshold 2000

namespace Tmf.Ieee
open Spec

/-- `rnd` in units. -/
theorem rnd_units {t : ℚ} (ht : 0 ≤ t) : ∃ G : Nat, b32.Flt G ∧ rnd b32 t = (G : ℚ) / 2 ^ b32.scale ∧
    ∀ y : Nat, b32.Flt y → |(G : ℚ) - t * 2 ^ b32.scale| ≤ |(y : ℚ) - t * 2 ^ b32.scale| := by
  have e : ((t.num.natAbs * 2 ^ b32.scale : Nat) : ℚ) / t.den = t * 2 ^ b32.scale := by
    rw [Nat.cast_mul, Nat.cast_pow, Nat.cast_ofNat, mul_div_right_comm, natAbs_div ht]
  refine ⟨_, round_flt b32 t.den_pos (by decide), by rw [rnd_of_nonneg ht]; rfl, ?_⟩
  intro y hy
  have := round_nearest b32 (num := t.num.natAbs * 2 ^ b32.scale) t.den_pos (by decide) hy
  rw [e] at this
  exact this

/-- A square of a power of two is not rounded. -/
theorem rnd_sq_pow {j : Nat} (hj : 75 ≤ j) :
    rnd b32 (((2 ^ j : Nat) : ℚ) / 2 ^ b32.scale * (((2 ^ j : Nat) : ℚ) / 2 ^ b32.scale)) =
      ((2 ^ j : Nat) : ℚ) / 2 ^ b32.scale * (((2 ^ j : Nat) : ℚ) / 2 ^ b32.scale) := by
  have hS := units_pos b32
  have hscale : b32.scale = 149 := rfl
  have e : ((2 ^ j : Nat) : ℚ) / 2 ^ b32.scale * (((2 ^ j : Nat) : ℚ) / 2 ^ b32.scale) * 2 ^ b32.scale =
      ((2 ^ (2 * j - 149) : Nat) : ℚ) / (1 : Nat) := by
    have h1 : ((2 ^ j : Nat) : ℚ) * ((2 ^ j : Nat) : ℚ) = ((2 ^ (2 * j - 149) : Nat) : ℚ) * 2 ^ b32.scale := by
      have : 2 ^ j * 2 ^ j = 2 ^ (2 * j - 149) * 2 ^ 149 := by
        rw [← pow_add, ← pow_add, show 2 * j - 149 + 149 = j + j by omega]
      have h2 := congrArg (Nat.cast : Nat → ℚ) this
      rw [Nat.cast_mul, Nat.cast_mul (2 ^ (2 * j - 149)), Nat.cast_pow 2 149, Nat.cast_ofNat] at h2
      exact h2
    rw [Nat.cast_one, div_one]
    generalize ((2 ^ j : Nat) : ℚ) = a at *
    generalize ((2 ^ (2 * j - 149) : Nat) : ℚ) = w at *
    generalize (2 : ℚ) ^ b32.scale = S at *
    rw [← mul_div_mul_comm, div_mul_eq_mul_div, div_eq_iff (mul_pos hS hS).ne', h1, mul_assoc]
  rw [rnd_of_nonneg (by positivity), rndPos_eq (by decide) (by positivity) (by decide) e,
    round_of_flt b32 (by decide) ⟨1, 2 * j - 149, by decide, by rw [one_mul]⟩, ← mul_right_cancel_iff_of_pos hS, e,
    div_mul_cancel₀ _ hS.ne', Nat.cast_one, div_one]

theorem root_bound {n τ V : ℚ} (hn : 0 < n) (hτ : 0 ≤ τ) (h1 : |τ ^ 2 - V| ≤ 1 / 2 ^ 73 * V)
    (h2 : (1 - 1 / 2 ^ 24 - 1 / 2 ^ 70) * n ^ 2 ≤ V) : (1 - 1 / 2 ^ 25 - 1 / 2 ^ 49) * n ≤ τ := by
  by_contra hc
  push Not at hc
  have h3 : τ ^ 2 ≤ ((1 - 1 / 2 ^ 25 - 1 / 2 ^ 49) * n) ^ 2 := by
    rw [sq, sq]; exact mul_self_le_mul_self hτ hc.le
  rw [mul_pow] at h3
  have hn2 : 0 < n ^ 2 := by positivity
  rw [abs_le] at h1
  generalize n ^ 2 = a at *
  generalize τ ^ 2 = b at *
  have h4 := h1.1
  norm_num at h2 h3 h4
  linarith

/-- `sqrt` of a number not below the rounded square of `x` is not below `x`. -/
theorem le_sqrt {x v : Val b32} (hx : isFinite x = true) (hxl : 1 / 2 ^ 40 ≤ valueOf x) (hv : isFinite v = true)
    (h : rnd b32 (valueOf x * valueOf x) ≤ valueOf v) : valueOf x ≤ valueOf (sqrt v) := by
  have hS := units_pos b32
  have hscale : (2 : ℚ) ^ b32.scale = 2 ^ 149 := rfl
  have hx0 : 0 < valueOf x := lt_of_lt_of_le (by norm_num) hxl
  have hsq : (1 : ℚ) / 2 ^ 80 ≤ valueOf x * valueOf x := by
    have := mul_le_mul hxl hxl (by norm_num) hx0.le
    refine le_trans (le_of_eq (by norm_num)) this
  have herr := rnd32_error (valueOf x * valueOf x)
  rw [abs_of_nonneg (mul_self_nonneg (valueOf x)), abs_le] at herr
  have hlow : (1 - 1 / 2 ^ 24 - 1 / 2 ^ 70) * (valueOf x * valueOf x) ≤ valueOf v := by
    refine le_trans ?_ h
    have : (1 : ℚ) / 2 ^ 150 ≤ 1 / 2 ^ 70 * (valueOf x * valueOf x) := by
      have := mul_le_mul_of_nonneg_left hsq (show (0 : ℚ) ≤ 1 / 2 ^ 70 by norm_num)
      refine le_trans (le_of_eq (by norm_num)) this
    have e : (1 - 1 / 2 ^ 24 - 1 / 2 ^ 70) * (valueOf x * valueOf x) =
      valueOf x * valueOf x - 1 / 2 ^ 24 * (valueOf x * valueOf x) - 1 / 2 ^ 70 * (valueOf x * valueOf x) := by ring
    rw [e]
    linarith [herr.1]
  have hv0 : 0 < valueOf v := lt_of_lt_of_le (mul_pos (by norm_num) (lt_of_lt_of_le (by norm_num) hsq)) hlow
  obtain ⟨t, -, hrv, htlow, htX, hge⟩ := sqrt_root hv hv0
  have ht0 : 0 ≤ t := le_trans (by norm_num) htlow
  rw [hrv]
  obtain ⟨s, n, hn, rfl⟩ := finite_cases hx
  have hxv : valueOf (.fin s n hn : Val b32) = (n : ℚ) / 2 ^ b32.scale := by
    rw [← abs_valueOf_fin s n hn, abs_of_pos hx0]
  by_cases hle : valueOf (.fin s n hn : Val b32) * valueOf (.fin s n hn : Val b32) ≤ valueOf v
  · refine valueOf_le_rnd (by decide) ?_
    rw [hxv] at hle ⊢
    exact hge n (by rw [sq]; exact hle)
  have hflt := ((rep_iff b32 (by decide)).mp hn).1
  have hn89 : 2 ^ 89 ≤ n := by
    rw [hxv, hscale, le_div_iff₀ (by positivity)] at hxl
    norm_num at hxl
    have : (((2 ^ 109 : Nat)) : ℚ) ≤ (n : ℚ) := by norm_num; exact hxl
    exact le_trans (by norm_num) (Nat.cast_le.mp this)
  have hn0 : n ≠ 0 := by intro hc; rw [hc] at hn89; exact absurd hn89 (by decide)
  obtain ⟨T, hT1, hT2⟩ : ∃ T, 2 ^ T ≤ n ∧ n < 2 ^ (T + 1) := ⟨Nat.log2 n, Nat.log2_self_le hn0, Nat.lt_log2_self⟩
  have hT : 89 ≤ T := by
    by_contra hc
    exact absurd (lt_of_le_of_lt hn89 hT2) (not_lt.mpr (Nat.pow_le_pow_right (by decide) (by omega)))
  have hnp : n ≠ 2 ^ T := by
    intro hc
    apply hle
    rw [hxv] at h ⊢
    rw [hc] at h ⊢
    rw [rnd_sq_pow (by omega)] at h
    exact h
  obtain ⟨m, hm⟩ := flt_dvd b32 hflt hT1 (show b32.prec ≤ T + 1 from le_trans (show 24 ≤ 90 by decide) (by omega))
  have hprec : b32.prec = 24 := rfl
  rw [hprec] at hm
  obtain ⟨u, hu⟩ : ∃ u, u = 2 ^ (T + 1 - 24) := ⟨_, rfl⟩
  have hu0 : 0 < u := by rw [hu]; positivity
  have hTu : 2 ^ T = u * 2 ^ 23 := by rw [hu, ← pow_add]; congr 1; omega
  have hTu' : 2 ^ (T + 1) = u * 2 ^ 24 := by rw [pow_succ, hTu]; ring
  rw [← hu] at hm
  have hm1 : 2 ^ 23 ≤ m := by
    rw [hTu, hm] at hT1
    exact Nat.le_of_mul_le_mul_left hT1 hu0
  have hm2 : m < 2 ^ 24 := by
    rw [hTu', hm] at hT2
    exact Nat.lt_of_mul_lt_mul_left hT2
  have hm3 : m ≠ 2 ^ 23 := by
    intro hc
    rw [hc, ← hTu] at hm
    exact hnp hm
  obtain ⟨G, hG, hGr, hnear⟩ := rnd_units ht0
  rw [hGr, hxv]
  refine div_le_div_of_nonneg_right ?_ hS.le
  by_contra hc
  have hGn : G < n := by
    push Not at hc
    exact_mod_cast hc
  have hgap : G + u ≤ n := by
    rcases Nat.lt_or_ge G (2 ^ T) with hlt | hge'
    · rw [hTu] at hlt
      have h1 : u * (2 ^ 23 + 1) ≤ n := by rw [hm]; exact Nat.mul_le_mul_left _ (by omega)
      rw [Nat.mul_add, Nat.mul_one] at h1
      omega
    · obtain ⟨c, hcd⟩ := flt_dvd b32 hG hge' (show b32.prec ≤ T + 1 from le_trans (show 24 ≤ 90 by decide) (by omega))
      rw [hprec, ← hu] at hcd
      rw [hcd, hm] at hGn ⊢
      have : c < m := Nat.lt_of_mul_lt_mul_left hGn
      have h1 : u * (c + 1) ≤ u * m := Nat.mul_le_mul_left _ this
      rw [Nat.mul_add, Nat.mul_one] at h1
      exact h1
  have hgq : (G : ℚ) + u ≤ n := by exact_mod_cast hgap
  have huq : (0 : ℚ) < u := by exact_mod_cast hu0
  have hnq : (n : ℚ) ≤ (2 ^ 24 - 1) * u := by
    have : n ≤ u * (2 ^ 24 - 1) := by rw [hm]; exact Nat.mul_le_mul_left _ (by omega)
    have h' : (n : ℚ) ≤ ((u * (2 ^ 24 - 1) : Nat) : ℚ) := Nat.cast_le.mpr this
    refine le_trans h' (le_of_eq ?_)
    norm_num
    ring
  have hn1 := hnear n hflt
  have hb := root_bound (n := valueOf (.fin s n hn : Val b32)) (τ := t) (V := valueOf v) hx0 ht0 htX (by rw [sq]; exact hlow)
  rw [hxv] at hb
  have hb' : (1 - 1 / 2 ^ 25 - 1 / 2 ^ 49) * (n : ℚ) ≤ t * 2 ^ b32.scale := by
    rw [mul_div_assoc', div_le_iff₀ hS] at hb
    exact hb
  generalize t * 2 ^ b32.scale = τ at *
  have hn0q : (0 : ℚ) ≤ n := Nat.cast_nonneg n
  have key : (u : ℚ) ≤ 2 * (n - τ) := by
    rcases le_total τ n with h1 | h1
    · rw [abs_of_nonneg (show (0 : ℚ) ≤ n - τ by linarith)] at hn1
      linarith [neg_abs_le ((G : ℚ) - τ)]
    · rw [abs_of_nonpos (show (n : ℚ) - τ ≤ 0 by linarith)] at hn1
      linarith [neg_abs_le ((G : ℚ) - τ)]
  generalize (n : ℚ) = a at *
  generalize (u : ℚ) = b at *
  norm_num at hb' hnq
  linarith

end Tmf.Ieee
