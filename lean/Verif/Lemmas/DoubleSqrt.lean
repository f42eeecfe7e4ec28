import Verif.Lemmas.SqrtLower
import Verif.Lemmas.DoubleRange
/-
The square root in f64 arithmetic, as `SqrtValue` and `SqrtLower` have it for f32.
-/

set_option exponentiation.threshold 2500

namespace Tmf.Ieee.Double
open Spec

theorem max600 : (2 : ℚ) ^ 600 ≤ maxV b64 := by
  rw [maxV, le_div_iff₀ (units_pos b64)]
  have : 2 ^ 600 * 2 ^ 1074 ≤ b64.max := by decide +kernel
  exact_mod_cast this

/-- The square of the rounded root of an integer is near it. -/
theorem root_near {N r st : ℚ} (hr : (2 : ℚ) ^ 536 ≤ r) (h1 : r * r ≤ N) (h2 : N < (r + 1) * (r + 1))
    (hst : st = 0 ∧ r * r = N ∨ st = 1) :
    |((2 * r + st) / 2) ^ 2 - N| ≤ 1 / 2 ^ 535 * N := by
  have hr0 : (0 : ℚ) < r := lt_of_lt_of_le (by norm_num) hr
  have hN : (0 : ℚ) ≤ N := le_trans (by positivity) h1
  have hbig : 2 ^ 535 * (r + 3 / 4) ≤ N := by nlinarith
  have : r + 3 / 4 ≤ 1 / 2 ^ 535 * N := by
    rw [one_div, ← div_eq_inv_mul, le_div_iff₀ (by positivity)]; linarith
  refine le_trans ?_ this
  rcases hst with ⟨rfl, h⟩ | rfl
  · have e : ((2 * r + 0) / 2) ^ 2 - N = 0 := by rw [← h]; ring
    rw [e, abs_zero]; positivity
  · rw [abs_le]
    constructor <;> nlinarith

/-- The square root of a positive number is the rounding of some `t` whose square is very near the
number, and which is not below any value whose square is at most the number. -/
theorem sqrt_root {x : Val b64} (hx : isFinite x = true) (h0 : 0 < valueOf x) :
    ∃ t : ℚ, isFinite (sqrt x) = true ∧ valueOf (sqrt x) = rnd b64 t ∧ 1 / 2 ^ 538 ≤ t ∧
      |t ^ 2 - valueOf x| ≤ 1 / 2 ^ 535 * valueOf x ∧
      ∀ k : Nat, ((k : ℚ) / 2 ^ b64.scale) ^ 2 ≤ valueOf x → (k : ℚ) / 2 ^ b64.scale ≤ t := by
  obtain ⟨s, n, hn, rfl⟩ := finite_cases hx
  have hs : s = false := by
    cases s with
    | false => rfl
    | true =>
      exfalso
      rw [valueOf_fin] at h0
      have : (0 : ℚ) ≤ (n : ℚ) / 2 ^ b64.scale := div_nonneg (Nat.cast_nonneg _) (units_pos b64).le
      simp only [sgn, if_true] at h0
      linarith
  subst hs
  have hv : valueOf (.fin false n hn : Val b64) = (n : ℚ) / 2 ^ b64.scale := by
    rw [valueOf_fin]; simp [sgn]
  have hn0 : n ≠ 0 := by
    rintro rfl
    rw [hv, Nat.cast_zero, zero_div] at h0
    exact lt_irrefl _ h0
  have hfuel : n * 2 ^ b64.scale < 2 ^ (b64.scale + b64.top + b64.prec) := by
    have hmax : n ≤ b64.max := hn.2
    have hmx : b64.max < 2 ^ (b64.top + b64.prec) := by decide +kernel
    rw [Nat.add_assoc, Nat.pow_add, Nat.mul_comm]
    exact Nat.mul_lt_mul_of_pos_left (lt_of_le_of_lt hmax hmx) (by positivity)
  obtain ⟨r1, r2⟩ := isqrt_spec hfuel
  simp only [sqrt, if_neg hn0, Bool.false_eq_true, if_false]
  generalize isqrt (n * 2 ^ b64.scale) (b64.scale + b64.top + b64.prec) = r at *
  have hrN : 2 ^ 536 ≤ r := by
    by_contra hc
    have h1 : (r + 1) * (r + 1) ≤ 2 ^ 536 * 2 ^ 536 := Nat.mul_le_mul (by omega) (by omega)
    have h2 : 1 * 2 ^ b64.scale ≤ n * 2 ^ b64.scale := Nat.mul_le_mul_right _ (by omega)
    have h3 : 2 ^ 536 * 2 ^ 536 < 1 * 2 ^ b64.scale := by decide
    omega
  generalize hst : (if r * r = n * 2 ^ b64.scale then 0 else 1) = st
  have hst' : (st : ℚ) = 0 ∧ (r : ℚ) * r = ((n * 2 ^ b64.scale : Nat) : ℚ) ∨ (st : ℚ) = 1 := by
    by_cases hc : r * r = n * 2 ^ b64.scale
    · rw [if_pos hc] at hst
      exact .inl ⟨by rw [← hst]; norm_num, by rw [← hc]; push_cast; rfl⟩
    · rw [if_neg hc] at hst
      exact .inr (by rw [← hst]; norm_num)
  have hnear := root_near (N := ((n * 2 ^ b64.scale : Nat) : ℚ)) (r := (r : ℚ)) (st := (st : ℚ)) (by exact_mod_cast hrN)
    (by exact_mod_cast r1) (by exact_mod_cast r2) hst'
  have hstle : st ≤ 1 := by rw [← hst]; split <;> omega
  have hst1 : (st : ℚ) ≤ 1 := by exact_mod_cast hstle
  have hst0 : (0 : ℚ) ≤ st := Nat.cast_nonneg _
  have hrq : (2 : ℚ) ^ 536 ≤ r := by exact_mod_cast hrN
  have hS := units_pos b64
  have hscale : (2 : ℚ) ^ b64.scale = 2 ^ 1074 := rfl
  -- the unrounded root
  obtain ⟨t, ht⟩ : ∃ t : ℚ, t = (2 * (r : ℚ) + st) / 2 / 2 ^ b64.scale := ⟨_, rfl⟩
  have htX : |t ^ 2 - valueOf (.fin false n hn : Val b64)| ≤ 1 / 2 ^ 535 * valueOf (.fin false n hn : Val b64) := by
    have e1 : t ^ 2 - (n : ℚ) / 2 ^ b64.scale =
        (((2 * (r : ℚ) + st) / 2) ^ 2 - ((n * 2 ^ b64.scale : Nat) : ℚ)) / (2 ^ b64.scale * 2 ^ b64.scale) := by
      rw [ht, Nat.cast_mul, Nat.cast_pow, Nat.cast_ofNat]
      field_simp
    have e2 : 1 / 2 ^ 535 * ((n : ℚ) / 2 ^ b64.scale) =
        1 / 2 ^ 535 * ((n * 2 ^ b64.scale : Nat) : ℚ) / (2 ^ b64.scale * 2 ^ b64.scale) := by
      rw [Nat.cast_mul, Nat.cast_pow, Nat.cast_ofNat]
      field_simp
    rw [hv, e1, e2, abs_div, abs_of_pos (mul_pos hS hS)]
    exact div_le_div_of_nonneg_right hnear (mul_pos hS hS).le
  have htlow : 1 / 2 ^ 538 ≤ t := by
    rw [ht, hscale, le_div_iff₀ (by positivity), show (1 : ℚ) / 2 ^ 538 * 2 ^ 1074 = 2 ^ 536 by norm_num]
    linarith
  have hXle : valueOf (.fin false n hn : Val b64) ≤ 2 ^ 1024 := by
    have h1 := abs_valueOf_le (.fin false n hn : Val b64)
    rw [abs_of_pos h0] at h1
    have h2 : maxV b64 ≤ 2 ^ 1024 := by
      rw [maxV, div_le_iff₀ hS, hscale]
      have : b64.max ≤ 2 ^ 1024 * 2 ^ 1074 := by decide +kernel
      exact_mod_cast this
    linarith
  have htop : t ≤ 2 ^ 600 := by
    by_contra hc
    push Not at hc
    rw [abs_le] at htX
    have h3 : (2 : ℚ) ^ 600 * 2 ^ 600 < t ^ 2 := by rw [sq]; exact mul_lt_mul'' hc hc (by norm_num) (by norm_num)
    have h4 : (2 : ℚ) ^ 1024 + 1 / 2 ^ 535 * 2 ^ 1024 < 2 ^ 600 * 2 ^ 600 := by norm_num
    have h5 : 1 / 2 ^ 535 * valueOf (.fin false n hn : Val b64) ≤ 1 / 2 ^ 535 * 2 ^ 1024 :=
      mul_le_mul_of_nonneg_left hXle (by norm_num)
    linarith [htX.2]
  have hrv := rounded_value (f := b64) (by decide) false (num := 2 * r + st) (den := 2) (by decide) (v := t)
    (by rw [ht]; simp only [sgn, Bool.false_eq_true, if_false, one_mul]; push_cast; rfl)
    (by rw [abs_of_nonneg (le_trans (by norm_num) htlow)]; exact le_trans htop max600)
  refine ⟨t, hrv.1, hrv.2, htlow, htX, ?_⟩
  intro k hk
  rw [hv, div_pow, div_le_div_iff₀ (by positivity) hS, sq, sq, ← mul_assoc, mul_le_mul_iff_left₀ hS] at hk
  have hk' : k * k ≤ n * 2 ^ b64.scale := by exact_mod_cast hk
  have hkr : k ≤ r := by
    by_contra hc
    have : (r + 1) * (r + 1) ≤ k * k := Nat.mul_le_mul (by omega) (by omega)
    omega
  have hkq : (k : ℚ) ≤ r := by exact_mod_cast hkr
  rw [ht]
  exact div_le_div_of_nonneg_right (by linarith) hS.le

/-- The square root of a positive number is positive, and its square is within `3 / 2^53`. -/
theorem sqrt_value {x : Val b64} (hx : isFinite x = true) (h0 : 0 < valueOf x) :
    isFinite (sqrt x) = true ∧ 0 < valueOf (sqrt x) ∧ |valueOf (sqrt x) ^ 2 - valueOf x| ≤ 3 / 2 ^ 53 * valueOf x := by
  obtain ⟨t, hf, hrv, htlow, htX, -⟩ := sqrt_root hx h0
  refine ⟨hf, ?_⟩
  rw [hrv]
  have herr := rnd64_error t
  have ht0 : 0 < t := lt_of_lt_of_le (by norm_num) htlow
  rw [abs_of_pos ht0] at herr
  have herr2 : |rnd b64 t - t| ≤ (1 / 2 ^ 53 + 1 / 2 ^ 537) * t := by
    refine le_trans herr ?_
    have : (1 : ℚ) / 2 ^ 1075 ≤ 1 / 2 ^ 537 * t := by
      have : (1 : ℚ) / 2 ^ 537 * (1 / 2 ^ 538) ≤ 1 / 2 ^ 537 * t := mul_le_mul_of_nonneg_left htlow (by norm_num)
      linarith [show (1 : ℚ) / 2 ^ 537 * (1 / 2 ^ 538) = 1 / 2 ^ 1075 by norm_num]
    linarith
  generalize rnd b64 t = v at *
  generalize valueOf x = X at *
  rw [abs_le] at herr2 htX
  have hvpos : 0 < v := by nlinarith [herr2.1]
  refine ⟨hvpos, ?_⟩
  have hd : |v ^ 2 - t ^ 2| ≤ (5 / 2) / 2 ^ 53 * t ^ 2 := by
    have e : v ^ 2 - t ^ 2 = (v - t) * (v + t) := by ring
    rw [e, abs_mul, abs_of_pos (show 0 < v + t by linarith)]
    have h1 : |v - t| ≤ (1 / 2 ^ 53 + 1 / 2 ^ 537) * t := abs_le.mpr herr2
    have h2 : v + t ≤ (2 + 1 / 2 ^ 53 + 1 / 2 ^ 537) * t := by linarith [herr2.2]
    have h3 := mul_le_mul h1 h2 (by linarith) (by positivity)
    refine le_trans h3 ?_
    have e2 : (1 / 2 ^ 53 + 1 / 2 ^ 537) * t * ((2 + 1 / 2 ^ 53 + 1 / 2 ^ 537) * t) =
      ((1 / 2 ^ 53 + 1 / 2 ^ 537) * (2 + 1 / 2 ^ 53 + 1 / 2 ^ 537)) * t ^ 2 := by ring
    rw [e2]
    exact mul_le_mul_of_nonneg_right (by norm_num) (by positivity)
  rw [abs_le] at hd ⊢
  generalize v ^ 2 = V at *
  generalize t ^ 2 = T at *
  constructor <;> linarith [hd.1, hd.2, htX.1, htX.2]

/-! ### Normalised vectors -/

theorem rnd64_error_add (x y : Val b64) :
    |rnd b64 (valueOf x + valueOf y) - (valueOf x + valueOf y)| ≤ 1 / 2 ^ 53 * |valueOf x + valueOf y| := by
  obtain ⟨k, hk⟩ := units_valueOf x
  obtain ⟨l, hl⟩ := units_valueOf y
  have := rnd_error_units (f := b64) (by decide) (v := valueOf x + valueOf y) (k := k + l) (by rw [add_mul, hk, hl]; push_cast; rfl)
  rw [div_mul_eq_mul_div, one_mul]
  exact this

/-- `rnd` in units. -/
theorem rnd_units {t : ℚ} (ht : 0 ≤ t) : ∃ G : Nat, b64.Flt G ∧ rnd b64 t = (G : ℚ) / 2 ^ b64.scale ∧
    ∀ y : Nat, b64.Flt y → |(G : ℚ) - t * 2 ^ b64.scale| ≤ |(y : ℚ) - t * 2 ^ b64.scale| := by
  have e : ((t.num.natAbs * 2 ^ b64.scale : Nat) : ℚ) / t.den = t * 2 ^ b64.scale := by
    rw [Nat.cast_mul, Nat.cast_pow, Nat.cast_ofNat, mul_div_right_comm, natAbs_div ht]
  refine ⟨_, round_flt b64 t.den_pos (by decide), by rw [rnd_of_nonneg ht]; rfl, ?_⟩
  intro y hy
  have := round_nearest b64 (num := t.num.natAbs * 2 ^ b64.scale) t.den_pos (by decide) hy
  rw [e] at this
  exact this

/-- A square of a power of two is not rounded. -/
theorem rnd_sq_pow {j : Nat} (hj : 537 ≤ j) :
    rnd b64 (((2 ^ j : Nat) : ℚ) / 2 ^ b64.scale * (((2 ^ j : Nat) : ℚ) / 2 ^ b64.scale)) =
      ((2 ^ j : Nat) : ℚ) / 2 ^ b64.scale * (((2 ^ j : Nat) : ℚ) / 2 ^ b64.scale) := by
  have hS := units_pos b64
  have hscale : b64.scale = 1074 := rfl
  have e : ((2 ^ j : Nat) : ℚ) / 2 ^ b64.scale * (((2 ^ j : Nat) : ℚ) / 2 ^ b64.scale) * 2 ^ b64.scale =
      ((2 ^ (2 * j - 1074) : Nat) : ℚ) / (1 : Nat) := by
    have h1 : ((2 ^ j : Nat) : ℚ) * ((2 ^ j : Nat) : ℚ) = ((2 ^ (2 * j - 1074) : Nat) : ℚ) * 2 ^ b64.scale := by
      have : 2 ^ j * 2 ^ j = 2 ^ (2 * j - 1074) * 2 ^ 1074 := by
        rw [← pow_add, ← pow_add, show 2 * j - 1074 + 1074 = j + j by omega]
      have h2 := congrArg (Nat.cast : Nat → ℚ) this
      rw [Nat.cast_mul, Nat.cast_mul (2 ^ (2 * j - 1074)), Nat.cast_pow 2 1074, Nat.cast_ofNat] at h2
      exact h2
    rw [Nat.cast_one, div_one]
    generalize ((2 ^ j : Nat) : ℚ) = a at *
    generalize ((2 ^ (2 * j - 1074) : Nat) : ℚ) = w at *
    generalize (2 : ℚ) ^ b64.scale = S at *
    rw [← mul_div_mul_comm, div_mul_eq_mul_div, div_eq_iff (mul_pos hS hS).ne', h1, mul_assoc]
  rw [rnd_of_nonneg (by positivity), rndPos_eq (by decide) (by positivity) (by decide) e,
    round_of_flt b64 (by decide) ⟨1, 2 * j - 1074, by decide, by rw [one_mul]⟩, ← mul_right_cancel_iff_of_pos hS, e,
    div_mul_cancel₀ _ hS.ne', Nat.cast_one, div_one]

theorem root_bound {n τ V : ℚ} (hn : 0 < n) (hτ : 0 ≤ τ) (h1 : |τ ^ 2 - V| ≤ 1 / 2 ^ 535 * V)
    (h2 : (1 - 1 / 2 ^ 53 - 1 / 2 ^ 200) * n ^ 2 ≤ V) : (1 - 1 / 2 ^ 54 - 1 / 2 ^ 107) * n ≤ τ := by
  by_contra hc
  push Not at hc
  have h3 : τ ^ 2 ≤ ((1 - 1 / 2 ^ 54 - 1 / 2 ^ 107) * n) ^ 2 := by
    rw [sq, sq]; exact mul_self_le_mul_self hτ hc.le
  rw [mul_pow] at h3
  have hn2 : 0 < n ^ 2 := by positivity
  rw [abs_le] at h1
  generalize n ^ 2 = a at *
  generalize τ ^ 2 = b at *
  have h4 := h1.1
  norm_num at h2 h3 h4
  linarith

/-- `sqrt` of a number not below the rounded square of `x` is not below `x`. -/
theorem le_sqrt {x v : Val b64} (hx : isFinite x = true) (hxl : 1 / 2 ^ 40 ≤ valueOf x) (hv : isFinite v = true)
    (h : rnd b64 (valueOf x * valueOf x) ≤ valueOf v) : valueOf x ≤ valueOf (sqrt v) := by
  have hS := units_pos b64
  have hscale : (2 : ℚ) ^ b64.scale = 2 ^ 1074 := rfl
  have hx0 : 0 < valueOf x := lt_of_lt_of_le (by norm_num) hxl
  have hsq : (1 : ℚ) / 2 ^ 80 ≤ valueOf x * valueOf x := by
    have := mul_le_mul hxl hxl (by norm_num) hx0.le
    refine le_trans (le_of_eq (by norm_num)) this
  have herr := rnd64_error (valueOf x * valueOf x)
  rw [abs_of_nonneg (mul_self_nonneg (valueOf x)), abs_le] at herr
  have hlow : (1 - 1 / 2 ^ 53 - 1 / 2 ^ 200) * (valueOf x * valueOf x) ≤ valueOf v := by
    refine le_trans ?_ h
    have : (1 : ℚ) / 2 ^ 1075 ≤ 1 / 2 ^ 200 * (valueOf x * valueOf x) := by
      have := mul_le_mul_of_nonneg_left hsq (show (0 : ℚ) ≤ 1 / 2 ^ 200 by norm_num)
      refine le_trans (by norm_num) this
    have e : (1 - 1 / 2 ^ 53 - 1 / 2 ^ 200) * (valueOf x * valueOf x) =
      valueOf x * valueOf x - 1 / 2 ^ 53 * (valueOf x * valueOf x) - 1 / 2 ^ 200 * (valueOf x * valueOf x) := by ring
    rw [e]
    linarith [herr.1]
  have hv0 : 0 < valueOf v := lt_of_lt_of_le (mul_pos (by norm_num) (lt_of_lt_of_le (by norm_num) hsq)) hlow
  obtain ⟨t, -, hrv, htlow, htX, hge⟩ := sqrt_root hv hv0
  have ht0 : 0 ≤ t := le_trans (by norm_num) htlow
  rw [hrv]
  obtain ⟨s, n, hn, rfl⟩ := finite_cases hx
  have hxv : valueOf (.fin s n hn : Val b64) = (n : ℚ) / 2 ^ b64.scale := by
    rw [← abs_valueOf_fin s n hn, abs_of_pos hx0]
  by_cases hle : valueOf (.fin s n hn : Val b64) * valueOf (.fin s n hn : Val b64) ≤ valueOf v
  · refine valueOf_le_rnd (by decide) ?_
    rw [hxv] at hle ⊢
    exact hge n (by rw [sq]; exact hle)
  have hflt := ((rep_iff b64 (by decide)).mp hn).1
  have hn1000 : 2 ^ 1000 ≤ n := by
    rw [hxv, hscale, le_div_iff₀ (by positivity)] at hxl
    norm_num at hxl
    have : (((2 ^ 1034 : Nat)) : ℚ) ≤ (n : ℚ) := by norm_num; exact hxl
    exact le_trans (by norm_num) (Nat.cast_le.mp this)
  have hn0 : n ≠ 0 := by intro hc; rw [hc] at hn1000; exact absurd hn1000 (by decide)
  obtain ⟨T, hT1, hT2⟩ : ∃ T, 2 ^ T ≤ n ∧ n < 2 ^ (T + 1) := ⟨Nat.log2 n, Nat.log2_self_le hn0, Nat.lt_log2_self⟩
  have hT : 1000 ≤ T := by
    by_contra hc
    exact absurd (lt_of_le_of_lt hn1000 hT2) (not_lt.mpr (Nat.pow_le_pow_right (by decide) (by omega)))
  have hnp : n ≠ 2 ^ T := by
    intro hc
    apply hle
    rw [hxv] at h ⊢
    rw [hc] at h ⊢
    rw [rnd_sq_pow (by omega)] at h
    exact h
  obtain ⟨m, hm⟩ := flt_dvd b64 hflt hT1 (show b64.prec ≤ T + 1 from le_trans (show 53 ≤ 1001 by decide) (by omega))
  have hprec : b64.prec = 53 := rfl
  rw [hprec] at hm
  obtain ⟨u, hu⟩ : ∃ u, u = 2 ^ (T + 1 - 53) := ⟨_, rfl⟩
  have hu0 : 0 < u := by rw [hu]; positivity
  have hTu : 2 ^ T = u * 2 ^ 52 := by rw [hu, ← pow_add]; congr 1; omega
  have hTu' : 2 ^ (T + 1) = u * 2 ^ 53 := by rw [pow_succ, hTu]; ring
  rw [← hu] at hm
  have hm1 : 2 ^ 52 ≤ m := by
    rw [hTu, hm] at hT1
    exact Nat.le_of_mul_le_mul_left hT1 hu0
  have hm2 : m < 2 ^ 53 := by
    rw [hTu', hm] at hT2
    exact Nat.lt_of_mul_lt_mul_left hT2
  have hm3 : m ≠ 2 ^ 52 := by
    intro hc
    rw [hc, ← hTu] at hm
    exact hnp hm
  obtain ⟨G, hG, hGr, hnear⟩ := rnd_units ht0
  rw [hGr, hxv]
  refine div_le_div_of_nonneg_right ?_ hS.le
  by_contra hc
  have hGn : G < n := by
    push Not at hc
    exact_mod_cast hc
  have hgap : G + u ≤ n := by
    rcases Nat.lt_or_ge G (2 ^ T) with hlt | hge'
    · rw [hTu] at hlt
      have h1 : u * (2 ^ 52 + 1) ≤ n := by rw [hm]; exact Nat.mul_le_mul_left _ (by omega)
      rw [Nat.mul_add, Nat.mul_one] at h1
      omega
    · obtain ⟨c, hcd⟩ := flt_dvd b64 hG hge' (show b64.prec ≤ T + 1 from le_trans (show 53 ≤ 1001 by decide) (by omega))
      rw [hprec, ← hu] at hcd
      rw [hcd, hm] at hGn ⊢
      have : c < m := Nat.lt_of_mul_lt_mul_left hGn
      have h1 : u * (c + 1) ≤ u * m := Nat.mul_le_mul_left _ this
      rw [Nat.mul_add, Nat.mul_one] at h1
      exact h1
  have hgq : (G : ℚ) + u ≤ n := by exact_mod_cast hgap
  have huq : (0 : ℚ) < u := by exact_mod_cast hu0
  have hnq : (n : ℚ) ≤ (2 ^ 53 - 1) * u := by
    have : n ≤ u * (2 ^ 53 - 1) := by rw [hm]; exact Nat.mul_le_mul_left _ (by omega)
    have h' : (n : ℚ) ≤ ((u * (2 ^ 53 - 1) : Nat) : ℚ) := Nat.cast_le.mpr this
    refine le_trans h' (le_of_eq ?_)
    norm_num
    ring
  have hn1 := hnear n hflt
  have hb := root_bound (n := valueOf (.fin s n hn : Val b64)) (τ := t) (V := valueOf v) hx0 ht0 htX (by rw [sq]; exact hlow)
  rw [hxv] at hb
  have hb' : (1 - 1 / 2 ^ 54 - 1 / 2 ^ 107) * (n : ℚ) ≤ t * 2 ^ b64.scale := by
    rw [mul_div_assoc', div_le_iff₀ hS] at hb
    exact hb
  generalize t * 2 ^ b64.scale = τ at *
  have hn0q : (0 : ℚ) ≤ n := Nat.cast_nonneg n
  have key : (u : ℚ) ≤ 2 * (n - τ) := by
    rcases le_total τ n with h1 | h1
    · rw [abs_of_nonneg (show (0 : ℚ) ≤ n - τ by linarith)] at hn1
      linarith [neg_abs_le ((G : ℚ) - τ)]
    · rw [abs_of_nonpos (show (n : ℚ) - τ ≤ 0 by linarith)] at hn1
      linarith [neg_abs_le ((G : ℚ) - τ)]
  generalize (n : ℚ) = a at *
  generalize (u : ℚ) = b at *
  norm_num at hb' hnq
  linarith

end Tmf.Ieee.Double
