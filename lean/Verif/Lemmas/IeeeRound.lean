import Mathlib.Tactic.Linarith
import Mathlib.Tactic.Ring
import Mathlib.Tactic.Positivity
import Mathlib.Tactic.FieldSimp
import Mathlib.Tactic.NormNum
import Mathlib.Algebra.Order.Field.Basic
import Mathlib.Data.Rat.Cast.Order
import Mathlib.Data.Nat.Log
import Verif.Model.Ieee
import Verif.Lemmas.FloatText
/-
Rounding to a binary format: the result is a nearest value of the format, so rounding is monotone
and its error is at most half the spacing.
-/

namespace Tmf.Ieee

/-- `y` units have at most `prec` significant bits. -/
def Fmt.Flt (f : Fmt) (y : Nat) : Prop := ∃ a e, a < 2 ^ f.prec ∧ y = a * 2 ^ e

theorem roundHalfEven_close {num den : Nat} (hd : 0 < den) :
    |(roundHalfEven num den : ℚ) - (num : ℚ) / den| ≤ 1 / 2 := by
  have hdq : (0 : ℚ) < den := by exact_mod_cast hd
  have e : (num : ℚ) = den * ((num / den : Nat) : ℚ) + ((num % den : Nat) : ℚ) := by
    exact_mod_cast (Nat.div_add_mod num den).symm
  have hq : (num : ℚ) / den = ((num / den : Nat) : ℚ) + ((num % den : Nat) : ℚ) / den := by
    rw [e]; field_simp
  rw [hq]
  have h0 : (0 : ℚ) ≤ ((num % den : Nat) : ℚ) / den := by positivity
  have h1 : ((num % den : Nat) : ℚ) / den < 1 := by
    rw [div_lt_one hdq]
    exact_mod_cast Nat.mod_lt num hd
  rw [roundHalfEven, abs_le]
  split
  · rename_i h
    have h' : ((num % den : Nat) : ℚ) / den < 1 / 2 := by
      rw [div_lt_div_iff₀ hdq (by norm_num)]
      have : (2 * (num % den : Nat) : ℚ) < den := by exact_mod_cast h
      linarith
    constructor <;> linarith
  · split
    · rename_i _ h
      have h' : 1 / 2 < ((num % den : Nat) : ℚ) / den := by
        rw [div_lt_div_iff₀ (by norm_num) hdq]
        have : (den : ℚ) < 2 * (num % den : Nat) := by exact_mod_cast h
        linarith
      push_cast
      constructor <;> linarith
    · rename_i a b
      have h : den = 2 * (num % den) := by omega
      have h' : ((num % den : Nat) : ℚ) / den = 1 / 2 := by
        rw [div_eq_div_iff (ne_of_gt hdq) (by norm_num)]
        have : (den : ℚ) = 2 * (num % den : Nat) := by exact_mod_cast h
        linarith
      rw [h']
      have : num / den % 2 = 0 ∨ num / den % 2 = 1 := by omega
      rcases this with h | h <;> rw [h] <;> push_cast <;> constructor <;> linarith

theorem roundHalfEven_nearest {num den : Nat} (hd : 0 < den) (n : Nat) :
    |(roundHalfEven num den : ℚ) - (num : ℚ) / den| ≤ |(n : ℚ) - (num : ℚ) / den| := by
  by_cases h : n = roundHalfEven num den
  · rw [h]
  · have hc := roundHalfEven_close (num := num) hd
    have h1 : (1 : ℚ) ≤ |(n : ℚ) - roundHalfEven num den| := by
      rcases Nat.lt_or_gt_of_ne h with h | h
      · have : ((n + 1 : Nat) : ℚ) ≤ roundHalfEven num den := by exact_mod_cast h
        push_cast at this
        rw [abs_of_nonpos (by linarith)]
        linarith
      · have : ((roundHalfEven num den + 1 : Nat) : ℚ) ≤ n := by exact_mod_cast h
        push_cast at this
        rw [abs_of_nonneg (by linarith)]
        linarith
    have h2 : |(n : ℚ) - roundHalfEven num den| ≤
        |(n : ℚ) - (num : ℚ) / den| + |(roundHalfEven num den : ℚ) - (num : ℚ) / den| := by
      rw [abs_sub_comm (roundHalfEven num den : ℚ)]
      exact abs_sub_le _ _ _
    linarith

variable (f : Fmt)

/-- The error of rounding is at most half the spacing. -/
theorem round_close {num den : Nat} (hd : 0 < den) :
    |(f.round num den : ℚ) - (num : ℚ) / den| ≤ 2 ^ f.spacing (num / den) / 2 := by
  have hp : (0 : ℚ) < 2 ^ f.spacing (num / den) := by positivity
  have hdq : (0 : ℚ) < den := by exact_mod_cast hd
  have h := roundHalfEven_close (num := num) (den := den * 2 ^ f.spacing (num / den)) (by positivity)
  have e : (f.round num den : ℚ) - (num : ℚ) / den =
      ((roundHalfEven num (den * 2 ^ f.spacing (num / den)) : ℚ) -
        (num : ℚ) / ((den * 2 ^ f.spacing (num / den) : Nat) : ℚ)) * 2 ^ f.spacing (num / den) := by
    rw [Fmt.round]
    push_cast
    field_simp
  rw [e, abs_mul, abs_of_pos hp]
  nlinarith

theorem round_nearest_mul {num den : Nat} (hd : 0 < den) (n : Nat) :
    |(f.round num den : ℚ) - (num : ℚ) / den| ≤ |((n * 2 ^ f.spacing (num / den) : Nat) : ℚ) - (num : ℚ) / den| := by
  have hp : (0 : ℚ) < 2 ^ f.spacing (num / den) := by positivity
  have hdq : (0 : ℚ) < den := by exact_mod_cast hd
  have h := roundHalfEven_nearest (num := num) (den := den * 2 ^ f.spacing (num / den)) (by positivity) n
  have e : ∀ r : ℚ, r * 2 ^ f.spacing (num / den) - (num : ℚ) / den =
      (r - (num : ℚ) / ((den * 2 ^ f.spacing (num / den) : Nat) : ℚ)) * 2 ^ f.spacing (num / den) := by
    intro r
    push_cast
    field_simp
  rw [Fmt.round]
  push_cast
  rw [e, e, abs_mul, abs_mul]
  exact mul_le_mul_of_nonneg_right h (abs_nonneg _)

theorem le_div_iff_floor {num den k : Nat} (hd : 0 < den) : (k : ℚ) ≤ (num : ℚ) / den ↔ k ≤ num / den := by
  have hdq : (0 : ℚ) < den := by exact_mod_cast hd
  rw [le_div_iff₀ hdq, Nat.le_div_iff_mul_le hd]
  exact_mod_cast Iff.rfl

theorem div_lt_iff_floor {num den k : Nat} (hd : 0 < den) : (num : ℚ) / den < k ↔ num / den < k := by
  rw [← not_le, le_div_iff_floor hd, not_le]

/-- Above `2^prec` the spacing is such that the value has exactly `prec` digits. -/
theorem spacing_bounds {q : Nat} (h : 2 ^ f.prec ≤ q) (hp : 0 < f.prec) :
    0 < f.spacing q ∧ 2 ^ (f.prec - 1 + f.spacing q) ≤ q ∧ q < 2 ^ (f.prec + f.spacing q) := by
  have hq : q ≠ 0 := by
    rintro rfl
    have : 0 < 2 ^ f.prec := by positivity
    omega
  have hl : f.prec ≤ q.log2 := (Nat.le_log2 hq).mpr h
  rw [Fmt.spacing, if_neg (by omega)]
  refine ⟨by omega, ?_, ?_⟩
  · rw [show f.prec - 1 + (q.log2 + 1 - f.prec) = q.log2 by omega]
    exact Nat.log2_self_le hq
  · rw [show f.prec + (q.log2 + 1 - f.prec) = q.log2 + 1 by omega]
    exact Nat.lt_log2_self

theorem spacing_of_lt {q : Nat} (h : q < 2 ^ f.prec) : f.spacing q = 0 := by rw [Fmt.spacing, if_pos h]

theorem spacing_of_bounds {q t : Nat} (h1 : 2 ^ t ≤ q) (h2 : q < 2 ^ (t + 1)) (ht : f.prec ≤ t + 1) :
    f.spacing q = t + 1 - f.prec := by
  have hq : q ≠ 0 := by
    rintro rfl
    have : 0 < 2 ^ t := by positivity
    omega
  have hl : q.log2 = t := by
    apply Nat.le_antisymm
    · have := (Nat.log2_lt hq).mpr h2
      omega
    · exact (Nat.le_log2 hq).mpr h1
  rw [Fmt.spacing, hl]
  split
  · rename_i h
    have := Nat.pow_lt_pow_iff_right (a := 2) (by omega) |>.mp (Nat.lt_of_le_of_lt h1 h)
    omega
  · rfl

/-- The result of rounding is nearest among all values of the format. -/
theorem round_nearest {num den : Nat} (hd : 0 < den) (hp : 0 < f.prec) {y : Nat} (hy : f.Flt y) :
    |(f.round num den : ℚ) - (num : ℚ) / den| ≤ |(y : ℚ) - (num : ℚ) / den| := by
  obtain ⟨a, e, ha, rfl⟩ := hy
  by_cases hs : f.spacing (num / den) ≤ e
  · have := round_nearest_mul f (num := num) hd (a * 2 ^ (e - f.spacing (num / den)))
    rwa [Nat.mul_assoc, ← Nat.pow_add, Nat.sub_add_cancel hs] at this
  · push Not at hs
    have hq : 2 ^ f.prec ≤ num / den := by
      by_contra h
      rw [spacing_of_lt f (by omega)] at hs
      omega
    obtain ⟨h0, h1, h2⟩ := spacing_bounds f hq hp
    have hm := round_nearest_mul f (num := num) hd (2 ^ (f.prec - 1))
    rw [← Nat.pow_add] at hm
    have hle : ((2 ^ (f.prec - 1 + f.spacing (num / den)) : Nat) : ℚ) ≤ (num : ℚ) / den :=
      (le_div_iff_floor hd).mpr h1
    have hy : a * 2 ^ e ≤ 2 ^ (f.prec - 1 + f.spacing (num / den)) := by
      calc a * 2 ^ e ≤ 2 ^ f.prec * 2 ^ e := Nat.mul_le_mul_right _ (by omega)
        _ = 2 ^ (f.prec + e) := by rw [Nat.pow_add]
        _ ≤ _ := Nat.pow_le_pow_right (by omega) (by omega)
    have hy' : ((a * 2 ^ e : Nat) : ℚ) ≤ ((2 ^ (f.prec - 1 + f.spacing (num / den)) : Nat) : ℚ) := by exact_mod_cast hy
    refine le_trans hm ?_
    rw [abs_of_nonpos (by linarith), abs_of_nonpos (by linarith)]
    linarith

theorem roundHalfEven_le {num den n : Nat} (hd : 0 < den) (h : num < n * den) : roundHalfEven num den ≤ n := by
  have : num / den < n := (Nat.div_lt_iff_lt_mul hd).mpr h
  rw [roundHalfEven]
  split
  · omega
  · split <;> omega

/-- Rounding gives a value of the format. -/
theorem round_flt {num den : Nat} (hd : 0 < den) (hp : 0 < f.prec) : f.Flt (f.round num den) := by
  have hlt : roundHalfEven num (den * 2 ^ f.spacing (num / den)) ≤ 2 ^ f.prec := by
    apply roundHalfEven_le (by positivity)
    by_cases h : num / den < 2 ^ f.prec
    · rw [spacing_of_lt f h, pow_zero, Nat.mul_one]
      exact (Nat.div_lt_iff_lt_mul hd).mp h
    · obtain ⟨_, _, h2⟩ := spacing_bounds f (Nat.not_lt.mp h) hp
      have := (Nat.div_lt_iff_lt_mul hd).mp h2
      calc num < 2 ^ (f.prec + f.spacing (num / den)) * den := this
        _ = 2 ^ f.prec * (den * 2 ^ f.spacing (num / den)) := by rw [Nat.pow_add]; ring
  rw [Fmt.round]
  rcases Nat.lt_or_eq_of_le hlt with h | h
  · exact ⟨_, _, h, rfl⟩
  · refine ⟨2 ^ (f.prec - 1), f.spacing (num / den) + 1, Nat.pow_lt_pow_right (by omega) (by omega), ?_⟩
    rw [h, Nat.pow_succ, Nat.mul_comm _ 2, ← Nat.mul_assoc, ← Nat.pow_succ]
    congr 2
    omega

theorem round_of_flt (hp : 0 < f.prec) {y : Nat} (hy : f.Flt y) : f.round y 1 = y := by
  have h := round_nearest f (num := y) (den := 1) (by decide) hp hy
  rw [Nat.cast_one, div_one, sub_self, abs_zero] at h
  have := abs_nonpos_iff.mp h
  exact_mod_cast sub_eq_zero.mp this

/-- Rounding is monotone. -/
theorem round_mono {num den num' den' : Nat} (hd : 0 < den) (hd' : 0 < den') (hp : 0 < f.prec)
    (h : (num : ℚ) / den ≤ (num' : ℚ) / den') : f.round num den ≤ f.round num' den' := by
  by_contra hlt
  push Not at hlt
  have hc : (f.round num' den' : ℚ) < f.round num den := by exact_mod_cast hlt
  have h1 := round_nearest f (num := num) hd hp (round_flt f (num := num') hd' hp)
  have h2 := round_nearest f (num := num') hd' hp (round_flt f (num := num) hd hp)
  rcases eq_or_lt_of_le h with he | hl
  · -- the same number rounds to the same value
    have hx : num * den' = num' * den := by
      have hdq : (den : ℚ) ≠ 0 := by exact_mod_cast (Nat.pos_iff_ne_zero.mp hd)
      have hdq' : (den' : ℚ) ≠ 0 := by exact_mod_cast (Nat.pos_iff_ne_zero.mp hd')
      rw [div_eq_div_iff hdq hdq'] at he
      exact_mod_cast he
    have e1 := round_scale f (num := num) (den := den) hd'
    have e2 := round_scale f (num := num') (den := den') hd
    rw [hx, Nat.mul_comm den den', e2] at e1
    omega
  · have h3 : (num : ℚ) / den ≥ ((f.round num den : ℚ) + f.round num' den') / 2 := by
      have h1 := sq_le_sq.mpr h1
      nlinarith
    have h4 : (num' : ℚ) / den' ≤ ((f.round num den : ℚ) + f.round num' den') / 2 := by
      have h2 := sq_le_sq.mpr h2
      nlinarith
    linarith

theorem round_le_flt {num den y : Nat} (hd : 0 < den) (hp : 0 < f.prec) (hy : f.Flt y) (h : (num : ℚ) / den ≤ y) :
    f.round num den ≤ y := by
  have := round_mono f (num := num) (num' := y) (den' := 1) hd (by decide) hp (by rw [Nat.cast_one, div_one]; exact h)
  rwa [round_of_flt f hp hy] at this

theorem flt_le_round {num den y : Nat} (hd : 0 < den) (hp : 0 < f.prec) (hy : f.Flt y) (h : (y : ℚ) ≤ (num : ℚ) / den) :
    y ≤ f.round num den := by
  have := round_mono f (num := y) (den := 1) (num' := num) (by decide) hd hp (by rw [Nat.cast_one, div_one]; exact h)
  rwa [round_of_flt f hp hy] at this

theorem rep_iff (hp : 0 < f.prec) {n : Nat} : f.Rep n ↔ f.Flt n ∧ n ≤ f.max := by
  constructor
  · rintro ⟨h, hm⟩
    refine ⟨?_, hm⟩
    rw [← h]
    exact round_flt f (by decide) hp
  · rintro ⟨h, hm⟩
    exact ⟨round_of_flt f hp h, hm⟩

theorem max_flt : f.Flt f.max := ⟨2 ^ f.prec - 1, f.top, Nat.sub_lt (by positivity) (by decide), rfl⟩

theorem round_rep {num den : Nat} (hd : 0 < den) (hp : 0 < f.prec) (h : (num : ℚ) / den ≤ f.max) :
    f.Rep (f.round num den) :=
  (rep_iff f hp).mpr ⟨round_flt f hd hp, round_le_flt f hd hp (max_flt f) h⟩

/-- Values of the format in `[2^t, 2^(t+1)]` are multiples of the spacing there. -/
theorem flt_dvd {y t : Nat} (hy : f.Flt y) (h : 2 ^ t ≤ y) (ht : f.prec ≤ t + 1) : 2 ^ (t + 1 - f.prec) ∣ y := by
  obtain ⟨a, e, ha, rfl⟩ := hy
  have hlt : 2 ^ t < 2 ^ (f.prec + e) := by
    calc 2 ^ t ≤ a * 2 ^ e := h
      _ < 2 ^ f.prec * 2 ^ e := Nat.mul_lt_mul_of_pos_right ha (by positivity)
      _ = _ := by rw [Nat.pow_add]
  have := (Nat.pow_lt_pow_iff_right (a := 2) (by omega)).mp hlt
  exact Dvd.dvd.mul_left (Nat.pow_dvd_pow 2 (by omega)) a

/-- Integers with at most `prec` bits are values of the format, whatever the power of two. -/
theorem flt_of_le {a : Nat} (hp : 0 < f.prec) (h : a ≤ 2 ^ f.prec) (e : Nat) : f.Flt (a * 2 ^ e) := by
  rcases Nat.lt_or_eq_of_le h with h | h
  · exact ⟨a, e, h, rfl⟩
  · refine ⟨2 ^ (f.prec - 1), e + 1, Nat.pow_lt_pow_right (by omega) (by omega), ?_⟩
    rw [h, Nat.pow_succ, Nat.mul_comm _ 2, ← Nat.mul_assoc, ← Nat.pow_succ]
    congr 2
    omega

end Tmf.Ieee
