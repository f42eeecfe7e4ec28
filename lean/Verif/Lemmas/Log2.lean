import Mathlib.Analysis.Convex.SpecificFunctions.Basic
import Verif.Lemmas.ExactBits
import Verif.Lemmas.IeeeValue
import Verif.Spec.Log2
/-
The number of bits the code computes by `log2().ceil() as u8`: never less than needed by more than a
factor of `1 + 2^-17`, and the exact one unless the argument is just above or below a power of two.
-/

set_option exponentiation.threshold 2000

namespace Tmf.Ieee
open Spec

theorem ceilU8_le_iff {f : Fmt} {x : Val f} (hx : isFinite x = true) {k : Nat} (hk : k < 255) :
    ceilU8 x ≤ k ↔ valueOf x ≤ k := by
  obtain ⟨s, n, hn, rfl⟩ := finite_cases hx
  have hS := units_pos f
  cases s with
  | true =>
    rw [ceilU8, if_pos rfl, valueOf_fin]
    simp only [Nat.zero_le, true_iff, sgn, if_true]
    have : (0 : ℚ) ≤ (n : ℚ) / 2 ^ f.scale := by positivity
    have : (0 : ℚ) ≤ k := Nat.cast_nonneg k
    linarith
  | false =>
    rw [ceilU8, if_neg Bool.false_ne_true, valueOf_fin]
    simp only [sgn, Bool.false_eq_true, if_false, one_mul]
    rw [div_le_iff₀ hS]
    have hS' : 0 < 2 ^ f.scale := Nat.two_pow_pos _
    generalize hSe : 2 ^ f.scale = S at *
    have e : ((2 : ℚ) ^ f.scale) = (S : ℚ) := by rw [← hSe]; push_cast; rfl
    rw [e]
    have h1 : (n + (S - 1)) / S ≤ k ↔ n ≤ k * S := by
      rw [← Nat.lt_succ_iff, Nat.div_lt_iff_lt_mul hS', Nat.succ_mul]
      omega
    have h2 : Nat.min ((n + (S - 1)) / S) 255 ≤ k ↔ (n + (S - 1)) / S ≤ k := by
      rw [show Nat.min ((n + (S - 1)) / S) 255 = Min.min ((n + (S - 1)) / S) 255 from rfl, min_le_iff]
      omega
    rw [h2, h1]
    exact_mod_cast Iff.rfl

/-- The number of bits the code computes for `x` steps. -/
abbrev bitsFor (lib : Libm) (x : Val b32) : Nat := ceilU8 (lib.log2 x)

/-- Not so close to a power of two that `log2` may be rounded to or across an integer. -/
def clear : Val b32 → Bool
  | .fin false n h => decide (n < 2 ^ 149) || n == 2 ^ (exactBits (.fin false n h) + 149) ||
      (decide (2 ^ (exactBits (.fin false n h) + 148) * (2 ^ 17 + 1) < n * 2 ^ 17) &&
       decide (n * 2 ^ 17 ≤ 2 ^ (exactBits (.fin false n h) + 149) * (2 ^ 17 - 1)))
  | _ => true

theorem two_rpow_le {t : ℝ} (h0 : 0 ≤ t) (h1 : t ≤ 1) : (2 : ℝ) ^ t ≤ 1 + t := by
  have := rpow_one_add_le_one_add_mul_self (s := 1) (by norm_num) h0 h1
  norm_num at this
  linarith

theorem realOf_pos {x : Val b32} (h : 0 < valueOf x) : 0 < realOf x := by rw [realOf]; exact_mod_cast h

/-- The result in terms of the argument. -/
theorem bits_spec {lib : Libm} (hlib : AccurateLog2 lib) {x : Val b32} (hx : isFinite x = true) (h1 : 1 ≤ valueOf x) {k : Nat}
    (hk : k < 255) :
    (ceilU8 (lib.log2 x) ≤ k → valueOf x ≤ 2 ^ k * (1 + 1 / 2 ^ 17)) ∧
    (valueOf x ≤ 2 ^ k * (1 - 1 / 2 ^ 17) → ceilU8 (lib.log2 x) ≤ k) := by
  obtain ⟨hf, h0, hn⟩ := hlib.near x hx h1
  rw [ceilU8_le_iff hf hk]
  have hp : 0 < realOf x := realOf_pos (by linarith)
  obtain ⟨l1, l2⟩ := abs_le.mp hn
  have ht : (2 : ℝ) ^ ((1 : ℝ) / 2 ^ 17) ≤ 1 + 1 / 2 ^ 17 := two_rpow_le (by norm_num) (by norm_num)
  have ht0 : (0 : ℝ) < (2 : ℝ) ^ ((1 : ℝ) / 2 ^ 17) := Real.rpow_pos_of_pos (by norm_num) _
  have hL : (2 : ℝ) ^ Real.logb 2 (realOf x) = realOf x := Real.rpow_logb (by norm_num) (by norm_num) hp
  constructor
  · intro h
    have hr : realOf (lib.log2 x) ≤ k := by rw [realOf]; exact_mod_cast h
    have h3 : (2 : ℝ) ^ Real.logb 2 (realOf x) ≤ (2 : ℝ) ^ ((k : ℝ) + 1 / 2 ^ 17) :=
      Real.rpow_le_rpow_of_exponent_le (by norm_num) (by linarith)
    rw [hL, Real.rpow_add (by norm_num), Real.rpow_natCast] at h3
    have h4 : realOf x ≤ 2 ^ k * (1 + 1 / 2 ^ 17) := le_trans h3 (mul_le_mul_of_nonneg_left ht (by positivity))
    rw [realOf] at h4
    have h5 : ((valueOf x : ℚ) : ℝ) ≤ ((2 ^ k * (1 + 1 / 2 ^ 17) : ℚ) : ℝ) := by push_cast; exact h4
    exact_mod_cast h5
  · intro h
    have h4 : realOf x ≤ 2 ^ k * (1 - 1 / 2 ^ 17) := by
      have h5 : ((valueOf x : ℚ) : ℝ) ≤ ((2 ^ k * (1 - 1 / 2 ^ 17) : ℚ) : ℝ) := by exact_mod_cast h
      rw [realOf]; push_cast at h5; exact h5
    have h6 : realOf x * (2 : ℝ) ^ ((1 : ℝ) / 2 ^ 17) ≤ 2 ^ k := by
      have a1 : realOf x * (2 : ℝ) ^ ((1 : ℝ) / 2 ^ 17) ≤ (2 ^ k * (1 - 1 / 2 ^ 17)) * (1 + 1 / 2 ^ 17) :=
        mul_le_mul h4 ht ht0.le (by
          have : (0 : ℝ) ≤ 1 - 1 / 2 ^ 17 := by norm_num
          positivity)
      refine le_trans a1 ?_
      rw [mul_assoc]
      have : (1 - 1 / 2 ^ 17 : ℝ) * (1 + 1 / 2 ^ 17) ≤ 1 := by norm_num
      have h7 := mul_le_mul_of_nonneg_left this (show (0 : ℝ) ≤ 2 ^ k by positivity)
      linarith
    rw [← hL, ← Real.rpow_add (by norm_num), ← Real.rpow_natCast 2 k, Real.rpow_le_rpow_left_iff (by norm_num)] at h6
    have hr : realOf (lib.log2 x) ≤ k := by linarith
    rw [realOf] at hr
    exact_mod_cast hr

/-- Unless the argument is too close to a power of two, the number of bits is the exact one. -/
theorem bits_clear {lib : Libm} (hlib : AccurateLog2 lib) {x : Val b32} (hx : clear x = true) :
    bitsFor lib x = exactBits x := by
  show ceilU8 (lib.log2 x) = exactBits x
  cases x with
  | nan => rw [hlib.nan]; rfl
  | inf s =>
    cases s with
    | true => rw [hlib.negative.1]; rfl
    | false => rw [hlib.infinite]; rfl
  | fin s n hn =>
    by_cases h0 : n = 0
    · subst h0
      rw [hlib.zero, exactBits, if_pos (.inr (Nat.zero_le _))]
      rfl
    cases s with
    | true => rw [hlib.negative.2 n hn h0, exactBits, if_pos (.inl rfl)]; rfl
    | false =>
      have hv : valueOf (.fin false n hn : Val b32) = (n : ℚ) / 2 ^ 149 := by
        rw [valueOf_fin, show b32.scale = 149 from rfl]; simp [sgn]
      have hnp : (0 : ℚ) < n := by exact_mod_cast Nat.pos_of_ne_zero h0
      have hfin : isFinite (.fin false n hn : Val b32) = true := rfl
      simp only [clear, Bool.or_eq_true, decide_eq_true_eq, beq_iff_eq, Bool.and_eq_true] at hx
      have hsmall : n < 2 ^ 149 → ceilU8 (lib.log2 (.fin false n hn)) = exactBits (.fin false n hn) := by
        intro h
        obtain ⟨hf, hle⟩ := hlib.below_one _ hfin (by rw [hv]; positivity)
          (by rw [hv, div_lt_one (by positivity)]; exact_mod_cast h)
        rw [exactBits, if_pos (.inr h.le)]
        exact Nat.le_zero.mp ((ceilU8_le_iff hf (by norm_num)).mpr (by exact_mod_cast hle))
      by_cases hlt : n < 2 ^ 149
      · exact hsmall hlt
      have hge : 2 ^ 149 ≤ n := Nat.le_of_not_lt hlt
      have h1 : 1 ≤ valueOf (.fin false n hn : Val b32) := by
        rw [hv, le_div_iff₀ (by positivity), one_mul]; exact_mod_cast hge
      have hub : exactBits (.fin false n hn) < 255 := by
        rw [exactBits]
        split
        · omega
        · have hlog : Nat.log2 (n - 1) < 277 := by
            rw [Nat.log2_lt (by omega)]
            have := hn
            have : n ≤ b32.max := ((rep_iff b32 (by decide)).mp hn).2
            exact lt_of_le_of_lt (Nat.sub_le _ _) (lt_of_le_of_lt this (by decide +kernel))
          omega
      generalize exactBits (.fin false n hn) = p at *
      obtain ⟨hf, hnn, _⟩ := hlib.near _ hfin h1
      rcases hx with (h | h) | h
      · exact absurd h hlt
      · have hpow := hlib.power _ hfin p (by
          rw [hv, h, pow_add, Nat.cast_mul, Nat.cast_pow, Nat.cast_ofNat, Nat.cast_pow, Nat.cast_ofNat]
          field_simp)
        apply le_antisymm
        · rw [ceilU8_le_iff hf hub, hpow]
        · by_contra hc
          have h2 := (ceilU8_le_iff hf (k := p - 1) (by omega)).mp (by omega)
          rw [hpow] at h2
          have : p ≤ p - 1 := by exact_mod_cast h2
          omega
      · obtain ⟨ha, hb⟩ := h
        apply le_antisymm
        · refine (bits_spec hlib hfin h1 hub).2 ?_
          rw [hv, div_le_iff₀ (by positivity)]
          have h2 : (n : ℚ) * 2 ^ 17 ≤ 2 ^ (p + 149) * (2 ^ 17 - 1) := by
            have : ((n * 2 ^ 17 : ℕ) : ℚ) ≤ ((2 ^ (p + 149) * (2 ^ 17 - 1) : ℕ) : ℚ) := by exact_mod_cast hb
            push_cast [show (1 : ℕ) ≤ 2 ^ 17 by norm_num] at this
            norm_num at this ⊢
            linarith
          rw [pow_add] at h2
          have e : (2 : ℚ) ^ p * (1 - 1 / 2 ^ 17) * 2 ^ 149 = 2 ^ p * 2 ^ 149 * (2 ^ 17 - 1) / 2 ^ 17 := by ring
          rw [e, le_div_iff₀ (by norm_num)]
          exact h2
        · by_contra hc
          have h2 := (bits_spec hlib hfin h1 (k := p - 1) (by omega)).1 (by omega)
          rw [hv, div_le_iff₀ (by positivity)] at h2
          have h3 : (2 : ℚ) ^ (p + 148) * (2 ^ 17 + 1) < n * 2 ^ 17 := by exact_mod_cast ha
          have e : (2 : ℚ) ^ (p + 148) = 2 ^ (p - 1) * 2 ^ 149 := by
            rw [← pow_add]; congr 1; omega
          rw [e] at h3
          have e2 : (2 : ℚ) ^ (p - 1) * (1 + 1 / 2 ^ 17) * 2 ^ 149 * 2 ^ 17 = 2 ^ (p - 1) * 2 ^ 149 * (2 ^ 17 + 1) := by ring
          have h4 := mul_le_mul_of_nonneg_right h2 (show (0 : ℚ) ≤ 2 ^ 17 by positivity)
          linarith

/-- The number of bits is enough, up to a factor of `1 + 2^-17`. -/
theorem bits_le {lib : Libm} (hlib : AccurateLog2 lib) {r : Val b32} {p : Nat} (h : ceilU8 (lib.log2 r) = p) (hp : p < 255) :
    valueOf r ≤ 2 ^ p * (1 + 1 / 2 ^ 17) := by
  have hpos : (1 : ℚ) ≤ 2 ^ p * (1 + 1 / 2 ^ 17) := by
    have : (1 : ℚ) ≤ 2 ^ p := one_le_pow₀ (by norm_num)
    norm_num
    linarith
  by_cases hf : isFinite r = true
  · rcases lt_or_ge (valueOf r) 1 with h1 | h1
    · linarith
    · exact (bits_spec hlib hf h1 hp).1 h.le
  · cases r with
    | nan => simp only [valueOf]; linarith
    | inf s => simp only [valueOf]; linarith
    | fin s n hn => exact absurd rfl hf

theorem bits_pos {lib : Libm} (hlib : AccurateLog2 lib) {r : Val b32} {p : Nat} (h : ceilU8 (lib.log2 r) = p) (hp1 : 1 ≤ p)
    (hp : p < 255) : isFinite r = true ∧ 1 ≤ valueOf r := by
  cases r with
  | nan => rw [hlib.nan, ceilU8] at h; omega
  | inf s =>
    cases s with
    | true => rw [hlib.negative.1, ceilU8] at h; omega
    | false => rw [hlib.infinite, ceilU8] at h; simp at h; omega
  | fin s n hn =>
    refine ⟨rfl, ?_⟩
    by_contra hc
    push Not at hc
    by_cases h0 : n = 0
    · subst h0
      rw [hlib.zero, ceilU8, if_pos rfl] at h
      omega
    cases s with
    | true => rw [hlib.negative.2 n hn h0, ceilU8] at h; omega
    | false =>
      obtain ⟨hf, hle⟩ := hlib.below_one _ rfl (by
        rw [valueOf_fin]; simp only [sgn, Bool.false_eq_true, if_false, one_mul]
        exact div_pos (by exact_mod_cast Nat.pos_of_ne_zero h0) (units_pos _)) hc
      have := (ceilU8_le_iff hf (k := 0) (by norm_num)).mpr (by exact_mod_cast hle)
      omega

end Tmf.Ieee
