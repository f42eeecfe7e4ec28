import Verif.Spec.Outside
import Verif.Lemmas.Order
/-
C110: numbers outside [0,1] stored with `p` bits.
-/

set_option exponentiation.threshold 2000

namespace Tmf
open Spec Ieee

/-- The largest code as a number: exact up to 24 bits, `2^p` from there on. -/
theorem mask_atLeast {p : Nat} (hp1 : 1 ≤ p) (hp : p ≤ 30) :
    ∃ k hk, (2 ^ p - 1) * 2 ^ 149 ≤ k ∧ k ≠ 0 ∧ (ofNat (2 ^ p - 1) : Val b32) = .fin false k hk := by
  rcases Nat.lt_or_ge 24 p with h | h
  · have hr : b32.Rep (2 ^ p * 2 ^ 149) := by interval_cases p <;> decide +kernel
    have e : (ofNat (2 ^ p - 1) : Val b32) = pack false (2 ^ p * 2 ^ 149) := by interval_cases p <;> decide +kernel
    exact ⟨_, hr, Nat.mul_le_mul_right _ (Nat.sub_le _ _), by positivity, by rw [e, pack, dif_pos hr]⟩
  · exact ⟨_, _, le_rfl, Nat.mul_ne_zero (by have := one_le_mask hp1; omega) (by positivity), ofNat_exact (mask_lt h).le⟩

section
variable {p : Nat} (hp1 : 1 ≤ p) (hp : p ≤ 30)
include hp1 hp

theorem code_notAbove {x : Val b32} (h : NotAbove x) : toU64 (mul x (ofNat (2 ^ p - 1))) = 0 := by
  obtain ⟨k, hk, -, k0, e⟩ := mask_atLeast hp1 hp
  rw [e]
  cases x with
  | nan => rfl
  | inf s =>
    have h : s = true := h
    subst h
    simp only [mul]
    rw [if_neg k0]
    rfl
  | fin s n hn =>
    have h : s = true := h
    subst h
    exact toU64_neg_mul hn hk rfl

theorem code_tooFar {x : Val b32} (h : TooFar p x) : toU64 (mul x (ofNat (2 ^ p - 1))) = 2 ^ 64 - 1 := by
  have hm1 := one_le_mask hp1
  have hmq : ((2 ^ p - 1 : Nat) : ℚ) = 2 ^ p - 1 := by push_cast [Nat.one_le_two_pow]; ring
  have hm0 : (1 : ℚ) ≤ 2 ^ p - 1 := by rw [← hmq]; exact_mod_cast hm1
  obtain ⟨k, hk, hle, k0, e⟩ := mask_atLeast hp1 hp
  rw [e]
  cases x with
  | nan => exact h.elim
  | inf s =>
    have h : s = false := h
    subst h
    simp only [mul]
    rw [if_neg k0]
    rfl
  | fin s n hn =>
    have h : (2 : ℚ) ^ 64 ≤ valueOf (.fin s n hn : Val b32) * (2 ^ p - 1) := h
    rw [valueOf_fin] at h
    cases s with
    | true =>
      exfalso
      have : 0 ≤ (n : ℚ) / 2 ^ b32.scale * (2 ^ p - 1) := mul_nonneg (by positivity) (by linarith)
      simp only [sgn, if_true] at h
      have : (0 : ℚ) < 2 ^ 64 := by norm_num
      linarith
    | false =>
      simp only [sgn, Bool.false_eq_true, if_false, one_mul] at h
      rw [show b32.scale = 149 from rfl, div_mul_eq_mul_div, le_div_iff₀ (by positivity), ← hmq] at h
      have h : 2 ^ 64 * 2 ^ 149 ≤ n * (2 ^ p - 1) := by exact_mod_cast h
      simp only [mul, rounded]
      have hr : 2 ^ 64 * 2 ^ 149 ≤ b32.round (n * k) (2 ^ b32.scale) := by
        refine flt_le_round b32 (by positivity) (by decide) ⟨1, 213, by decide, by norm_num⟩ ?_
        rw [le_div_iff₀ (by positivity), show b32.scale = 149 from rfl]
        have := Nat.mul_le_mul_right (2 ^ 149) h
        rw [Nat.mul_assoc n] at this
        exact_mod_cast this.trans (Nat.mul_le_mul_left n hle)
      rw [pack]
      split
      · simp only [bne_self_eq_false, toU64, Bool.false_eq_true, if_false]
        have : 2 ^ 64 ≤ b32.round (n * k) (2 ^ b32.scale) / 2 ^ b32.scale :=
          (Nat.le_div_iff_mul_le (by positivity)).mpr hr
        exact Nat.min_eq_right (by omega)
      · rfl

end

section
variable {p : Nat} (hp1 : 1 ≤ p) (hp : p ≤ 24)
include hp1 hp

/-- The value of a code. -/
theorem dec_value {c : Nat} (hc : c ≤ 2 ^ p - 1) (h : b32.Rep (dec p c)) :
    |valueOf (.fin false (dec p c) h : Val b32) - c / (2 ^ p - 1)| ≤ c / (2 ^ p - 1) / 2 ^ 24 + 1 / 2 ^ 150 := by
  have hm24 := mask_lt hp
  have hm1 := one_le_mask hp1
  have hmq : ((2 ^ p - 1 : Nat) : ℚ) = 2 ^ p - 1 := by push_cast [Nat.one_le_two_pow]; ring
  have hm0 : (1 : ℚ) ≤ 2 ^ p - 1 := by rw [← hmq]; exact_mod_cast hm1
  obtain ⟨f1, v1⟩ := ofNat_value (show c ≤ 2 ^ 24 by omega)
  obtain ⟨f2, v2⟩ := ofNat_value hm24.le
  have hcq : (c : ℚ) ≤ 2 ^ p - 1 := by rw [← hmq]; exact_mod_cast hc
  have hq0 : (0 : ℚ) ≤ c / (2 ^ p - 1) := by positivity
  have hq1 : (c : ℚ) / (2 ^ p - 1) ≤ 1 := by rw [div_le_one (by linarith)]; exact hcq
  obtain ⟨-, hv⟩ := div_value (f := b32) (by decide) f1 f2 (by rw [v2, hmq]; linarith) (by
    rw [v1, v2, hmq, abs_of_nonneg hq0]
    exact le_trans hq1 (le_trans (show (1 : ℚ) ≤ 2 ^ 127 by norm_num) maxV32))
  rw [div_code hp1 hp hc, v1, v2, hmq] at hv
  have := rnd_error (f := b32) (by decide) ((c : ℚ) / (2 ^ p - 1))
  rw [abs_of_nonneg hq0] at this
  rw [hv]
  exact this

/-- The code before it is cut to `p` bits. -/
theorem code_beyond {x : Val b32} (hf : isFinite x = true) (h0 : 0 ≤ valueOf x) (h1 : valueOf x * (2 ^ p - 1) ≤ 2 ^ 20) :
    valueOf x * (2 ^ p - 1) - 17 / 16 ≤ toU64 (mul x (ofNat (2 ^ p - 1))) ∧
    (toU64 (mul x (ofNat (2 ^ p - 1))) : ℚ) ≤ valueOf x * (2 ^ p - 1) + 1 / 16 := by
  have hm1 := one_le_mask hp1
  have hmq : ((2 ^ p - 1 : Nat) : ℚ) = 2 ^ p - 1 := by push_cast [Nat.one_le_two_pow]; ring
  have hm0 : (1 : ℚ) ≤ 2 ^ p - 1 := by rw [← hmq]; exact_mod_cast hm1
  obtain ⟨f2, v2⟩ := ofNat_value (mask_lt hp).le
  have hq0 : 0 ≤ valueOf x * (2 ^ p - 1) := mul_nonneg h0 (by linarith)
  obtain ⟨fm, vm⟩ := mul_value (f := b32) (by decide) hf f2 (by
    rw [v2, hmq, abs_of_nonneg hq0]
    exact le_trans h1 (le_trans (show (2 : ℚ) ^ 20 ≤ 2 ^ 127 by norm_num) maxV32))
  rw [v2, hmq] at vm
  obtain ⟨s, n, hn, rfl⟩ := finite_cases hf
  have he : |rnd b32 (valueOf (.fin s n hn : Val b32) * (2 ^ p - 1)) - valueOf (.fin s n hn : Val b32) * (2 ^ p - 1)| ≤
      valueOf (.fin s n hn : Val b32) * (2 ^ p - 1) / 2 ^ 24 := by
    have := rnd_error_units (f := b32) (by decide) (v := valueOf (.fin s n hn : Val b32) * (2 ^ p - 1))
      (k := signed s n * ((2 ^ p - 1 : Nat) : ℤ)) (by
        rw [Int.cast_mul, Int.cast_natCast, hmq, valueOf]
        have := (units_pos b32).ne'
        field_simp)
    rwa [abs_of_nonneg hq0] at this
  rw [← vm] at he
  obtain ⟨e1, e2⟩ := abs_le.mp he
  have h20 : valueOf (.fin s n hn : Val b32) * (2 ^ p - 1) / 2 ^ 24 ≤ 1 / 16 := by
    rw [div_le_iff₀ (by positivity)]; linarith [show (1 : ℚ) / 16 * 2 ^ 24 = 2 ^ 20 by norm_num]
  have hnn : 0 ≤ valueOf (mul (.fin s n hn : Val b32) (ofNat (2 ^ p - 1))) := by
    rw [vm]
    exact rnd_nonneg hq0
  obtain ⟨t1, t2⟩ := toU64_value fm hnn (by linarith [show (2 : ℚ) ^ 20 + 1 / 16 < 2 ^ 64 by norm_num])
  constructor <;> linarith

/-- C110 for one number. -/
theorem outside_unitDec (x : Val b32) : Outside p x (.fin false (unitDec p x) (dec_rep hp1 hp (mod_le_mask p _))) := by
  have hm1 := one_le_mask hp1
  have hmq : ((2 ^ p - 1 : Nat) : ℚ) = 2 ^ p - 1 := by push_cast [Nat.one_le_two_pow]; ring
  have hm0 : (1 : ℚ) ≤ 2 ^ p - 1 := by rw [← hmq]; exact_mod_cast hm1
  constructor
  · intro h
    have e : unitDec p x = 0 := by rw [unitDec, code_notAbove hp1 (le_trans hp (by decide)) h, Nat.zero_mod, dec_zero p hp1]
    simp only [e]
  · intro h
    have e : unitDec p x = 2 ^ 149 := by
      rw [unitDec, code_tooFar hp1 (le_trans hp (by decide)) h]
      have : (2 ^ 64 - 1) % 2 ^ p = 2 ^ p - 1 := by
        interval_cases p <;> rfl
      rw [this, dec_full hp1]
    simp only [e]
  · intro _ n f hf hx h0 h1 hn h20
    refine ⟨rfl, ?_⟩
    have hx0 : 0 ≤ valueOf x := by rw [hx]; positivity
    obtain ⟨c1, c2⟩ := code_beyond hp1 hp hf hx0 h20
    have hle := mod_le_mask p (toU64 (mul x (ofNat (2 ^ p - 1))))
    have hv := dec_value hp1 hp hle (dec_rep hp1 hp hle)
    show _ ≤ valueOf (.fin false (dec p _) _) ∧ valueOf (.fin false (dec p _) _) ≤ _
    generalize toU64 (mul x (ofNat (2 ^ p - 1))) = k at c1 c2 hle hv ⊢
    have e : valueOf x * (2 ^ p - 1) = n * 2 ^ p - n + f * (2 ^ p - 1) := by rw [hx]; ring
    rw [e] at c1 c2 h20
    have hfm : f * (2 ^ p - 1) ≤ 2 ^ p - 1 := by nlinarith
    have k1 : n * 2 ^ p ≤ k := by
      have : ((n * 2 ^ p : Nat) : ℚ) ≤ k := by push_cast; linarith
      exact_mod_cast this
    have k2 : k < (n + 1) * 2 ^ p := by
      have hn0 : (0 : ℚ) ≤ n := Nat.cast_nonneg n
      have : (k : ℚ) < ((((n + 1) * 2 ^ p : Nat)) : ℚ) := by push_cast; linarith
      exact_mod_cast this
    have hmod : k % 2 ^ p + n * 2 ^ p = k := by
      have h : k / 2 ^ p = n := Nat.div_eq_of_lt_le k1 k2
      have := Nat.mod_add_div k (2 ^ p)
      rw [h, Nat.mul_comm] at this
      exact this
    have hmod' : ((k % 2 ^ p : Nat) : ℚ) = k - n * 2 ^ p := by
      have : (((k % 2 ^ p + n * 2 ^ p : Nat)) : ℚ) = k := by rw [hmod]
      push_cast at this ⊢
      linarith
    rw [hmod'] at hv
    obtain ⟨v1, v2⟩ := abs_le.mp hv
    have hc : (k - n * 2 ^ p : ℚ) ≤ 2 ^ 20 + 1 / 16 := by
      have hn0 : (0 : ℚ) ≤ n * (2 ^ p - 1) := mul_nonneg (Nat.cast_nonneg n) (by linarith)
      linarith
    have hM : (0 : ℚ) < 2 ^ p - 1 := by linarith
    have hp24 : (2 : ℚ) ^ p - 1 ≤ 2 ^ 24 := by
      have := pow_le_pow_right₀ (show (1 : ℚ) ≤ 2 by norm_num) hp
      linarith
    have herr : (k - n * 2 ^ p : ℚ) / (2 ^ p - 1) / 2 ^ 24 + 1 / 2 ^ 150 ≤ 3 / 16 / (2 ^ p - 1) := by
      rw [le_div_iff₀ hM, add_mul, div_div, mul_comm ((2 : ℚ) ^ p - 1) (2 ^ 24), ← div_div, div_mul_cancel₀ _ hM.ne']
      have a1 : (k - n * 2 ^ p : ℚ) / 2 ^ 24 ≤ (2 ^ 20 + 1 / 16) / 2 ^ 24 := by
        rw [div_le_div_iff_of_pos_right (by norm_num)]; linarith
      have a2 : (1 : ℚ) / 2 ^ 150 * (2 ^ p - 1) ≤ 1 / 2 ^ 150 * 2 ^ 24 := mul_le_mul_of_nonneg_left hp24 (by norm_num)
      have a3 : ((2 : ℚ) ^ 20 + 1 / 16) / 2 ^ 24 + 1 / 2 ^ 150 * 2 ^ 24 ≤ 3 / 16 := by norm_num
      linarith
    have b1 : f - (n + 17 / 16) / (2 ^ p - 1) ≤ (k - n * 2 ^ p : ℚ) / (2 ^ p - 1) := by
      rw [le_div_iff₀ hM, sub_mul, div_mul_cancel₀ _ hM.ne']; linarith
    have b2 : (k - n * 2 ^ p : ℚ) / (2 ^ p - 1) ≤ f - (n - 1 / 16) / (2 ^ p - 1) := by
      rw [div_le_iff₀ hM, sub_mul, div_mul_cancel₀ _ hM.ne']; linarith
    have s1 : ((n : ℚ) + 5 / 4) / (2 ^ p - 1) = (n + 17 / 16) / (2 ^ p - 1) + 3 / 16 / (2 ^ p - 1) := by rw [← add_div]; ring_nf
    have s2 : ((n : ℚ) - 1 / 4) / (2 ^ p - 1) = (n - 1 / 16) / (2 ^ p - 1) - 3 / 16 / (2 ^ p - 1) := by rw [← sub_div]; ring_nf
    rw [s1, s2]
    constructor <;> linarith

end

/-- C110 for one number in up to 30 bits, divided in f32 as uv coordinates are. -/
theorem outside_single {p : Nat} (hp1 : 1 ≤ p) (hp : p ≤ 30) (x : Val b32) :
    Outside p x (div (ofNat (toU64 (mul x (ofNat (2 ^ p - 1))) % 2 ^ p)) (ofNat (2 ^ p - 1))) where
  low h := by
    rw [code_notAbove hp1 hp h, Nat.zero_mod]
    interval_cases p <;> decide +kernel
  far h := by
    rw [code_tooFar hp1 hp h]
    interval_cases p <;> decide +kernel
  beyond h := by
    rw [div_code hp1 h (mod_le_mask p _)]
    exact (outside_unitDec hp1 h x).beyond h

/-- C110 for one number in up to 30 bits, divided in f64 as colour channels are. -/
theorem outside_double {p : Nat} (hp1 : 1 ≤ p) (hp : p ≤ 30) (x : Val b32) :
    Outside p x (convert (div (ofNat (toU64 (mul x (ofNat (2 ^ p - 1))) % 2 ^ p) : Val b64) (ofNat (2 ^ p - 1)))) where
  low h := by
    rw [code_notAbove hp1 hp h, Nat.zero_mod]
    interval_cases p <;> decide +kernel
  far h := by
    rw [code_tooFar hp1 hp h]
    interval_cases p <;> decide +kernel
  beyond h := by
    rw [div_code64 hp1 h (mod_le_mask p _)]
    exact (outside_unitDec hp1 h x).beyond h

end Tmf
