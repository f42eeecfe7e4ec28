import Verif.Lemmas.Quantize
/-
Decoding through f64: dividing in f64 and rounding the quotient to f32 gives the same as dividing
in f32, because the quotients are never too close to the middle of two f32 values.
-/

set_option exponentiation.threshold 2000

namespace Tmf.Ieee

/-- `c / (2^p - 1)` in f64, in units of 2^-1074. -/
def decWide (p c : Nat) : Nat := b64.round (c * 2 ^ 1074) (2 ^ p - 1)

theorem round_congr (f : Fmt) (hp : 0 < f.prec) {num den num' den' : Nat} (hd : 0 < den) (hd' : 0 < den')
    (h : (num : ℚ) / den = (num' : ℚ) / den') : f.round num den = f.round num' den' :=
  Nat.le_antisymm (round_mono f hd hd' hp h.le) (round_mono f hd' hd hp h.ge)

/-- Two adjacent candidates `D`, `E` of the same number `q`, one nearest to `q`, the other nearest to
`y`: their middle lies between `q` and `y`. -/
theorem middle_between {D E q y : ℚ} (h1 : |D - q| ≤ |E - q|) (h2 : |E - y| ≤ |D - y|) (hne : D ≠ E) :
    (2 * q ≤ D + E ∧ D + E ≤ 2 * y) ∨ (2 * y ≤ D + E ∧ D + E ≤ 2 * q) := by
  have h1 := sq_le_sq.mpr h1
  have h2 := sq_le_sq.mpr h2
  rcases lt_or_gt_of_ne hne with h | h
  · left
    constructor <;> nlinarith
  · right
    constructor <;> nlinarith

theorem scale_sub {B : ℚ} (hB : B ≠ 0) (A W c m : ℚ) : W * A / B - c * A / m = (W - c * B / m) * (A / B) := by
  by_cases hm : m = 0
  · subst hm
    simp only [div_zero, sub_zero]
    field_simp
  · field_simp

theorem round_decWide {p c : Nat} (hp1 : 1 ≤ p) (hp : p ≤ 24) (hc : c ≤ 2 ^ p - 1) :
    b32.round (decWide p c * 2 ^ 149) (2 ^ 1074) = dec p c := by
  have hm1 := one_le_mask hp1
  have hm24 := mask_lt hp
  have hmq : (0 : ℚ) < ((2 ^ p - 1 : Nat) : ℚ) := by exact_mod_cast hm1
  -- if the f64 quotient is exact there is nothing to show
  have hexact : ∀ y, b64.Flt y → (y : ℚ) * ((2 ^ p - 1 : Nat) : ℚ) = (c : ℚ) * 2 ^ 1074 →
      b32.round (decWide p c * 2 ^ 149) (2 ^ 1074) = dec p c := by
    intro y hy he
    have hY : decWide p c = y := by
      rw [decWide, ← round_of_flt b64 (by decide) hy]
      refine round_congr b64 (by decide) hm1 (by decide) ?_
      rw [Nat.cast_one, div_one, div_eq_iff (ne_of_gt hmq), he, Nat.cast_mul, Nat.cast_pow, Nat.cast_ofNat]
    rw [hY, dec]
    refine round_congr b32 (by decide) (by positivity) hm1 ?_
    rw [div_eq_div_iff (by positivity) (ne_of_gt hmq)]
    rw [Nat.cast_mul y, Nat.cast_mul c, Nat.cast_pow 2 149, Nat.cast_pow 2 1074, Nat.cast_ofNat, mul_right_comm, he,
      mul_right_comm]
  rcases Nat.eq_zero_or_pos c with rfl | hpos
  · exact hexact 0 ⟨0, 0, by decide, rfl⟩ (by simp)
  rcases Nat.lt_or_eq_of_le hc with hlt | rfl
  swap
  · exact hexact (2 ^ 1074) ⟨1, 1074, by decide, by rw [Nat.one_mul]⟩ (by push_cast; ring)
  obtain ⟨k, hk, hk'⟩ : ∃ k, 2 ^ k ≤ c ∧ c < 2 ^ (k + 1) :=
    ⟨c.log2, Nat.log2_self_le (by omega), Nat.lt_log2_self⟩
  have hkp := k_lt hp1 hp hk hk' hlt
  obtain ⟨w1, w2⟩ := div_floor hp1 hp hk hk' hlt 1074 (by decide)
  obtain ⟨n1, n2⟩ := dec_floor hp1 hp hk hk' hlt
  -- the f64 quotient is close
  have hY := round_close b64 (num := c * 2 ^ 1074) (den := 2 ^ p - 1) hm1
  rw [spacing_of_bounds b64 w1 w2 (by show 53 ≤ _; omega), ← decWide,
    show k + 1074 - p + 1 - b64.prec = k + 1022 - p by show k + 1074 - p + 1 - 53 = _; omega] at hY
  have hYge : 2 ^ (k + 1074 - p) ≤ decWide p c :=
    flt_le_round b64 hm1 (by decide) ⟨1, _, by decide, by rw [Nat.one_mul]⟩ ((le_div_iff_floor hm1).mpr w1)
  by_contra hne
  have hDge := dec_ge hp1 hp hk hk' hlt
  have hEge : 2 ^ (k + 149 - p) ≤ b32.round (decWide p c * 2 ^ 149) (2 ^ 1074) := by
    refine flt_le_round b32 (by positivity) (by decide) ⟨1, _, by decide, by rw [Nat.one_mul]⟩ ?_
    rw [le_div_iff₀ (by positivity)]
    have : 2 ^ (k + 149 - p) * 2 ^ 1074 ≤ decWide p c * 2 ^ 149 := by
      calc 2 ^ (k + 149 - p) * 2 ^ 1074 = 2 ^ (k + 1074 - p) * 2 ^ 149 := by
            rw [← Nat.pow_add, ← Nat.pow_add]; congr 1; omega
        _ ≤ _ := Nat.mul_le_mul_right _ hYge
    exact_mod_cast this
  have hu : ∀ y, b32.Flt y → 2 ^ (k + 149 - p) ≤ y → 2 ^ (k + 126 - p) ∣ y := by
    intro y hy h
    have := flt_dvd b32 hy h (by show 24 ≤ _; omega)
    rwa [show k + 149 - p + 1 - b32.prec = k + 126 - p by show k + 149 - p + 1 - 24 = _; omega] at this
  have hEflt : b32.Flt (b32.round (decWide p c * 2 ^ 149) (2 ^ 1074)) := round_flt b32 (by positivity) (by decide)
  have hD := round_nearest b32 (num := c * 2 ^ 149) (den := 2 ^ p - 1) hm1 (by decide) hEflt
  have hE := round_nearest b32 (num := decWide p c * 2 ^ 149) (den := 2 ^ 1074) (by positivity) (by decide)
    (dec_flt hp1 c)
  rw [← dec] at hD
  have hdD := hu _ (dec_flt hp1 c) hDge
  have hdE := hu _ hEflt hEge
  generalize hEe : b32.round (decWide p c * 2 ^ 149) (2 ^ 1074) = E at *
  generalize hDe : dec p c = D at *
  -- the quotients in units of 2^-149
  set q : ℚ := ((c * 2 ^ 149 : Nat) : ℚ) / ((2 ^ p - 1 : Nat) : ℚ) with hq
  set y : ℚ := ((decWide p c * 2 ^ 149 : Nat) : ℚ) / ((2 ^ 1074 : Nat) : ℚ) with hy
  have hqm : q * ((2 ^ p - 1 : Nat) : ℚ) = c * 2 ^ 149 := by
    rw [hq, div_mul_cancel₀ _ (ne_of_gt hmq)]; push_cast; rfl
  have hclose : |y - q| ≤ 2 ^ (k + 96 - p) := by
    have e : y - q = ((decWide p c : ℚ) - ((c * 2 ^ 1074 : Nat) : ℚ) / ((2 ^ p - 1 : Nat) : ℚ)) * (2 ^ 149 / 2 ^ 1074) := by
      rw [hy, hq, Nat.cast_mul, Nat.cast_mul, Nat.cast_mul, Nat.cast_pow 2 149, Nat.cast_pow 2 1074, Nat.cast_ofNat]
      exact scale_sub (by positivity) _ _ _ _
    have e2 : (2 : ℚ) ^ (k + 96 - p) = 2 ^ (k + 1022 - p) / 2 * (2 ^ 149 / 2 ^ 1074) := by
      rw [div_mul_div_comm, eq_div_iff (by positivity), ← pow_add, ← pow_succ', ← pow_add]
      congr 1; omega
    rw [e, abs_mul, abs_of_pos (show (0 : ℚ) < 2 ^ 149 / 2 ^ 1074 by positivity), e2]
    exact mul_le_mul_of_nonneg_right hY (by positivity)
  have hne' : (D : ℚ) ≠ E := by
    intro h
    exact hne (by exact_mod_cast h.symm)
  have hmid := middle_between hD hE hne'
  -- the middle is so close to `q` that it is `q`
  have habs : |((D : ℚ) + E) * ((2 ^ p - 1 : Nat) : ℚ) - 2 * (c * 2 ^ 149)| < 2 ^ (k + 126 - p) := by
    have h1 : |((D : ℚ) + E) - 2 * q| ≤ 2 * 2 ^ (k + 96 - p) := by
      rw [abs_le] at hclose ⊢
      rcases hmid with ⟨a, b⟩ | ⟨a, b⟩ <;> constructor <;> linarith [hclose.1, hclose.2]
    have e : ((D : ℚ) + E) * ((2 ^ p - 1 : Nat) : ℚ) - 2 * (c * 2 ^ 149) = (((D : ℚ) + E) - 2 * q) * ((2 ^ p - 1 : Nat) : ℚ) := by
      rw [sub_mul, mul_assoc 2, hqm]
    have hm : ((2 ^ p - 1 : Nat) : ℚ) < 2 ^ 24 := by exact_mod_cast hm24
    rw [e, abs_mul, abs_of_pos hmq]
    have e3 : (2 : ℚ) ^ (k + 126 - p) = 2 ^ (k + 96 - p) * 2 ^ 30 := by rw [← pow_add]; congr 1; omega
    rw [e3]
    have hpp : (0 : ℚ) < 2 ^ (k + 96 - p) := by positivity
    calc _ ≤ 2 * 2 ^ (k + 96 - p) * ((2 ^ p - 1 : Nat) : ℚ) := mul_le_mul_of_nonneg_right h1 hmq.le
      _ ≤ 2 * 2 ^ (k + 96 - p) * 2 ^ 24 := mul_le_mul_of_nonneg_left hm.le (by positivity)
      _ < _ := by nlinarith
  obtain ⟨D', rfl⟩ := hdD
  obtain ⟨E', rfl⟩ := hdE
  have hpow : (c : ℚ) * 2 ^ 149 = 2 ^ (k + 126 - p) * (c * 2 ^ (p + 23 - k)) := by
    rw [mul_left_comm, ← pow_add]; congr 2; omega
  have heq : (D' + E') * (2 ^ p - 1) = 2 * (c * 2 ^ (p + 23 - k)) := by
    have e : ((2 ^ (k + 126 - p) * D' : Nat) + (2 ^ (k + 126 - p) * E' : Nat) : ℚ) * ((2 ^ p - 1 : Nat) : ℚ) -
        2 * (c * 2 ^ 149) = 2 ^ (k + 126 - p) *
          (((((D' + E') * (2 ^ p - 1) : Nat) : ℤ) - ((2 * (c * 2 ^ (p + 23 - k)) : Nat) : ℤ) : ℤ) : ℚ) := by
      rw [hpow, Int.cast_sub, Int.cast_natCast, Int.cast_natCast, Nat.cast_mul (D' + E'), Nat.cast_mul (2 ^ (k + 126 - p)),
        Nat.cast_mul (2 ^ (k + 126 - p)), Nat.cast_add]
      push_cast
      ring
    rw [e, abs_mul, abs_of_pos (show (0 : ℚ) < 2 ^ (k + 126 - p) by positivity)] at habs
    have h1 : |(((((D' + E') * (2 ^ p - 1) : Nat) : ℤ) - ((2 * (c * 2 ^ (p + 23 - k)) : Nat) : ℤ) : ℤ) : ℚ)| < 1 := by
      by_contra h
      push Not at h
      have := mul_le_mul_of_nonneg_left h (show (0 : ℚ) ≤ 2 ^ (k + 126 - p) by positivity)
      linarith
    rw [← Int.cast_abs] at h1
    have h2 : |(((D' + E') * (2 ^ p - 1) : Nat) : ℤ) - ((2 * (c * 2 ^ (p + 23 - k)) : Nat) : ℤ)| < 1 := by exact_mod_cast h1
    have h3 := Int.abs_lt_one_iff.mp h2
    omega
  -- then the f64 quotient is exact
  have hsum : D' + E' < 2 ^ 26 := by
    by_contra h
    push Not at h
    have h1 : 2 ^ 26 * (2 ^ p - 1) ≤ 2 * (c * 2 ^ (p + 23 - k)) := by
      rw [← heq]; exact Nat.mul_le_mul_right _ h
    have h2 : c * 2 ^ (p + 23 - k) < 2 ^ (k + 1) * 2 ^ (p + 23 - k) := Nat.mul_lt_mul_of_pos_right hk' (by positivity)
    rw [← Nat.pow_add, show k + 1 + (p + 23 - k) = p + 24 by omega] at h2
    have h3 : 2 ^ (p + 24) = 2 ^ p * 2 ^ 24 := Nat.pow_add _ _ _
    have h4 : 2 ≤ 2 ^ p := by
      calc 2 = 2 ^ 1 := rfl
        _ ≤ 2 ^ p := Nat.pow_le_pow_right (by omega) hp1
    omega
  have hfl : b64.Flt ((D' + E') * 2 ^ (k + 1050 - p)) := ⟨_, _, lt_trans hsum (by decide), rfl⟩
  refine hne ((hexact _ hfl ?_))
  have hq' : (((D' + E') * (2 ^ p - 1) : Nat) : ℚ) = ((2 * (c * 2 ^ (p + 23 - k)) : Nat) : ℚ) := by exact_mod_cast heq
  rw [Nat.cast_mul] at hq'
  rw [Nat.cast_mul, mul_right_comm, hq']
  push_cast
  rw [mul_assoc, mul_assoc, ← pow_add, mul_left_comm, ← pow_succ']
  congr 2
  omega

end Tmf.Ieee
