import Mathlib.Data.Nat.ModEq
import Mathlib.Data.Nat.Prime.Basic
import Verif.Lemmas.IeeeRound
/-
Quantising a number of [0,1] to `p` bits and back with f32 arithmetic, 1 ≤ p ≤ 24. Everything is in
units of 2^-149: `x` is `X` units, `x * (2^p - 1)` is rounded to `mulR p X` units, the code `c` is
decoded to `dec p c` units.
-/

namespace Tmf.Ieee

/-- `x * (2^p - 1)` in f32. -/
def mulR (p X : Nat) : Nat := b32.round (X * (2 ^ p - 1)) 1
/-- `c / (2^p - 1)` in f32. -/
def dec (p c : Nat) : Nat := b32.round (c * 2 ^ 149) (2 ^ p - 1)

theorem one_le_mask {p : Nat} (h : 1 ≤ p) : 1 ≤ 2 ^ p - 1 := by
  have : 2 ^ 1 ≤ 2 ^ p := Nat.pow_le_pow_right (by omega) h
  omega

theorem mask_lt {p : Nat} (h : p ≤ 24) : 2 ^ p - 1 < 2 ^ 24 := by
  have : 2 ^ p ≤ 2 ^ 24 := Nat.pow_le_pow_right (by omega) h
  have : 0 < 2 ^ p := by positivity
  omega

theorem flt_int {c : Nat} (h : c ≤ 2 ^ 24) : b32.Flt (c * 2 ^ 149) := flt_of_le b32 (by decide) h 149

theorem dec_zero (p : Nat) (h : 1 ≤ p) : dec p 0 = 0 := by
  have h1 : dec p 0 ≤ 0 := by
    refine round_le_flt b32 (one_le_mask h) (by decide) ⟨0, 0, by decide, rfl⟩ ?_
    simp
  omega

theorem dec_full {p : Nat} (h : 1 ≤ p) : dec p (2 ^ p - 1) = 2 ^ 149 := by
  have h1 := round_scale b32 (num := 2 ^ 149) (den := 1) (k := 2 ^ p - 1) (one_le_mask h)
  rw [Nat.one_mul, Nat.mul_comm] at h1
  rw [dec, h1]
  exact round_of_flt b32 (by decide) ⟨1, 149, by decide, by rw [Nat.one_mul]⟩

set_option linter.unusedSectionVars false

section Code
variable {p c k : Nat} (hp1 : 1 ≤ p) (hp : p ≤ 24) (hk : 2 ^ k ≤ c) (hk' : c < 2 ^ (k + 1)) (hc : c < 2 ^ p - 1)
include hp1 hp hk hk' hc

theorem k_lt : k < p := by
  have : 2 ^ k < 2 ^ p := by omega
  exact (Nat.pow_lt_pow_iff_right (by omega)).mp this

theorem div_floor (σ : Nat) (hσ : 24 ≤ σ) :
    2 ^ (k + σ - p) ≤ c * 2 ^ σ / (2 ^ p - 1) ∧ c * 2 ^ σ / (2 ^ p - 1) < 2 ^ (k + σ - p + 1) := by
  have hkp := k_lt hp1 hp hk hk' hc
  have hm := one_le_mask hp1
  have hpow : 2 ^ (k + σ - p) * 2 ^ p = 2 ^ k * 2 ^ σ := by
    rw [← Nat.pow_add, ← Nat.pow_add]; congr 1; omega
  constructor
  · rw [Nat.le_div_iff_mul_le hm]
    calc 2 ^ (k + σ - p) * (2 ^ p - 1) ≤ 2 ^ (k + σ - p) * 2 ^ p := Nat.mul_le_mul_left _ (Nat.sub_le _ _)
      _ = 2 ^ k * 2 ^ σ := hpow
      _ ≤ c * 2 ^ σ := Nat.mul_le_mul_right _ hk
  · rw [Nat.div_lt_iff_lt_mul hm]
    have h1 : c * 2 ^ p < 2 ^ (k + 1) * (2 ^ p - 1) := by
      have hle : 2 ^ (k + 1) ≤ 2 ^ p := Nat.pow_le_pow_right (by omega) (by omega)
      have e : 2 ^ (k + 1) * (2 ^ p - 1) = 2 ^ (k + 1) * 2 ^ p - 2 ^ (k + 1) := by rw [Nat.mul_sub, Nat.mul_one]
      rw [e]
      rcases Nat.lt_or_eq_of_le hle with hlt | heq
      · have : (c + 1) * 2 ^ p ≤ 2 ^ (k + 1) * 2 ^ p := Nat.mul_le_mul_right _ hk'
        rw [Nat.add_mul, Nat.one_mul] at this
        omega
      · have : (c + 2) * 2 ^ p ≤ 2 ^ (k + 1) * 2 ^ p := Nat.mul_le_mul_right _ (by omega)
        rw [Nat.add_mul] at this
        have : 0 < 2 ^ p := by positivity
        omega
    have e2 : 2 ^ (k + σ - p + 1) * 2 ^ p = 2 ^ (k + 1) * 2 ^ σ := by
      rw [← Nat.pow_add, ← Nat.pow_add]; congr 1; omega
    have hpos : 0 < 2 ^ p := by positivity
    refine Nat.lt_of_mul_lt_mul_left (a := 2 ^ p) ?_
    calc 2 ^ p * (c * 2 ^ σ) = c * 2 ^ p * 2 ^ σ := by ring
      _ < 2 ^ (k + 1) * (2 ^ p - 1) * 2 ^ σ := Nat.mul_lt_mul_of_pos_right h1 (by positivity)
      _ = (2 ^ (k + 1) * 2 ^ σ) * (2 ^ p - 1) := by ring
      _ = (2 ^ (k + σ - p + 1) * 2 ^ p) * (2 ^ p - 1) := by rw [e2]
      _ = 2 ^ p * (2 ^ (k + σ - p + 1) * (2 ^ p - 1)) := by ring

theorem dec_floor : 2 ^ (k + 149 - p) ≤ c * 2 ^ 149 / (2 ^ p - 1) ∧ c * 2 ^ 149 / (2 ^ p - 1) < 2 ^ (k + 149 - p + 1) :=
  div_floor hp1 hp hk hk' hc 149 (by decide)

theorem dec_close : |(dec p c : ℚ) - ((c * 2 ^ 149 : Nat) : ℚ) / ((2 ^ p - 1 : Nat) : ℚ)| ≤ 2 ^ (k + 126 - p) / 2 := by
  have h := round_close b32 (num := c * 2 ^ 149) (den := 2 ^ p - 1) (one_le_mask hp1)
  obtain ⟨h1, h2⟩ := dec_floor hp1 hp hk hk' hc
  have hkp := k_lt hp1 hp hk hk' hc
  rw [spacing_of_bounds b32 h1 h2 (by show 24 ≤ _; omega)] at h
  have e : k + 149 - p + 1 - b32.prec = k + 126 - p := by show k + 149 - p + 1 - 24 = _; omega
  rwa [e] at h

theorem dec_mul_close : |(dec p c : ℚ) * ((2 ^ p - 1 : Nat) : ℚ) - (c : ℚ) * 2 ^ 149| < 2 ^ (k + 125) := by
  have h := dec_close hp1 hp hk hk' hc
  have hm := one_le_mask hp1
  have hkp := k_lt hp1 hp hk hk' hc
  have hmq : (0 : ℚ) < ((2 ^ p - 1 : Nat) : ℚ) := by exact_mod_cast hm
  have hmlt : ((2 ^ p - 1 : Nat) : ℚ) < 2 ^ p := by
    have : 0 < 2 ^ p := by positivity
    have : (2 ^ p - 1 : Nat) < 2 ^ p := by omega
    exact_mod_cast this
  have e : (dec p c : ℚ) * ((2 ^ p - 1 : Nat) : ℚ) - (c : ℚ) * 2 ^ 149 =
      ((dec p c : ℚ) - ((c * 2 ^ 149 : Nat) : ℚ) / ((2 ^ p - 1 : Nat) : ℚ)) * ((2 ^ p - 1 : Nat) : ℚ) := by
    rw [sub_mul, div_mul_cancel₀ _ (ne_of_gt hmq)]
    push_cast
    ring
  have e2 : (2 : ℚ) ^ (k + 125) = 2 ^ (k + 126 - p) / 2 * 2 ^ p := by
    rw [div_mul_eq_mul_div, ← pow_add, show k + 126 - p + p = k + 125 + 1 by omega, pow_succ]
    ring
  rw [e, abs_mul, abs_of_pos hmq, e2]
  calc _ ≤ 2 ^ (k + 126 - p) / 2 * ((2 ^ p - 1 : Nat) : ℚ) := mul_le_mul_of_nonneg_right h hmq.le
    _ < _ := mul_lt_mul_of_pos_left hmlt (by positivity)

theorem dec_ge : 2 ^ (k + 149 - p) ≤ dec p c := by
  obtain ⟨h1, _⟩ := dec_floor hp1 hp hk hk' hc
  exact flt_le_round b32 (one_le_mask hp1) (by decide) ⟨1, _, by decide, by rw [Nat.one_mul]⟩
    ((le_div_iff_floor (one_le_mask hp1)).mpr h1)

end Code

theorem dec_flt {p : Nat} (h : 1 ≤ p) (c : Nat) : b32.Flt (dec p c) := round_flt b32 (one_le_mask h) (by decide)
theorem mulR_flt (p X : Nat) : b32.Flt (mulR p X) := round_flt b32 (by decide) (by decide)

theorem mulR_nearest (p X : Nat) {y : Nat} (hy : b32.Flt y) :
    |(mulR p X : ℚ) - (X : ℚ) * ((2 ^ p - 1 : Nat) : ℚ)| ≤ |(y : ℚ) - (X : ℚ) * ((2 ^ p - 1 : Nat) : ℚ)| := by
  have := round_nearest b32 (num := X * (2 ^ p - 1)) (den := 1) (by decide) (by decide) hy
  rwa [Nat.cast_one, div_one, Nat.cast_mul] at this

theorem mulR_le {p X y : Nat} (hy : b32.Flt y) (h : X * (2 ^ p - 1) ≤ y) : mulR p X ≤ y :=
  round_le_flt b32 (by decide) (by decide) hy (by rw [Nat.cast_one, div_one]; exact_mod_cast h)

theorem le_mulR {p X y : Nat} (hy : b32.Flt y) (h : y ≤ X * (2 ^ p - 1)) : y ≤ mulR p X :=
  flt_le_round b32 (by decide) (by decide) hy (by rw [Nat.cast_one, div_one]; exact_mod_cast h)

theorem mulR_mono (p : Nat) {X Y : Nat} (h : X ≤ Y) : mulR p X ≤ mulR p Y :=
  round_mono b32 (by decide) (by decide) (by decide)
    (by rw [Nat.cast_one, div_one, div_one]; exact_mod_cast Nat.mul_le_mul_right _ h)

/-- Powers of two and the full code: finitely many codes, checked one by one. -/
theorem power_codes : ∀ p < 25, ∀ k < p, 0 < p → 2 ^ k < 2 ^ p - 1 →
    2 ^ k * 2 ^ 149 ≤ mulR p (dec p (2 ^ k)) ∧
    2 ^ (k + 149 - p) + 2 ^ (k + 126 - p) ≤ dec p (2 ^ k) ∧
    mulR p (dec p (2 ^ k) - 2 ^ (k + 126 - p)) < 2 ^ k * 2 ^ 149 := by decide +kernel

theorem full_codes : ∀ p < 25, 0 < p → mulR p (2 ^ 149 - 2 ^ 125) < (2 ^ p - 1) * 2 ^ 149 := by decide +kernel

/-- Decoding a code and encoding the result gives the code back. -/
theorem code_dec {p c : Nat} (hp1 : 1 ≤ p) (hp : p ≤ 24) (hc : c ≤ 2 ^ p - 1) : mulR p (dec p c) / 2 ^ 149 = c := by
  have hm24 := mask_lt hp
  rcases Nat.eq_zero_or_pos c with rfl | hpos
  · rw [dec_zero p hp1]
    have := mulR_le (p := p) (X := 0) (y := 0) ⟨0, 0, by decide, rfl⟩ (by simp)
    rw [Nat.le_zero.mp this]
    simp
  rcases Nat.lt_or_eq_of_le hc with hlt | rfl
  swap
  · rw [dec_full hp1]
    have h1 : mulR p (2 ^ 149) ≤ (2 ^ p - 1) * 2 ^ 149 := mulR_le (flt_int hm24.le) (by rw [Nat.mul_comm])
    have h2 : (2 ^ p - 1) * 2 ^ 149 ≤ mulR p (2 ^ 149) := le_mulR (flt_int hm24.le) (by rw [Nat.mul_comm])
    rw [Nat.le_antisymm h1 h2, Nat.mul_div_cancel _ (by positivity)]
  obtain ⟨k, hk, hk'⟩ : ∃ k, 2 ^ k ≤ c ∧ c < 2 ^ (k + 1) :=
    ⟨c.log2, Nat.log2_self_le (by omega), Nat.lt_log2_self⟩
  have hkp := k_lt hp1 hp hk hk' hlt
  have hcl := dec_mul_close hp1 hp hk hk' hlt
  have hflt : b32.Flt (c * 2 ^ 149) := flt_int (by omega)
  have hn := mulR_nearest p (dec p c) hflt
  have hpow : (2 : ℚ) ^ (k + 125) ≤ 2 ^ 148 := pow_le_pow_right₀ (by norm_num) (by omega)
  have hn' : |(mulR p (dec p c) : ℚ) - (dec p c : ℚ) * ((2 ^ p - 1 : Nat) : ℚ)| < 2 ^ (k + 125) := by
    refine lt_of_le_of_lt hn ?_
    rw [abs_sub_comm]
    push_cast at hcl ⊢
    exact hcl
  rw [abs_lt] at hcl hn'
  have hup : mulR p (dec p c) < (c + 1) * 2 ^ 149 := by
    have : (mulR p (dec p c) : ℚ) < (c : ℚ) * 2 ^ 149 + 2 ^ 149 := by
      have : (2 : ℚ) ^ 149 = 2 ^ 148 + 2 ^ 148 := by norm_num
      linarith [hcl.1, hcl.2, hn'.1, hn'.2]
    have h2 : (mulR p (dec p c) : ℚ) < (((c + 1) * 2 ^ 149 : Nat) : ℚ) := by push_cast; linarith
    exact_mod_cast h2
  have hlow : c * 2 ^ 149 ≤ mulR p (dec p c) := by
    rcases Nat.lt_or_eq_of_le hk with hk1 | rfl
    swap
    · exact (power_codes p (by omega) k hkp hp1 hlt).1
    by_contra hcon
    push Not at hcon
    have hS : (2 : ℚ) ^ (k + 125) ≤ 2 ^ 149 := le_trans hpow (by norm_num)
    have hge : 2 ^ (k + 149) ≤ mulR p (dec p c) := by
      refine le_mulR ⟨1, _, by decide, by rw [Nat.one_mul]⟩ ?_
      have h1 : ((2 ^ k + 1 : Nat) : ℚ) ≤ c := by exact_mod_cast hk1
      have h2 : ((2 ^ (k + 149) : Nat) : ℚ) ≤ (dec p c : ℚ) * ((2 ^ p - 1 : Nat) : ℚ) := by
        have h3 : ((2 ^ (k + 149) : Nat) : ℚ) = 2 ^ k * 2 ^ 149 := by push_cast; rw [pow_add]
        have h4 : ((2 : ℚ) ^ k + 1) * 2 ^ 149 ≤ c * 2 ^ 149 := by
          refine mul_le_mul_of_nonneg_right ?_ (by positivity)
          push_cast at h1
          exact h1
        rw [h3]
        linarith [hcl.1]
      exact_mod_cast h2
    have hdvd : 2 ^ (k + 126) ∣ mulR p (dec p c) := by
      have := flt_dvd b32 (mulR_flt p (dec p c)) hge (by show 24 ≤ _; omega)
      rwa [show k + 149 + 1 - b32.prec = k + 126 by show k + 149 + 1 - 24 = _; omega] at this
    have hdvd2 : 2 ^ (k + 126) ∣ c * 2 ^ 149 := Dvd.dvd.mul_left (Nat.pow_dvd_pow 2 (by omega)) c
    have hgap : mulR p (dec p c) + 2 ^ (k + 126) ≤ c * 2 ^ 149 := by
      have h1 : 2 ^ (k + 126) ∣ c * 2 ^ 149 - mulR p (dec p c) := Nat.dvd_sub hdvd2 hdvd
      have := Nat.le_of_dvd (by omega) h1
      omega
    have hgq : (mulR p (dec p c) : ℚ) + 2 ^ (k + 126) ≤ c * 2 ^ 149 := by exact_mod_cast hgap
    have e : (2 : ℚ) ^ (k + 126) = 2 ^ (k + 125) * 2 := by rw [← pow_succ]
    linarith [hcl.1, hn'.1]
  exact Nat.div_eq_of_lt_le hlow hup

/-- A number below `2^p - 1` with an inverse `2^e` modulo `2^p - 1` is a power of two. -/
theorem power_of_inverse {p c e : Nat} (hc : 0 < c) (hcm : c < 2 ^ p - 1) (h : 2 ^ p - 1 ∣ c * 2 ^ e - 1) : ∃ t, c = 2 ^ t := by
  have hp2 : 2 ≤ p := by
    rcases Nat.lt_or_ge p 2 with h | h
    · have : p = 0 ∨ p = 1 := by omega
      rcases this with rfl | rfl <;> (simp at hcm; try omega)
    · exact h
  have hpos : 0 < 2 ^ e := by positivity
  have h1 : c * 2 ^ e ≡ 1 [MOD 2 ^ p - 1] :=
    ((Nat.modEq_iff_dvd' (Nat.mul_pos hc hpos)).mpr h).symm
  have hone : 2 ^ p ≡ 1 [MOD 2 ^ p - 1] := ((Nat.modEq_iff_dvd' Nat.one_le_two_pow).mpr (dvd_refl _)).symm
  have hmul : ∀ q, 2 ^ (p * q) ≡ 1 [MOD 2 ^ p - 1] := by
    intro q
    have := hone.pow q
    rwa [one_pow, ← Nat.pow_mul] at this
  have h2 : c ≡ 2 ^ (p * e - e) [MOD 2 ^ p - 1] := by
    have hle : e ≤ p * e := Nat.le_mul_of_pos_left _ (by omega)
    have a := h1.mul_right (2 ^ (p * e - e))
    rw [Nat.mul_assoc, ← Nat.pow_add, Nat.add_sub_cancel' hle, Nat.one_mul] at a
    have b := (hmul e).mul_left c
    rw [Nat.mul_one] at b
    exact b.symm.trans a
  have h3 : 2 ^ (p * e - e) ≡ 2 ^ ((p * e - e) % p) [MOD 2 ^ p - 1] := by
    have a := (hmul ((p * e - e) / p)).mul_right (2 ^ ((p * e - e) % p))
    rw [← Nat.pow_add, Nat.div_add_mod, Nat.one_mul] at a
    exact a
  refine ⟨(p * e - e) % p, ?_⟩
  have hlt : 2 ^ ((p * e - e) % p) < 2 ^ p - 1 := by
    have h4 : (p * e - e) % p ≤ p - 1 := by
      have := Nat.mod_lt (p * e - e) (show 0 < p by omega)
      omega
    have h5 : 2 ^ ((p * e - e) % p) ≤ 2 ^ (p - 1) := Nat.pow_le_pow_right (by omega) h4
    have h6 : 2 ^ p = 2 ^ (p - 1) * 2 := by rw [← Nat.pow_succ]; congr 1; omega
    have h7 : 2 ^ 1 ≤ 2 ^ (p - 1) := Nat.pow_le_pow_right (by omega) (by omega)
    omega
  have := h2.trans h3
  rwa [Nat.ModEq, Nat.mod_eq_of_lt hcm, Nat.mod_eq_of_lt hlt] at this

section Bounds
variable {p X : Nat} (hp1 : 1 ≤ p) (hp : p ≤ 24) (hX : b32.Flt X) (hX1 : X ≤ 2 ^ 149)
include hp1 hp hX hX1

theorem code_le : mulR p X / 2 ^ 149 ≤ 2 ^ p - 1 := by
  have h : mulR p X ≤ (2 ^ p - 1) * 2 ^ 149 :=
    mulR_le (flt_int (mask_lt hp).le) (by rw [Nat.mul_comm (2 ^ p - 1)]; exact Nat.mul_le_mul_right _ hX1)
  exact Nat.div_le_of_le_mul (by rw [Nat.mul_comm (2 ^ 149)]; exact h)

/-- Quantising never raises a value. -/
theorem dec_code_le : dec p (mulR p X / 2 ^ 149) ≤ X := by
  have hcm := code_le hp1 hp hX hX1
  have hm24 := mask_lt hp
  have hm1 := one_le_mask hp1
  have hfloor : (mulR p X / 2 ^ 149) * 2 ^ 149 ≤ mulR p X := Nat.div_mul_le_self _ _
  generalize mulR p X / 2 ^ 149 = c at hcm hfloor
  by_contra hcon
  push Not at hcon
  have hmq : (0 : ℚ) < ((2 ^ p - 1 : Nat) : ℚ) := by exact_mod_cast hm1
  rcases Nat.eq_zero_or_pos c with rfl | hpos
  · rw [dec_zero p hp1] at hcon
    omega
  rcases Nat.lt_or_eq_of_le hcm with hlt | rfl
  swap
  · -- the full code
    rw [dec_full hp1] at hcon
    have hX' : X ≤ 2 ^ 149 - 2 ^ 125 := by
      rcases Nat.lt_or_ge X (2 ^ 148) with h | h
      · have : (2 : Nat) ^ 148 ≤ 2 ^ 149 - 2 ^ 125 := by norm_num
        omega
      · have hd : 2 ^ 125 ∣ X := flt_dvd b32 (t := 148) hX h (by decide)
        have hd2 : 2 ^ 125 ∣ 2 ^ 149 - X := Nat.dvd_sub (Nat.pow_dvd_pow 2 (by omega)) hd
        have := Nat.le_of_dvd (by omega) hd2
        omega
    have := mulR_mono p hX'
    have := full_codes p (by omega) hp1
    omega
  obtain ⟨k, hk, hk'⟩ : ∃ k, 2 ^ k ≤ c ∧ c < 2 ^ (k + 1) :=
    ⟨c.log2, Nat.log2_self_le (by omega), Nat.lt_log2_self⟩
  have hkp := k_lt hp1 hp hk hk' hlt
  have hge := dec_ge hp1 hp hk hk' hlt
  have hu : ∀ y, b32.Flt y → 2 ^ (k + 149 - p) ≤ y → 2 ^ (k + 126 - p) ∣ y := by
    intro y hy h
    have := flt_dvd b32 hy h (by show 24 ≤ _; omega)
    rwa [show k + 149 - p + 1 - b32.prec = k + 126 - p by show k + 149 - p + 1 - 24 = _; omega] at this
  have hstep : 2 ^ (k + 149 - p) ≤ X → X + 2 ^ (k + 126 - p) ≤ dec p c := by
    intro h
    have := Nat.dvd_sub (hu _ (dec_flt hp1 c) hge) (hu X hX h)
    have := Nat.le_of_dvd (by omega) this
    omega
  rcases Nat.lt_or_eq_of_le hk with hk1 | rfl
  swap
  · -- a power of two
    obtain ⟨_, h2, h3⟩ := power_codes p (by omega) k hkp hp1 hlt
    have hX' : X ≤ dec p (2 ^ k) - 2 ^ (k + 126 - p) := by
      rcases Nat.lt_or_ge X (2 ^ (k + 149 - p)) with h | h
      · omega
      · have := hstep h
        omega
    have := mulR_mono p hX'
    omega
  -- another code: `X * m` was rounded up to `c`
  have hXm : X * (2 ^ p - 1) < c * 2 ^ 149 := by
    by_contra h
    push Not at h
    have : dec p c ≤ X := by
      refine round_le_flt b32 hm1 (by decide) hX ?_
      rw [div_le_iff₀ hmq]
      exact_mod_cast h
    omega
  have hy0 : b32.Flt (c * 2 ^ 149 - 2 ^ (k + 126)) := by
    refine ⟨c * 2 ^ (23 - k) - 1, k + 126, ?_, ?_⟩
    · have h1 : c * 2 ^ (23 - k) < 2 ^ (k + 1) * 2 ^ (23 - k) := Nat.mul_lt_mul_of_pos_right hk' (by positivity)
      rw [← Nat.pow_add, show k + 1 + (23 - k) = 24 by omega] at h1
      show _ < 2 ^ 24
      omega
    · rw [Nat.sub_mul, Nat.one_mul, Nat.mul_assoc, ← Nat.pow_add, show 23 - k + (k + 126) = 149 by omega]
  have hbig : 2 ^ (k + 126) ≤ c * 2 ^ 149 := by
    have h1 : 2 ^ (k + 126) ≤ 2 ^ 149 := Nat.pow_le_pow_right (by omega) (by omega)
    have : 1 * 2 ^ 149 ≤ c * 2 ^ 149 := Nat.mul_le_mul_right _ hpos
    omega
  have hδ : c * 2 ^ 149 ≤ X * (2 ^ p - 1) + 2 ^ (k + 125) := by
    have hn := mulR_nearest p X hy0
    have hr : ((c * 2 ^ 149 : Nat) : ℚ) ≤ mulR p X := by exact_mod_cast hfloor
    have hx : (X : ℚ) * ((2 ^ p - 1 : Nat) : ℚ) < ((c * 2 ^ 149 : Nat) : ℚ) := by exact_mod_cast hXm
    have e : (2 : ℚ) ^ (k + 126) = 2 ^ (k + 125) * 2 := by rw [← pow_succ]
    have hpp : (0 : ℚ) < 2 ^ (k + 125) := by positivity
    have hcast : ((c * 2 ^ 149 - 2 ^ (k + 126) : Nat) : ℚ) = ((c * 2 ^ 149 : Nat) : ℚ) - 2 ^ (k + 126) := by
      rw [Nat.cast_sub hbig]; push_cast; ring
    rw [hcast, abs_of_nonneg (by linarith)] at hn
    have : ((c * 2 ^ 149 : Nat) : ℚ) ≤ (X : ℚ) * ((2 ^ p - 1 : Nat) : ℚ) + 2 ^ (k + 125) := by
      rcases abs_cases (((c * 2 ^ 149 : Nat) : ℚ) - 2 ^ (k + 126) - (X : ℚ) * ((2 ^ p - 1 : Nat) : ℚ)) with ⟨h, _⟩ | ⟨h, _⟩
      · rw [h] at hn; linarith
      · rw [h] at hn; linarith
    have h2 : ((c * 2 ^ 149 : Nat) : ℚ) ≤ ((X * (2 ^ p - 1) + 2 ^ (k + 125) : Nat) : ℚ) := by
      rw [Nat.cast_add, Nat.cast_mul X]
      push_cast at this ⊢
      exact this
    exact_mod_cast h2
  have hpk : 2 ^ (k + 125) < 2 ^ 149 := Nat.pow_lt_pow_right (by omega) (by omega)
  have hXge : 2 ^ (k + 149 - p) ≤ X := by
    by_contra h
    push Not at h
    have h1 : X * (2 ^ p - 1) ≤ 2 ^ (k + 149 - p) * 2 ^ p :=
      Nat.mul_le_mul h.le (Nat.sub_le _ _)
    rw [← Nat.pow_add, show k + 149 - p + p = k + 149 by omega, Nat.pow_add] at h1
    have h2 : (2 ^ k + 1) * 2 ^ 149 ≤ c * 2 ^ 149 := Nat.mul_le_mul_right _ hk1
    rw [Nat.add_mul] at h2
    omega
  have hgap := hstep hXge
  -- half a spacing times `m` at least
  have hhalf : 2 * (X * (2 ^ p - 1)) + 2 ^ (k + 126 - p) * (2 ^ p - 1) ≤ 2 * (c * 2 ^ 149) := by
    have hn := round_nearest b32 (num := c * 2 ^ 149) (den := 2 ^ p - 1) hm1 (by decide) hX
    rw [← dec] at hn
    have hx : (X : ℚ) < ((c * 2 ^ 149 : Nat) : ℚ) / ((2 ^ p - 1 : Nat) : ℚ) := by
      rw [lt_div_iff₀ hmq]
      exact_mod_cast hXm
    have hg : (X : ℚ) + 2 ^ (k + 126 - p) ≤ dec p c := by exact_mod_cast hgap
    rw [abs_of_neg (sub_neg.mpr hx)] at hn
    have h1 := le_trans (le_abs_self _) hn
    have h2 : 2 * (X : ℚ) + 2 ^ (k + 126 - p) ≤ 2 * (((c * 2 ^ 149 : Nat) : ℚ) / ((2 ^ p - 1 : Nat) : ℚ)) := by linarith
    rw [mul_div_assoc', le_div_iff₀ hmq] at h2
    have h3 : ((2 * (X * (2 ^ p - 1)) + 2 ^ (k + 126 - p) * (2 ^ p - 1) : Nat) : ℚ) ≤ ((2 * (c * 2 ^ 149) : Nat) : ℚ) := by
      rw [Nat.cast_add, Nat.cast_mul 2, Nat.cast_mul X, Nat.cast_mul (2 ^ (k + 126 - p)), Nat.cast_mul 2, Nat.cast_pow]
      push_cast at h2 ⊢
      linarith
    exact_mod_cast h3
  -- the excess is a multiple of the spacing, hence exactly `2^(p-1)` spacings
  obtain ⟨Y, hY⟩ := hu X hX hXge
  have hS : c * 2 ^ 149 = 2 ^ (k + 126 - p) * (c * 2 ^ (p + 23 - k)) := by
    rw [Nat.mul_left_comm, ← Nat.pow_add]; congr 2; omega
  have hP : 2 ^ (k + 125) = 2 ^ (k + 126 - p) * 2 ^ (p - 1) := by rw [← Nat.pow_add]; congr 1; omega
  have hup : 0 < 2 ^ (k + 126 - p) := by positivity
  have h1 : c * 2 ^ (p + 23 - k) ≤ Y * (2 ^ p - 1) + 2 ^ (p - 1) := by
    refine Nat.le_of_mul_le_mul_left ?_ hup
    rw [← hS, Nat.mul_add, ← hP, ← Nat.mul_assoc, ← hY]
    exact hδ
  have h2 : 2 * (Y * (2 ^ p - 1)) + (2 ^ p - 1) ≤ 2 * (c * 2 ^ (p + 23 - k)) := by
    refine Nat.le_of_mul_le_mul_left ?_ hup
    rw [Nat.mul_add, Nat.mul_left_comm, ← Nat.mul_assoc (2 ^ (k + 126 - p)) Y, ← hY, Nat.mul_left_comm _ 2, ← hS]
    exact hhalf
  have h2p : 2 ^ p = 2 * 2 ^ (p - 1) := by
    obtain ⟨q, rfl⟩ : ∃ q, p = q + 1 := ⟨p - 1, by omega⟩
    rw [Nat.pow_succ', Nat.add_sub_cancel]
  have h3 : c * 2 ^ (p + 23 - k) = Y * (2 ^ p - 1) + 2 ^ (p - 1) := by omega
  have hdiv : 2 ^ p - 1 ∣ c * 2 ^ (24 - k) - 1 := by
    have e : 2 ^ (p - 1) * (c * 2 ^ (24 - k) - 1) = Y * (2 ^ p - 1) := by
      rw [Nat.mul_sub, Nat.mul_one, Nat.mul_left_comm, ← Nat.pow_add, show p - 1 + (24 - k) = p + 23 - k by omega, h3,
        Nat.add_sub_cancel]
    have hco : Nat.Coprime (2 ^ p - 1) (2 ^ (p - 1)) := by
      apply Nat.Coprime.pow_right
      rw [Nat.coprime_two_right, Nat.odd_iff]
      omega
    exact hco.dvd_of_dvd_mul_left (Dvd.intro_left Y e.symm)
  obtain ⟨t, ht⟩ := power_of_inverse hpos hlt hdiv
  rw [ht] at hk1 hk'
  have := (Nat.pow_lt_pow_iff_right (a := 2) (by omega)).mp hk1
  have := (Nat.pow_lt_pow_iff_right (a := 2) (by omega)).mp hk'
  omega

/-- The loss is less than one step. -/
theorem code_lt_step : X * (2 ^ p - 1) < dec p (mulR p X / 2 ^ 149) * (2 ^ p - 1) + 2 ^ 149 := by
  have hcm := code_le hp1 hp hX hX1
  have hm24 := mask_lt hp
  have hm1 := one_le_mask hp1
  have hfloor : (mulR p X / 2 ^ 149) * 2 ^ 149 ≤ mulR p X := Nat.div_mul_le_self _ _
  have hfloor2 : mulR p X < (mulR p X / 2 ^ 149 + 1) * 2 ^ 149 := by
    rw [Nat.add_mul, Nat.one_mul]; exact Nat.lt_div_mul_add (by positivity)
  generalize mulR p X / 2 ^ 149 = c at hcm hfloor hfloor2
  have hfl1 : b32.Flt ((c + 1) * 2 ^ 149) := flt_int (by omega)
  have hXm : X * (2 ^ p - 1) < (c + 1) * 2 ^ 149 := by
    by_contra h
    push Not at h
    have := le_mulR hfl1 h
    omega
  rcases Nat.eq_zero_or_pos c with rfl | hpos
  · rw [dec_zero p hp1]
    omega
  rcases Nat.lt_or_eq_of_le hcm with hlt | rfl
  swap
  · rw [dec_full hp1]
    have : X * (2 ^ p - 1) ≤ 2 ^ 149 * (2 ^ p - 1) := Nat.mul_le_mul_right _ hX1
    omega
  rcases Nat.lt_or_ge (dec p c * (2 ^ p - 1)) (c * 2 ^ 149) with hD | hD
  swap
  · rw [Nat.add_mul] at hXm
    omega
  obtain ⟨k, hk, hk'⟩ : ∃ k, 2 ^ k ≤ c ∧ c < 2 ^ (k + 1) :=
    ⟨c.log2, Nat.log2_self_le (by omega), Nat.lt_log2_self⟩
  have hkp := k_lt hp1 hp hk hk' hlt
  have hcl := dec_mul_close hp1 hp hk hk' hlt
  have hge : 2 ^ (k + 149) ≤ mulR p X := by
    rw [Nat.pow_add]
    exact le_trans (Nat.mul_le_mul_right _ hk) hfloor
  have hdvd : 2 ^ (k + 126) ∣ mulR p X := by
    have := flt_dvd b32 (mulR_flt p X) hge (by show 24 ≤ _; omega)
    rwa [show k + 149 + 1 - b32.prec = k + 126 by show k + 149 + 1 - 24 = _; omega] at this
  have hgap : mulR p X + 2 ^ (k + 126) ≤ (c + 1) * 2 ^ 149 := by
    have h1 : 2 ^ (k + 126) ∣ (c + 1) * 2 ^ 149 - mulR p X :=
      Nat.dvd_sub (Dvd.dvd.mul_left (Nat.pow_dvd_pow 2 (by omega)) _) hdvd
    have := Nat.le_of_dvd (by omega) h1
    omega
  have hn := mulR_nearest p X hfl1
  have hg : (mulR p X : ℚ) + 2 ^ (k + 126) ≤ (((c + 1) * 2 ^ 149 : Nat) : ℚ) := by exact_mod_cast hgap
  have hx : (X : ℚ) * ((2 ^ p - 1 : Nat) : ℚ) < (((c + 1) * 2 ^ 149 : Nat) : ℚ) := by exact_mod_cast hXm
  have e : (2 : ℚ) ^ (k + 126) = 2 ^ (k + 125) * 2 := by rw [← pow_succ]
  rw [abs_of_pos (sub_pos.mpr hx)] at hn
  have h1 := le_trans (neg_abs_le _) (le_refl ((mulR p X : ℚ) - (X : ℚ) * ((2 ^ p - 1 : Nat) : ℚ)))
  rw [abs_lt] at hcl
  have hfin : ((X * (2 ^ p - 1) : Nat) : ℚ) < ((dec p c * (2 ^ p - 1) + 2 ^ 149 : Nat) : ℚ) := by
    rw [Nat.cast_mul, Nat.cast_add (dec p c * (2 ^ p - 1)), Nat.cast_mul (dec p c)]
    push_cast at hn hg hcl h1 ⊢
    linarith [hcl.1]
  exact_mod_cast hfin

end Bounds

end Tmf.Ieee
