import Mathlib.Data.Nat.ModEq
import Mathlib.Data.Nat.Prime.Basic
import Verif.Lemmas.IeeeRound
/-
Quantising a number of [0,1] to `p` bits and back with the arithmetic of a format `f`, 1 ≤ p ≤ f.prec.
Everything is in units of 2^-f.scale: `x` is `X` units, `x * (2^p - 1)` is rounded to `mulR f p X` units, the
code `c` is decoded to `dec f p c` units.
-/

namespace Tmf.Ieee.Any

/-- A format with more than one digit and with enough numbers below 1. -/
class Proper (f : Fmt) : Prop where
  prec : 1 < f.prec
  scale : 2 * f.prec ≤ f.scale

instance : Proper b32 := ⟨by decide, by decide⟩
instance : Proper b64 := ⟨by decide, by decide⟩

theorem one_lt (f : Fmt) [h : Proper f] : 1 < 2 ^ f.prec := by
  have := Nat.pow_lt_pow_right (a := 2) (by omega) (show 0 < f.prec by have := h.prec; omega)
  simpa using this

theorem prec_pos (f : Fmt) [h : Proper f] : 0 < f.prec := by have := h.prec; omega

/-- `x * (2^p - 1)`. -/
def mulR (f : Fmt) (p X : Nat) : Nat := f.round (X * (2 ^ p - 1)) 1
/-- `c / (2^p - 1)`. -/
def dec (f : Fmt) (p c : Nat) : Nat := f.round (c * 2 ^ f.scale) (2 ^ p - 1)

theorem one_le_mask {p : Nat} (h : 1 ≤ p) : 1 ≤ 2 ^ p - 1 := by
  have : 2 ^ 1 ≤ 2 ^ p := Nat.pow_le_pow_right (by omega) h
  omega

theorem mask_lt {f : Fmt} {p : Nat} (h : p ≤ f.prec) : 2 ^ p - 1 < 2 ^ f.prec := by
  have : 2 ^ p ≤ 2 ^ f.prec := Nat.pow_le_pow_right (by omega) h
  have : 0 < 2 ^ p := by positivity
  omega

variable {f : Fmt} [hf : Proper f]

theorem flt_int {c : Nat} (h : c ≤ 2 ^ f.prec) : f.Flt (c * 2 ^ f.scale) := flt_of_le f (prec_pos f) h f.scale

theorem dec_zero (p : Nat) (h : 1 ≤ p) : dec f p 0 = 0 := by
  have h1 : dec f p 0 ≤ 0 := by
    refine round_le_flt f (one_le_mask h) (prec_pos f) ⟨0, 0, by positivity, rfl⟩ ?_
    simp
  omega

theorem dec_full {p : Nat} (h : 1 ≤ p) : dec f p (2 ^ p - 1) = 2 ^ f.scale := by
  have h1 := round_scale f (num := 2 ^ f.scale) (den := 1) (k := 2 ^ p - 1) (one_le_mask h)
  rw [Nat.one_mul, Nat.mul_comm] at h1
  rw [dec, h1]
  exact round_of_flt f (prec_pos f) ⟨1, f.scale, one_lt f, by rw [Nat.one_mul]⟩

set_option linter.unusedSectionVars false

section Code
variable {p c k : Nat} (hp1 : 1 ≤ p) (hp : p ≤ f.prec) (hk : 2 ^ k ≤ c) (hk' : c < 2 ^ (k + 1)) (hc : c < 2 ^ p - 1)
include hp1 hp hk hk' hc

theorem k_lt : k < p := by
  have : 2 ^ k < 2 ^ p := by omega
  exact (Nat.pow_lt_pow_iff_right (by omega)).mp this

theorem div_floor (σ : Nat) (hσ : f.prec ≤ σ) :
    2 ^ (k + σ - p) ≤ c * 2 ^ σ / (2 ^ p - 1) ∧ c * 2 ^ σ / (2 ^ p - 1) < 2 ^ (k + σ - p + 1) := by
  have hfp := hf.prec
  have hfs := hf.scale
  have hkp := k_lt hp1 hp hk hk' hc
  have hm := one_le_mask hp1
  have hpow : 2 ^ (k + σ - p) * 2 ^ p = 2 ^ k * 2 ^ σ := by
    rw [← Nat.pow_add, ← Nat.pow_add]; congr 1; omega
  constructor
  · rw [Nat.le_div_iff_mul_le hm]
    calc 2 ^ (k + σ - p) * (2 ^ p - 1) ≤ 2 ^ (k + σ - p) * 2 ^ p := Nat.mul_le_mul_left _ (Nat.sub_le _ _)
      _ = 2 ^ k * 2 ^ σ := hpow
      _ ≤ c * 2 ^ σ := Nat.mul_le_mul_right _ hk
  · rw [Nat.div_lt_iff_lt_mul hm]
    have h1 : c * 2 ^ p < 2 ^ (k + 1) * (2 ^ p - 1) := by
      have hle : 2 ^ (k + 1) ≤ 2 ^ p := Nat.pow_le_pow_right (by omega) (by omega)
      have e : 2 ^ (k + 1) * (2 ^ p - 1) = 2 ^ (k + 1) * 2 ^ p - 2 ^ (k + 1) := by rw [Nat.mul_sub, Nat.mul_one]
      rw [e]
      rcases Nat.lt_or_eq_of_le hle with hlt | heq
      · have : (c + 1) * 2 ^ p ≤ 2 ^ (k + 1) * 2 ^ p := Nat.mul_le_mul_right _ hk'
        rw [Nat.add_mul, Nat.one_mul] at this
        omega
      · have : (c + 2) * 2 ^ p ≤ 2 ^ (k + 1) * 2 ^ p := Nat.mul_le_mul_right _ (by omega)
        rw [Nat.add_mul] at this
        have : 0 < 2 ^ p := by positivity
        omega
    have e2 : 2 ^ (k + σ - p + 1) * 2 ^ p = 2 ^ (k + 1) * 2 ^ σ := by
      rw [← Nat.pow_add, ← Nat.pow_add]; congr 1; omega
    have hpos : 0 < 2 ^ p := by positivity
    refine Nat.lt_of_mul_lt_mul_left (a := 2 ^ p) ?_
    calc 2 ^ p * (c * 2 ^ σ) = c * 2 ^ p * 2 ^ σ := by ring
      _ < 2 ^ (k + 1) * (2 ^ p - 1) * 2 ^ σ := Nat.mul_lt_mul_of_pos_right h1 (by positivity)
      _ = (2 ^ (k + 1) * 2 ^ σ) * (2 ^ p - 1) := by ring
      _ = (2 ^ (k + σ - p + 1) * 2 ^ p) * (2 ^ p - 1) := by rw [e2]
      _ = 2 ^ p * (2 ^ (k + σ - p + 1) * (2 ^ p - 1)) := by ring

theorem dec_floor : 2 ^ (k + f.scale - p) ≤ c * 2 ^ f.scale / (2 ^ p - 1) ∧ c * 2 ^ f.scale / (2 ^ p - 1) < 2 ^ (k + f.scale - p + 1) :=
  div_floor hp1 hp hk hk' hc f.scale (by have := hf.scale; omega)

theorem dec_close : |(dec f p c : ℚ) - ((c * 2 ^ f.scale : Nat) : ℚ) / ((2 ^ p - 1 : Nat) : ℚ)| ≤ 2 ^ (k + (f.scale + 1 - f.prec) - p) / 2 := by
  have hfp := hf.prec
  have hfs := hf.scale
  have h := round_close f (num := c * 2 ^ f.scale) (den := 2 ^ p - 1) (one_le_mask hp1)
  obtain ⟨h1, h2⟩ := dec_floor hp1 hp hk hk' hc
  have hkp := k_lt hp1 hp hk hk' hc
  rw [spacing_of_bounds f h1 h2 (by omega)] at h
  have e : k + f.scale - p + 1 - f.prec = k + (f.scale + 1 - f.prec) - p := by omega
  rwa [e] at h

theorem dec_mul_close : |(dec f p c : ℚ) * ((2 ^ p - 1 : Nat) : ℚ) - (c : ℚ) * 2 ^ f.scale| < 2 ^ (k + (f.scale - f.prec)) := by
  have hfp := hf.prec
  have hfs := hf.scale
  have h := dec_close hp1 hp hk hk' hc
  have hm := one_le_mask hp1
  have hkp := k_lt hp1 hp hk hk' hc
  have hmq : (0 : ℚ) < ((2 ^ p - 1 : Nat) : ℚ) := by exact_mod_cast hm
  have hmlt : ((2 ^ p - 1 : Nat) : ℚ) < 2 ^ p := by
    have : 0 < 2 ^ p := by positivity
    have : (2 ^ p - 1 : Nat) < 2 ^ p := by omega
    exact_mod_cast this
  have e : (dec f p c : ℚ) * ((2 ^ p - 1 : Nat) : ℚ) - (c : ℚ) * 2 ^ f.scale =
      ((dec f p c : ℚ) - ((c * 2 ^ f.scale : Nat) : ℚ) / ((2 ^ p - 1 : Nat) : ℚ)) * ((2 ^ p - 1 : Nat) : ℚ) := by
    rw [sub_mul, div_mul_cancel₀ _ (ne_of_gt hmq)]
    push_cast
    ring
  have e2 : (2 : ℚ) ^ (k + (f.scale - f.prec)) = 2 ^ (k + (f.scale + 1 - f.prec) - p) / 2 * 2 ^ p := by
    rw [div_mul_eq_mul_div, ← pow_add, show k + (f.scale + 1 - f.prec) - p + p = k + (f.scale - f.prec) + 1 by omega, pow_succ]
    ring
  rw [e, abs_mul, abs_of_pos hmq, e2]
  calc _ ≤ 2 ^ (k + (f.scale + 1 - f.prec) - p) / 2 * ((2 ^ p - 1 : Nat) : ℚ) := mul_le_mul_of_nonneg_right h hmq.le
    _ < _ := mul_lt_mul_of_pos_left hmlt (by positivity)

theorem dec_ge : 2 ^ (k + f.scale - p) ≤ dec f p c := by
  obtain ⟨h1, _⟩ := dec_floor hp1 hp hk hk' hc
  exact flt_le_round f (one_le_mask hp1) (prec_pos f) ⟨1, _, one_lt f, by rw [Nat.one_mul]⟩
    ((le_div_iff_floor (one_le_mask hp1)).mpr h1)

end Code

theorem dec_flt {p : Nat} (h : 1 ≤ p) (c : Nat) : f.Flt (dec f p c) := round_flt f (one_le_mask h) (prec_pos f)
theorem mulR_flt (p X : Nat) : f.Flt (mulR f p X) := round_flt f (by decide) (prec_pos f)

theorem mulR_nearest (p X : Nat) {y : Nat} (hy : f.Flt y) :
    |(mulR f p X : ℚ) - (X : ℚ) * ((2 ^ p - 1 : Nat) : ℚ)| ≤ |(y : ℚ) - (X : ℚ) * ((2 ^ p - 1 : Nat) : ℚ)| := by
  have := round_nearest f (num := X * (2 ^ p - 1)) (den := 1) (by decide) (prec_pos f) hy
  rwa [Nat.cast_one, div_one, Nat.cast_mul] at this

theorem mulR_le {p X y : Nat} (hy : f.Flt y) (h : X * (2 ^ p - 1) ≤ y) : mulR f p X ≤ y :=
  round_le_flt f (by decide) (prec_pos f) hy (by rw [Nat.cast_one, div_one]; exact_mod_cast h)

theorem le_mulR {p X y : Nat} (hy : f.Flt y) (h : y ≤ X * (2 ^ p - 1)) : y ≤ mulR f p X :=
  flt_le_round f (by decide) (prec_pos f) hy (by rw [Nat.cast_one, div_one]; exact_mod_cast h)

theorem mulR_mono (p : Nat) {X Y : Nat} (h : X ≤ Y) : mulR f p X ≤ mulR f p Y :=
  round_mono f (by decide) (by decide) (prec_pos f)
    (by rw [Nat.cast_one, div_one, div_one]; exact_mod_cast Nat.mul_le_mul_right _ h)

/-- What is needed about the powers of two and the full code. For given `f` and `p` it can be computed. -/
structure Codes (f : Fmt) (p : Nat) : Prop where
  power : ∀ k < p, 2 ^ k < 2 ^ p - 1 → 2 ^ k * 2 ^ f.scale ≤ mulR f p (dec f p (2 ^ k)) ∧
    2 ^ (k + f.scale - p) + 2 ^ (k + (f.scale + 1 - f.prec) - p) ≤ dec f p (2 ^ k) ∧
    mulR f p (dec f p (2 ^ k) - 2 ^ (k + (f.scale + 1 - f.prec) - p)) < 2 ^ k * 2 ^ f.scale
  full : mulR f p (2 ^ f.scale - 2 ^ (f.scale - f.prec)) < (2 ^ p - 1) * 2 ^ f.scale

/-- Decoding a code and encoding the result gives the code back. -/
theorem code_dec {p c : Nat} (hcodes : Codes f p) (hp1 : 1 ≤ p) (hp : p ≤ f.prec) (hc : c ≤ 2 ^ p - 1) : mulR f p (dec f p c) / 2 ^ f.scale = c := by
  have hfp := hf.prec
  have hfs := hf.scale
  have hm24 : 2 ^ p - 1 < 2 ^ f.prec := mask_lt hp
  rcases Nat.eq_zero_or_pos c with rfl | hpos
  · rw [dec_zero p hp1]
    have := mulR_le (f := f) (p := p) (X := 0) (y := 0) ⟨0, 0, by positivity, rfl⟩ (by simp)
    rw [Nat.le_zero.mp this]
    simp
  rcases Nat.lt_or_eq_of_le hc with hlt | rfl
  swap
  · rw [dec_full hp1]
    have h1 : mulR f p (2 ^ f.scale) ≤ (2 ^ p - 1) * 2 ^ f.scale := mulR_le (flt_int hm24.le) (by rw [Nat.mul_comm])
    have h2 : (2 ^ p - 1) * 2 ^ f.scale ≤ mulR f p (2 ^ f.scale) := le_mulR (flt_int hm24.le) (by rw [Nat.mul_comm])
    rw [Nat.le_antisymm h1 h2, Nat.mul_div_cancel _ (by positivity)]
  obtain ⟨k, hk, hk'⟩ : ∃ k, 2 ^ k ≤ c ∧ c < 2 ^ (k + 1) :=
    ⟨c.log2, Nat.log2_self_le (by omega), Nat.lt_log2_self⟩
  have hkp := k_lt hp1 hp hk hk' hlt
  have hcl := dec_mul_close hp1 hp hk hk' hlt
  have hflt : f.Flt (c * 2 ^ f.scale) := flt_int (by omega)
  have hn := mulR_nearest p (dec f p c) hflt
  have hpow : (2 : ℚ) ^ (k + (f.scale - f.prec)) ≤ 2 ^ (f.scale - 1) := pow_le_pow_right₀ (by norm_num) (by omega)
  have hn' : |(mulR f p (dec f p c) : ℚ) - (dec f p c : ℚ) * ((2 ^ p - 1 : Nat) : ℚ)| < 2 ^ (k + (f.scale - f.prec)) := by
    refine lt_of_le_of_lt hn ?_
    rw [abs_sub_comm]
    push_cast at hcl ⊢
    exact hcl
  rw [abs_lt] at hcl hn'
  have hup : mulR f p (dec f p c) < (c + 1) * 2 ^ f.scale := by
    have : (mulR f p (dec f p c) : ℚ) < (c : ℚ) * 2 ^ f.scale + 2 ^ f.scale := by
      have : (2 : ℚ) ^ f.scale = 2 ^ (f.scale - 1) + 2 ^ (f.scale - 1) := by
        rw [← two_mul, ← pow_succ']; congr 1; omega
      linarith [hcl.1, hcl.2, hn'.1, hn'.2]
    have h2 : (mulR f p (dec f p c) : ℚ) < (((c + 1) * 2 ^ f.scale : Nat) : ℚ) := by push_cast; linarith
    exact_mod_cast h2
  have hlow : c * 2 ^ f.scale ≤ mulR f p (dec f p c) := by
    rcases Nat.lt_or_eq_of_le hk with hk1 | rfl
    swap
    · exact (hcodes.power k hkp hlt).1
    by_contra hcon
    push Not at hcon
    have hS : (2 : ℚ) ^ (k + (f.scale - f.prec)) ≤ 2 ^ f.scale := le_trans hpow (pow_le_pow_right₀ (by norm_num) (by omega))
    have hge : 2 ^ (k + f.scale) ≤ mulR f p (dec f p c) := by
      refine le_mulR ⟨1, _, one_lt f, by rw [Nat.one_mul]⟩ ?_
      have h1 : ((2 ^ k + 1 : Nat) : ℚ) ≤ c := by exact_mod_cast hk1
      have h2 : ((2 ^ (k + f.scale) : Nat) : ℚ) ≤ (dec f p c : ℚ) * ((2 ^ p - 1 : Nat) : ℚ) := by
        have h3 : ((2 ^ (k + f.scale) : Nat) : ℚ) = 2 ^ k * 2 ^ f.scale := by push_cast; rw [pow_add]
        have h4 : ((2 : ℚ) ^ k + 1) * 2 ^ f.scale ≤ c * 2 ^ f.scale := by
          refine mul_le_mul_of_nonneg_right ?_ (by positivity)
          push_cast at h1
          exact h1
        rw [h3]
        linarith [hcl.1]
      exact_mod_cast h2
    have hdvd : 2 ^ (k + (f.scale + 1 - f.prec)) ∣ mulR f p (dec f p c) := by
      have := flt_dvd f (mulR_flt p (dec f p c)) hge (by omega)
      rwa [show k + f.scale + 1 - f.prec = k + (f.scale + 1 - f.prec) by omega] at this
    have hdvd2 : 2 ^ (k + (f.scale + 1 - f.prec)) ∣ c * 2 ^ f.scale := Dvd.dvd.mul_left (Nat.pow_dvd_pow 2 (by omega)) c
    have hgap : mulR f p (dec f p c) + 2 ^ (k + (f.scale + 1 - f.prec)) ≤ c * 2 ^ f.scale := by
      have h1 : 2 ^ (k + (f.scale + 1 - f.prec)) ∣ c * 2 ^ f.scale - mulR f p (dec f p c) := Nat.dvd_sub hdvd2 hdvd
      have := Nat.le_of_dvd (by omega) h1
      omega
    have hgq : (mulR f p (dec f p c) : ℚ) + 2 ^ (k + (f.scale + 1 - f.prec)) ≤ c * 2 ^ f.scale := by exact_mod_cast hgap
    have e : (2 : ℚ) ^ (k + (f.scale + 1 - f.prec)) = 2 ^ (k + (f.scale - f.prec)) * 2 := by rw [← pow_succ]; congr 1; omega
    linarith [hcl.1, hn'.1]
  exact Nat.div_eq_of_lt_le hlow hup

/-- A number below `2^p - 1` with an inverse `2^e` modulo `2^p - 1` is a power of two. -/
theorem power_of_inverse {p c e : Nat} (hc : 0 < c) (hcm : c < 2 ^ p - 1) (h : 2 ^ p - 1 ∣ c * 2 ^ e - 1) : ∃ t, c = 2 ^ t := by
  have hp2 : 2 ≤ p := by
    rcases Nat.lt_or_ge p 2 with h | h
    · have : p = 0 ∨ p = 1 := by omega
      rcases this with rfl | rfl <;> (simp at hcm; try omega)
    · exact h
  have hpos : 0 < 2 ^ e := by positivity
  have h1 : c * 2 ^ e ≡ 1 [MOD 2 ^ p - 1] :=
    ((Nat.modEq_iff_dvd' (Nat.mul_pos hc hpos)).mpr h).symm
  have hone : 2 ^ p ≡ 1 [MOD 2 ^ p - 1] := ((Nat.modEq_iff_dvd' Nat.one_le_two_pow).mpr (dvd_refl _)).symm
  have hmul : ∀ q, 2 ^ (p * q) ≡ 1 [MOD 2 ^ p - 1] := by
    intro q
    have := hone.pow q
    rwa [one_pow, ← Nat.pow_mul] at this
  have h2 : c ≡ 2 ^ (p * e - e) [MOD 2 ^ p - 1] := by
    have hle : e ≤ p * e := Nat.le_mul_of_pos_left _ (by omega)
    have a := h1.mul_right (2 ^ (p * e - e))
    rw [Nat.mul_assoc, ← Nat.pow_add, Nat.add_sub_cancel' hle, Nat.one_mul] at a
    have b := (hmul e).mul_left c
    rw [Nat.mul_one] at b
    exact b.symm.trans a
  have h3 : 2 ^ (p * e - e) ≡ 2 ^ ((p * e - e) % p) [MOD 2 ^ p - 1] := by
    have a := (hmul ((p * e - e) / p)).mul_right (2 ^ ((p * e - e) % p))
    rw [← Nat.pow_add, Nat.div_add_mod, Nat.one_mul] at a
    exact a
  refine ⟨(p * e - e) % p, ?_⟩
  have hlt : 2 ^ ((p * e - e) % p) < 2 ^ p - 1 := by
    have h4 : (p * e - e) % p ≤ p - 1 := by
      have := Nat.mod_lt (p * e - e) (show 0 < p by omega)
      omega
    have h5 : 2 ^ ((p * e - e) % p) ≤ 2 ^ (p - 1) := Nat.pow_le_pow_right (by omega) h4
    have h6 : 2 ^ p = 2 ^ (p - 1) * 2 := by rw [← Nat.pow_succ]; congr 1; omega
    have h7 : 2 ^ 1 ≤ 2 ^ (p - 1) := Nat.pow_le_pow_right (by omega) (by omega)
    omega
  have := h2.trans h3
  rwa [Nat.ModEq, Nat.mod_eq_of_lt hcm, Nat.mod_eq_of_lt hlt] at this

section Bounds
variable {p X : Nat} (hp1 : 1 ≤ p) (hp : p ≤ f.prec) (hX : f.Flt X) (hX1 : X ≤ 2 ^ f.scale)
include hp1 hp hX hX1

theorem code_le : mulR f p X / 2 ^ f.scale ≤ 2 ^ p - 1 := by
  have h : mulR f p X ≤ (2 ^ p - 1) * 2 ^ f.scale :=
    mulR_le (flt_int (mask_lt hp).le) (by rw [Nat.mul_comm (2 ^ p - 1)]; exact Nat.mul_le_mul_right _ hX1)
  exact Nat.div_le_of_le_mul (by rw [Nat.mul_comm (2 ^ f.scale)]; exact h)

/-- Quantising never raises a value. -/
theorem dec_code_le (hcodes : Codes f p) : dec f p (mulR f p X / 2 ^ f.scale) ≤ X := by
  have hfp := hf.prec
  have hfs := hf.scale
  have hcm := code_le hp1 hp hX hX1
  have hm24 : 2 ^ p - 1 < 2 ^ f.prec := mask_lt hp
  have hm1 := one_le_mask hp1
  have hfloor : (mulR f p X / 2 ^ f.scale) * 2 ^ f.scale ≤ mulR f p X := Nat.div_mul_le_self _ _
  generalize mulR f p X / 2 ^ f.scale = c at hcm hfloor
  by_contra hcon
  push Not at hcon
  have hmq : (0 : ℚ) < ((2 ^ p - 1 : Nat) : ℚ) := by exact_mod_cast hm1
  rcases Nat.eq_zero_or_pos c with rfl | hpos
  · rw [dec_zero p hp1] at hcon
    omega
  rcases Nat.lt_or_eq_of_le hcm with hlt | rfl
  swap
  · -- the full code
    rw [dec_full hp1] at hcon
    have hX' : X ≤ 2 ^ f.scale - 2 ^ (f.scale - f.prec) := by
      rcases Nat.lt_or_ge X (2 ^ (f.scale - 1)) with h | h
      · have : (2 : Nat) ^ (f.scale - 1) ≤ 2 ^ f.scale - 2 ^ (f.scale - f.prec) := by
          have h1 : (2 : Nat) ^ f.scale = 2 ^ (f.scale - 1) * 2 := by rw [← Nat.pow_succ]; congr 1; omega
          have h2 : (2 : Nat) ^ (f.scale - f.prec) ≤ 2 ^ (f.scale - 1) := Nat.pow_le_pow_right (by omega) (by omega)
          omega
        omega
      · have hd : 2 ^ (f.scale - f.prec) ∣ X := by
          have := flt_dvd f (t := f.scale - 1) hX h (by omega)
          rwa [show f.scale - 1 + 1 - f.prec = f.scale - f.prec by omega] at this
        have hd2 : 2 ^ (f.scale - f.prec) ∣ 2 ^ f.scale - X := Nat.dvd_sub (Nat.pow_dvd_pow 2 (by omega)) hd
        have := Nat.le_of_dvd (by omega) hd2
        omega
    have := mulR_mono (f := f) p hX'
    have := hcodes.full
    omega
  obtain ⟨k, hk, hk'⟩ : ∃ k, 2 ^ k ≤ c ∧ c < 2 ^ (k + 1) :=
    ⟨c.log2, Nat.log2_self_le (by omega), Nat.lt_log2_self⟩
  have hkp := k_lt hp1 hp hk hk' hlt
  have hge := dec_ge hp1 hp hk hk' hlt
  have hu : ∀ y, f.Flt y → 2 ^ (k + f.scale - p) ≤ y → 2 ^ (k + (f.scale + 1 - f.prec) - p) ∣ y := by
    intro y hy h
    have := flt_dvd f hy h (by omega)
    rwa [show k + f.scale - p + 1 - f.prec = k + (f.scale + 1 - f.prec) - p by omega] at this
  have hstep : 2 ^ (k + f.scale - p) ≤ X → X + 2 ^ (k + (f.scale + 1 - f.prec) - p) ≤ dec f p c := by
    intro h
    have := Nat.dvd_sub (hu _ (dec_flt hp1 c) hge) (hu X hX h)
    have := Nat.le_of_dvd (by omega) this
    omega
  rcases Nat.lt_or_eq_of_le hk with hk1 | rfl
  swap
  · -- a power of two
    obtain ⟨_, h2, h3⟩ := hcodes.power k hkp hlt
    have hX' : X ≤ dec f p (2 ^ k) - 2 ^ (k + (f.scale + 1 - f.prec) - p) := by
      rcases Nat.lt_or_ge X (2 ^ (k + f.scale - p)) with h | h
      · omega
      · have := hstep h
        omega
    have := mulR_mono (f := f) p hX'
    omega
  -- another code: `X * m` was rounded up to `c`
  have hXm : X * (2 ^ p - 1) < c * 2 ^ f.scale := by
    by_contra h
    push Not at h
    have : dec f p c ≤ X := by
      refine round_le_flt f hm1 (prec_pos f) hX ?_
      rw [div_le_iff₀ hmq]
      exact_mod_cast h
    omega
  have hy0 : f.Flt (c * 2 ^ f.scale - 2 ^ (k + (f.scale + 1 - f.prec))) := by
    refine ⟨c * 2 ^ ((f.prec - 1) - k) - 1, k + (f.scale + 1 - f.prec), ?_, ?_⟩
    · have h1 : c * 2 ^ ((f.prec - 1) - k) < 2 ^ (k + 1) * 2 ^ ((f.prec - 1) - k) := Nat.mul_lt_mul_of_pos_right hk' (by positivity)
      rw [← Nat.pow_add, show k + 1 + ((f.prec - 1) - k) = f.prec by omega] at h1
      show _ < 2 ^ f.prec
      omega
    · rw [Nat.sub_mul, Nat.one_mul, Nat.mul_assoc, ← Nat.pow_add, show (f.prec - 1) - k + (k + (f.scale + 1 - f.prec)) = f.scale by omega]
  have hbig : 2 ^ (k + (f.scale + 1 - f.prec)) ≤ c * 2 ^ f.scale := by
    have h1 : 2 ^ (k + (f.scale + 1 - f.prec)) ≤ 2 ^ f.scale := Nat.pow_le_pow_right (by omega) (by omega)
    have : 1 * 2 ^ f.scale ≤ c * 2 ^ f.scale := Nat.mul_le_mul_right _ hpos
    omega
  have hδ : c * 2 ^ f.scale ≤ X * (2 ^ p - 1) + 2 ^ (k + (f.scale - f.prec)) := by
    have hn := mulR_nearest p X hy0
    have hr : ((c * 2 ^ f.scale : Nat) : ℚ) ≤ mulR f p X := by exact_mod_cast hfloor
    have hx : (X : ℚ) * ((2 ^ p - 1 : Nat) : ℚ) < ((c * 2 ^ f.scale : Nat) : ℚ) := by exact_mod_cast hXm
    have e : (2 : ℚ) ^ (k + (f.scale + 1 - f.prec)) = 2 ^ (k + (f.scale - f.prec)) * 2 := by rw [← pow_succ]; congr 1; omega
    have hpp : (0 : ℚ) < 2 ^ (k + (f.scale - f.prec)) := by positivity
    have hcast : ((c * 2 ^ f.scale - 2 ^ (k + (f.scale + 1 - f.prec)) : Nat) : ℚ) = ((c * 2 ^ f.scale : Nat) : ℚ) - 2 ^ (k + (f.scale + 1 - f.prec)) := by
      rw [Nat.cast_sub hbig]; push_cast; ring
    rw [hcast, abs_of_nonneg (by linarith)] at hn
    have : ((c * 2 ^ f.scale : Nat) : ℚ) ≤ (X : ℚ) * ((2 ^ p - 1 : Nat) : ℚ) + 2 ^ (k + (f.scale - f.prec)) := by
      rcases abs_cases (((c * 2 ^ f.scale : Nat) : ℚ) - 2 ^ (k + (f.scale + 1 - f.prec)) - (X : ℚ) * ((2 ^ p - 1 : Nat) : ℚ)) with ⟨h, _⟩ | ⟨h, _⟩
      · rw [h] at hn; linarith
      · rw [h] at hn; linarith
    have h2 : ((c * 2 ^ f.scale : Nat) : ℚ) ≤ ((X * (2 ^ p - 1) + 2 ^ (k + (f.scale - f.prec)) : Nat) : ℚ) := by
      rw [Nat.cast_add, Nat.cast_mul X]
      push_cast at this ⊢
      exact this
    exact_mod_cast h2
  have hpk : 2 ^ (k + (f.scale - f.prec)) < 2 ^ f.scale := Nat.pow_lt_pow_right (by omega) (by omega)
  have hXge : 2 ^ (k + f.scale - p) ≤ X := by
    by_contra h
    push Not at h
    have h1 : X * (2 ^ p - 1) ≤ 2 ^ (k + f.scale - p) * 2 ^ p :=
      Nat.mul_le_mul h.le (Nat.sub_le _ _)
    rw [← Nat.pow_add, show k + f.scale - p + p = k + f.scale by omega, Nat.pow_add] at h1
    have h2 : (2 ^ k + 1) * 2 ^ f.scale ≤ c * 2 ^ f.scale := Nat.mul_le_mul_right _ hk1
    rw [Nat.add_mul] at h2
    omega
  have hgap := hstep hXge
  -- half a spacing times `m` at least
  have hhalf : 2 * (X * (2 ^ p - 1)) + 2 ^ (k + (f.scale + 1 - f.prec) - p) * (2 ^ p - 1) ≤ 2 * (c * 2 ^ f.scale) := by
    have hn := round_nearest f (num := c * 2 ^ f.scale) (den := 2 ^ p - 1) hm1 (prec_pos f) hX
    rw [← dec] at hn
    have hx : (X : ℚ) < ((c * 2 ^ f.scale : Nat) : ℚ) / ((2 ^ p - 1 : Nat) : ℚ) := by
      rw [lt_div_iff₀ hmq]
      exact_mod_cast hXm
    have hg : (X : ℚ) + 2 ^ (k + (f.scale + 1 - f.prec) - p) ≤ dec f p c := by exact_mod_cast hgap
    rw [abs_of_neg (sub_neg.mpr hx)] at hn
    have h1 := le_trans (le_abs_self _) hn
    have h2 : 2 * (X : ℚ) + 2 ^ (k + (f.scale + 1 - f.prec) - p) ≤ 2 * (((c * 2 ^ f.scale : Nat) : ℚ) / ((2 ^ p - 1 : Nat) : ℚ)) := by linarith
    rw [mul_div_assoc', le_div_iff₀ hmq] at h2
    have h3 : ((2 * (X * (2 ^ p - 1)) + 2 ^ (k + (f.scale + 1 - f.prec) - p) * (2 ^ p - 1) : Nat) : ℚ) ≤ ((2 * (c * 2 ^ f.scale) : Nat) : ℚ) := by
      rw [Nat.cast_add, Nat.cast_mul 2, Nat.cast_mul X, Nat.cast_mul (2 ^ (k + (f.scale + 1 - f.prec) - p)), Nat.cast_mul 2, Nat.cast_pow]
      push_cast at h2 ⊢
      linarith
    exact_mod_cast h3
  -- the excess is a multiple of the spacing, hence exactly `2^(p-1)` spacings
  obtain ⟨Y, hY⟩ := hu X hX hXge
  have hS : c * 2 ^ f.scale = 2 ^ (k + (f.scale + 1 - f.prec) - p) * (c * 2 ^ (p + (f.prec - 1) - k)) := by
    rw [Nat.mul_left_comm, ← Nat.pow_add]; congr 2; omega
  have hP : 2 ^ (k + (f.scale - f.prec)) = 2 ^ (k + (f.scale + 1 - f.prec) - p) * 2 ^ (p - 1) := by rw [← Nat.pow_add]; congr 1; omega
  have hup : 0 < 2 ^ (k + (f.scale + 1 - f.prec) - p) := by positivity
  have h1 : c * 2 ^ (p + (f.prec - 1) - k) ≤ Y * (2 ^ p - 1) + 2 ^ (p - 1) := by
    refine Nat.le_of_mul_le_mul_left ?_ hup
    rw [← hS, Nat.mul_add, ← hP, ← Nat.mul_assoc, ← hY]
    exact hδ
  have h2 : 2 * (Y * (2 ^ p - 1)) + (2 ^ p - 1) ≤ 2 * (c * 2 ^ (p + (f.prec - 1) - k)) := by
    refine Nat.le_of_mul_le_mul_left ?_ hup
    rw [Nat.mul_add, Nat.mul_left_comm, ← Nat.mul_assoc (2 ^ (k + (f.scale + 1 - f.prec) - p)) Y, ← hY, Nat.mul_left_comm _ 2, ← hS]
    exact hhalf
  have h2p : 2 ^ p = 2 * 2 ^ (p - 1) := by
    obtain ⟨q, rfl⟩ : ∃ q, p = q + 1 := ⟨p - 1, by omega⟩
    rw [Nat.pow_succ', Nat.add_sub_cancel]
  have h3 : c * 2 ^ (p + (f.prec - 1) - k) = Y * (2 ^ p - 1) + 2 ^ (p - 1) := by omega
  have hdiv : 2 ^ p - 1 ∣ c * 2 ^ (f.prec - k) - 1 := by
    have e : 2 ^ (p - 1) * (c * 2 ^ (f.prec - k) - 1) = Y * (2 ^ p - 1) := by
      rw [Nat.mul_sub, Nat.mul_one, Nat.mul_left_comm, ← Nat.pow_add, show p - 1 + (f.prec - k) = p + (f.prec - 1) - k by omega, h3,
        Nat.add_sub_cancel]
    have hco : Nat.Coprime (2 ^ p - 1) (2 ^ (p - 1)) := by
      apply Nat.Coprime.pow_right
      rw [Nat.coprime_two_right, Nat.odd_iff]
      omega
    exact hco.dvd_of_dvd_mul_left (Dvd.intro_left Y e.symm)
  obtain ⟨t, ht⟩ := power_of_inverse hpos hlt hdiv
  rw [ht] at hk1 hk'
  have := (Nat.pow_lt_pow_iff_right (a := 2) (by omega)).mp hk1
  have := (Nat.pow_lt_pow_iff_right (a := 2) (by omega)).mp hk'
  omega

/-- The loss is less than one step. -/
theorem code_lt_step : X * (2 ^ p - 1) < dec f p (mulR f p X / 2 ^ f.scale) * (2 ^ p - 1) + 2 ^ f.scale := by
  have hfp := hf.prec
  have hfs := hf.scale
  have hcm := code_le hp1 hp hX hX1
  have hm24 : 2 ^ p - 1 < 2 ^ f.prec := mask_lt hp
  have hm1 := one_le_mask hp1
  have hfloor : (mulR f p X / 2 ^ f.scale) * 2 ^ f.scale ≤ mulR f p X := Nat.div_mul_le_self _ _
  have hfloor2 : mulR f p X < (mulR f p X / 2 ^ f.scale + 1) * 2 ^ f.scale := by
    rw [Nat.add_mul, Nat.one_mul]; exact Nat.lt_div_mul_add (by positivity)
  generalize mulR f p X / 2 ^ f.scale = c at hcm hfloor hfloor2
  have hfl1 : f.Flt ((c + 1) * 2 ^ f.scale) := flt_int (by omega)
  have hXm : X * (2 ^ p - 1) < (c + 1) * 2 ^ f.scale := by
    by_contra h
    push Not at h
    have := le_mulR hfl1 h
    omega
  rcases Nat.eq_zero_or_pos c with rfl | hpos
  · rw [dec_zero p hp1]
    omega
  rcases Nat.lt_or_eq_of_le hcm with hlt | rfl
  swap
  · rw [dec_full hp1]
    have : X * (2 ^ p - 1) ≤ 2 ^ f.scale * (2 ^ p - 1) := Nat.mul_le_mul_right _ hX1
    have hpos : 0 < 2 ^ f.scale := by positivity
    omega
  rcases Nat.lt_or_ge (dec f p c * (2 ^ p - 1)) (c * 2 ^ f.scale) with hD | hD
  swap
  · rw [Nat.add_mul] at hXm
    omega
  obtain ⟨k, hk, hk'⟩ : ∃ k, 2 ^ k ≤ c ∧ c < 2 ^ (k + 1) :=
    ⟨c.log2, Nat.log2_self_le (by omega), Nat.lt_log2_self⟩
  have hkp := k_lt hp1 hp hk hk' hlt
  have hcl := dec_mul_close hp1 hp hk hk' hlt
  have hge : 2 ^ (k + f.scale) ≤ mulR f p X := by
    rw [Nat.pow_add]
    exact le_trans (Nat.mul_le_mul_right _ hk) hfloor
  have hdvd : 2 ^ (k + (f.scale + 1 - f.prec)) ∣ mulR f p X := by
    have := flt_dvd f (mulR_flt p X) hge (by omega)
    rwa [show k + f.scale + 1 - f.prec = k + (f.scale + 1 - f.prec) by omega] at this
  have hgap : mulR f p X + 2 ^ (k + (f.scale + 1 - f.prec)) ≤ (c + 1) * 2 ^ f.scale := by
    have h1 : 2 ^ (k + (f.scale + 1 - f.prec)) ∣ (c + 1) * 2 ^ f.scale - mulR f p X :=
      Nat.dvd_sub (Dvd.dvd.mul_left (Nat.pow_dvd_pow 2 (by omega)) _) hdvd
    have := Nat.le_of_dvd (by omega) h1
    omega
  have hn := mulR_nearest p X hfl1
  have hg : (mulR f p X : ℚ) + 2 ^ (k + (f.scale + 1 - f.prec)) ≤ (((c + 1) * 2 ^ f.scale : Nat) : ℚ) := by exact_mod_cast hgap
  have hx : (X : ℚ) * ((2 ^ p - 1 : Nat) : ℚ) < (((c + 1) * 2 ^ f.scale : Nat) : ℚ) := by exact_mod_cast hXm
  have e : (2 : ℚ) ^ (k + (f.scale + 1 - f.prec)) = 2 ^ (k + (f.scale - f.prec)) * 2 := by rw [← pow_succ]; congr 1; omega
  rw [abs_of_pos (sub_pos.mpr hx)] at hn
  have h1 := le_trans (neg_abs_le _) (le_refl ((mulR f p X : ℚ) - (X : ℚ) * ((2 ^ p - 1 : Nat) : ℚ)))
  rw [abs_lt] at hcl
  have hfin : ((X * (2 ^ p - 1) : Nat) : ℚ) < ((dec f p c * (2 ^ p - 1) + 2 ^ f.scale : Nat) : ℚ) := by
    rw [Nat.cast_mul, Nat.cast_add (dec f p c * (2 ^ p - 1)), Nat.cast_mul (dec f p c)]
    push_cast at hn hg hcl h1 ⊢
    linarith [hcl.1]
  exact_mod_cast hfin

end Bounds

theorem codes_of {f : Fmt} {p : Nat} (h : (∀ k < p, 2 ^ k < 2 ^ p - 1 → 2 ^ k * 2 ^ f.scale ≤ mulR f p (dec f p (2 ^ k)) ∧
    2 ^ (k + f.scale - p) + 2 ^ (k + (f.scale + 1 - f.prec) - p) ≤ dec f p (2 ^ k) ∧
    mulR f p (dec f p (2 ^ k) - 2 ^ (k + (f.scale + 1 - f.prec) - p)) < 2 ^ k * 2 ^ f.scale) ∧
    mulR f p (2 ^ f.scale - 2 ^ (f.scale - f.prec)) < (2 ^ p - 1) * 2 ^ f.scale) : Codes f p := ⟨h.1, h.2⟩

theorem codes64_checked : ∀ p < 31, 1 ≤ p → (∀ k < p, 2 ^ k < 2 ^ p - 1 → 2 ^ k * 2 ^ b64.scale ≤ mulR b64 p (dec b64 p (2 ^ k)) ∧
    2 ^ (k + b64.scale - p) + 2 ^ (k + (b64.scale + 1 - b64.prec) - p) ≤ dec b64 p (2 ^ k) ∧
    mulR b64 p (dec b64 p (2 ^ k) - 2 ^ (k + (b64.scale + 1 - b64.prec) - p)) < 2 ^ k * 2 ^ b64.scale) ∧
    mulR b64 p (2 ^ b64.scale - 2 ^ (b64.scale - b64.prec)) < (2 ^ p - 1) * 2 ^ b64.scale := by decide +kernel

/-- Finitely many codes, computed one by one. -/
theorem codes64 {p : Nat} (h1 : 1 ≤ p) (h2 : p ≤ 30) : Codes b64 p := codes_of (codes64_checked p (by omega) h1)

end Tmf.Ieee.Any
