import Verif.Lemmas.Accuracy
/-
Widths from 25 to 31 bits: `2^p - 1` is rounded to `2^p` in f32, so that coordinates below 1 are
truncated to `p` bits, and 1 itself wraps around to 0.
-/

set_option exponentiation.threshold 2000
set_option linter.unusedSectionVars false

namespace Tmf.Ieee
open Spec

theorem mask_high : ∀ p < 32, 25 ≤ p → b32.round ((2 ^ p - 1) * 2 ^ 149 * 1) 1 = 2 ^ p * 2 ^ 149 := by decide +kernel

theorem two_mul_lt_of {A B C D : Nat} (h : D ≤ A + B) (h2 : 2 * B < C) : 2 * D < C + 2 * A := by omega

theorem max32' : 2 ^ 31 * 2 ^ 149 ≤ b32.max := by decide +kernel

theorem flt_mul_pow {f : Fmt} {X : Nat} (h : f.Flt X) (j : Nat) : f.Flt (X * 2 ^ j) := by
  obtain ⟨a, e, ha, rfl⟩ := h
  exact ⟨a, e + j, ha, by rw [Nat.mul_assoc, ← Nat.pow_add]⟩

theorem flt_div_pow {f : Fmt} {X : Nat} (h : f.Flt X) (j : Nat) : f.Flt (X / 2 ^ j) := by
  obtain ⟨a, e, ha, rfl⟩ := h
  rcases Nat.le_total j e with hj | hj
  · refine ⟨a, e - j, ha, ?_⟩
    obtain ⟨d, rfl⟩ := Nat.exists_eq_add_of_le hj
    rw [Nat.pow_add, Nat.mul_left_comm, Nat.mul_div_cancel_left _ (by positivity), Nat.add_sub_cancel_left]
  · refine ⟨a / 2 ^ (j - e), 0, lt_of_le_of_lt (Nat.div_le_self _ _) ha, ?_⟩
    obtain ⟨d, rfl⟩ := Nat.exists_eq_add_of_le hj
    rw [Nat.pow_add, Nat.mul_comm a, Nat.mul_div_mul_left _ _ (by positivity), Nat.add_sub_cancel_left, pow_zero, Nat.mul_one]

section
variable {p : Nat} (hp1 : 25 ≤ p) (hp : p ≤ 31)
include hp1 hp

theorem rep_scaled {X : Nat} (hX : b32.Flt X) (h : X ≤ 2 ^ 31 * 2 ^ 149) : b32.Rep X :=
  (rep_iff b32 (by decide)).mpr ⟨hX, le_trans h max32'⟩

theorem pow_le_31 : 2 ^ p ≤ 2 ^ 31 := Nat.pow_le_pow_right (by omega) hp

theorem rep_pow : b32.Rep (2 ^ p * 2 ^ 149) := by
  refine rep_scaled hp1 hp ⟨1, p + 149, by decide, by rw [Nat.one_mul, Nat.pow_add]⟩ ?_
  exact Nat.mul_le_mul_right _ (pow_le_31 hp1 hp)

theorem ofNat_mask : (ofNat (2 ^ p - 1) : Val b32) = .fin false (2 ^ p * 2 ^ 149) (rep_pow hp1 hp) := by
  have h := mask_high p (by omega) hp1
  rw [Nat.mul_one] at h
  rw [ofNat, rounded, show b32.scale = 149 from rfl, h, pack, dif_pos (rep_pow hp1 hp)]

/-- The truncated coordinate. -/
def truncTo (p X : Nat) : Nat := X / 2 ^ (149 - p) * 2 ^ (149 - p)

theorem truncTo_le (X : Nat) : truncTo p X ≤ X := Nat.div_mul_le_self _ _

theorem trunc_flt {X : Nat} (hX : b32.Flt X) : b32.Flt (truncTo p X) := flt_mul_pow (flt_div_pow hX _) _

theorem trunc_rep {X : Nat} (hX : b32.Flt X) (h : X ≤ 2 ^ 149) : b32.Rep (truncTo p X) := by
  refine rep_scaled hp1 hp (trunc_flt hp1 hp hX) (le_trans (truncTo_le hp1 hp X) (le_trans h ?_))
  exact Nat.le_mul_of_pos_left _ (by positivity)

/-- The code of a coordinate. -/
theorem code_high {X : Nat} (hX : b32.Rep X) (h1 : X ≤ 2 ^ 149) :
    toU64 (mul (.fin false X hX : Val b32) (ofNat (2 ^ p - 1))) = X / 2 ^ (149 - p) := by
  have hXf := ((rep_iff b32 (by decide)).mp hX).1
  rw [ofNat_mask hp1 hp]
  simp only [mul]
  have hr : b32.round (X * (2 ^ p * 2 ^ 149)) (2 ^ b32.scale) = X * 2 ^ p := by
    have := round_scale b32 (num := X * 2 ^ p) (den := 1) (k := 2 ^ 149) (by positivity)
    rw [Nat.one_mul, Nat.mul_assoc, round_of_flt b32 (by decide) (flt_mul_pow hXf p)] at this
    exact this
  have hrep : b32.Rep (X * 2 ^ p) := by
    refine rep_scaled hp1 hp (flt_mul_pow hXf p) ?_
    rw [Nat.mul_comm (2 ^ 31)]
    exact Nat.mul_le_mul h1 (pow_le_31 hp1 hp)
  rw [rounded, hr, pack, dif_pos hrep]
  simp only [toU64, bne_self_eq_false, Bool.false_eq_true, if_false]
  have e : X * 2 ^ p / 2 ^ 149 = X / 2 ^ (149 - p) := by
    rw [show (2 : Nat) ^ 149 = 2 ^ (149 - p) * 2 ^ p by rw [← Nat.pow_add]; congr 1; omega,
      Nat.mul_div_mul_right _ _ (by positivity)]
  have hle : X * 2 ^ p / 2 ^ 149 ≤ 2 ^ 64 - 1 := by
    refine le_trans (Nat.div_le_of_le_mul (Nat.mul_le_mul h1 (pow_le_31 hp1 hp))) (by norm_num)
  show Nat.min (X * 2 ^ p / 2 ^ 149) _ = _
  rw [← e]
  exact Nat.min_eq_left hle

theorem code_high_lt {X : Nat} (h1 : X < 2 ^ 149) : X / 2 ^ (149 - p) < 2 ^ p := by
  rw [Nat.div_lt_iff_lt_mul (by positivity), ← Nat.pow_add, show p + (149 - p) = 149 by omega]
  exact h1

theorem code_rep {X : Nat} (hX : b32.Flt X) (h1 : X < 2 ^ 149) : b32.Rep (X / 2 ^ (149 - p) * 2 ^ 149) := by
  refine rep_scaled hp1 hp (flt_mul_pow (flt_div_pow hX _) _) (Nat.mul_le_mul_right _ ?_)
  exact le_trans (code_high_lt hp1 hp h1).le (pow_le_31 hp1 hp)

/-- Decoding in f32. -/
theorem div_high {X : Nat} (hX : b32.Flt X) (h1 : X < 2 ^ 149) :
    div (ofNat (X / 2 ^ (149 - p)) : Val b32) (ofNat (2 ^ p - 1)) = .fin false (truncTo p X) (trunc_rep hp1 hp hX h1.le) := by
  have e1 : (ofNat (X / 2 ^ (149 - p)) : Val b32) = .fin false (X / 2 ^ (149 - p) * 2 ^ 149) (code_rep hp1 hp hX h1) := by
    have := rounded_exact (f := b32) false (k := 1) (by decide) (code_rep hp1 hp hX h1)
    rwa [Nat.mul_one] at this
  rw [e1, ofNat_mask hp1 hp]
  simp only [div]
  rw [if_neg (Nat.mul_ne_zero (by positivity) (by positivity))]
  have hr : b32.round (X / 2 ^ (149 - p) * 2 ^ 149 * 2 ^ b32.scale) (2 ^ p * 2 ^ 149) = truncTo p X := by
    rw [show b32.scale = 149 from rfl, round_scale b32 (by positivity)]
    have := round_scale b32 (num := truncTo p X) (den := 1) (k := 2 ^ p) (by positivity)
    rw [Nat.one_mul, round_of_flt b32 (by decide) (trunc_flt hp1 hp hX), truncTo, Nat.mul_assoc, ← Nat.pow_add,
      show 149 - p + p = 149 by omega] at this
    exact this
  rw [rounded, hr, pack, dif_pos (trunc_rep hp1 hp hX h1.le)]
  rfl

/-- A value just above `D` rounds to `D`. -/
theorem round_just_above {num den D t : Nat} (hd : 0 < den) (hD : b32.Flt D) (ht : 2 ^ t ≤ D) (h24 : 24 ≤ t + 1)
    (h1 : (D : ℚ) ≤ (num : ℚ) / den) (h2 : (num : ℚ) / den - D < 2 ^ (t + 1 - 24) / 2) : b32.round num den = D := by
  have hge := flt_le_round b32 hd (by decide) hD h1
  have hn := round_nearest b32 (num := num) hd (by decide) hD
  have hE := round_flt b32 (num := num) hd (by decide)
  have d1 : 2 ^ (t + 1 - 24) ∣ b32.round num den := flt_dvd b32 hE (le_trans ht hge) h24
  have d2 : 2 ^ (t + 1 - 24) ∣ D := flt_dvd b32 hD ht h24
  by_contra hne
  have hle := Nat.le_of_dvd (by omega) (Nat.dvd_sub d1 d2)
  have hgap : D + 2 ^ (t + 1 - 24) ≤ b32.round num den := by omega
  have hg : (D : ℚ) + 2 ^ (t + 1 - 24) ≤ b32.round num den := by exact_mod_cast hgap
  rw [abs_of_nonpos (sub_nonpos.mpr h1)] at hn
  have := le_trans (le_abs_self _) hn
  linarith

/-- Decoding through f64. -/
theorem div_high64 {X : Nat} (hX : b32.Flt X) (h1 : X < 2 ^ 149) :
    (convert (div (ofNat (X / 2 ^ (149 - p)) : Val b64) (ofNat (2 ^ p - 1))) : Val b32) =
      .fin false (truncTo p X) (trunc_rep hp1 hp hX h1.le) := by
  have hlt := code_high_lt hp1 hp h1
  have hpp := pow_le_31 hp1 hp
  have hTf := trunc_flt hp1 hp hX
  have hTr := trunc_rep hp1 hp hX h1.le
  have hTe : truncTo p X = X / 2 ^ (149 - p) * 2 ^ (149 - p) := rfl
  have hcf : b32.Flt (X / 2 ^ (149 - p)) := flt_div_pow hX _
  show _ = Val.fin false (truncTo p X) hTr
  generalize X / 2 ^ (149 - p) = c at *
  generalize hT : truncTo p X = T at hTf hTr hTe ⊢
  have h53 : (2 : Nat) ^ 30 ≤ 2 ^ 53 := by norm_num
  have hm1 : 0 < 2 ^ p - 1 := by
    have : 2 ^ 25 ≤ 2 ^ p := Nat.pow_le_pow_right (by omega) hp1
    omega
  have hmq : (0 : ℚ) < ((2 ^ p - 1 : Nat) : ℚ) := by exact_mod_cast hm1
  rw [ofNat_exact64 (show c ≤ 2 ^ 53 by omega), ofNat_exact64 (show 2 ^ p - 1 ≤ 2 ^ 53 by omega)]
  simp only [div]
  have hne : (2 ^ p - 1) * 2 ^ 1074 ≠ 0 := Nat.mul_ne_zero (by omega) (by positivity)
  have hr : b64.round (c * 2 ^ 1074 * 2 ^ b64.scale) ((2 ^ p - 1) * 2 ^ 1074) = decWide p c := round_scale b64 (by positivity)
  have hwle : decWide p c ≤ 2 ^ 1074 := by
    refine round_le_flt b64 hm1 (by decide) ⟨1, 1074, by decide, by rw [Nat.one_mul]⟩ ?_
    rw [div_le_iff₀ hmq]
    have : c * 2 ^ 1074 ≤ 2 ^ 1074 * (2 ^ p - 1) := by rw [Nat.mul_comm]; exact Nat.mul_le_mul_left _ (by omega)
    exact_mod_cast this
  have hwrep : b64.Rep (decWide p c) := (rep_iff b64 (by decide)).mpr
    ⟨round_flt b64 hm1 (by decide), le_trans hwle (le_trans (Nat.le_mul_of_pos_right _ (by positivity)) max64)⟩
  rw [if_neg hne, rounded, hr, pack, dif_pos hwrep]
  simp only [convert]
  have hround : b32.round (decWide p c * 2 ^ b32.scale) (2 ^ b64.scale) = T := by
    show b32.round (decWide p c * 2 ^ 149) (2 ^ 1074) = T
    rcases Nat.eq_zero_or_pos c with rfl | hpos
    · have h0 : decWide p 0 = 0 := by
        have := round_le_flt b64 (num := 0 * 2 ^ 1074) (den := 2 ^ p - 1) hm1 (by decide) (y := 0)
          ⟨0, 0, by decide, rfl⟩ (by simp)
        exact Nat.le_zero.mp this
      rw [h0, hTe, Nat.zero_mul, Nat.zero_mul]
      have := round_le_flt b32 (num := 0) (den := 2 ^ 1074) (by positivity) (by decide) (y := 0) ⟨0, 0, by decide, rfl⟩ (by simp)
      exact Nat.le_zero.mp this
    obtain ⟨k, hk, hk'⟩ : ∃ k, 2 ^ k ≤ c ∧ c < 2 ^ (k + 1) :=
      ⟨c.log2, Nat.log2_self_le (by omega), Nat.lt_log2_self⟩
    have hkp : k < p := (Nat.pow_lt_pow_iff_right (a := 2) (by omega)).mp (by omega)
    -- the significand of `c`
    obtain ⟨a, ha, hca⟩ : ∃ a, a < 2 ^ 24 ∧ c * 2 ^ 23 = a * 2 ^ k := by
      rcases Nat.lt_or_ge k 23 with h | h
      · refine ⟨c * 2 ^ (23 - k), ?_, ?_⟩
        · calc c * 2 ^ (23 - k) < 2 ^ (k + 1) * 2 ^ (23 - k) := Nat.mul_lt_mul_of_pos_right hk' (by positivity)
            _ = 2 ^ 24 := by rw [← Nat.pow_add]; congr 1; omega
        · rw [Nat.mul_assoc, ← Nat.pow_add]; congr 2; omega
      · have hd : 2 ^ (k + 1 - 24) ∣ c := flt_dvd b32 hcf hk (by show 24 ≤ _; omega)
        obtain ⟨a, rfl⟩ := hd
        refine ⟨a, ?_, ?_⟩
        · by_contra hcon
          push Not at hcon
          have : 2 ^ (k + 1 - 24) * 2 ^ 24 ≤ 2 ^ (k + 1 - 24) * a := Nat.mul_le_mul_left _ hcon
          rw [← Nat.pow_add, show k + 1 - 24 + 24 = k + 1 by omega] at this
          omega
        · rw [Nat.mul_comm _ a, Nat.mul_assoc, ← Nat.pow_add]; congr 2; omega
    have hTge : 2 ^ (k + 149 - p) ≤ T := by
      rw [hTe, show k + 149 - p = k + (149 - p) by omega, Nat.pow_add]
      exact Nat.mul_le_mul_right _ hk
    refine round_just_above hp1 hp (t := k + 149 - p) (by positivity) hTf hTge (by omega) ?_ ?_
    · -- not below
      have h2 : T * 2 ^ 925 ≤ decWide p c := by
        refine flt_le_round b64 hm1 (by decide) ?_ ?_
        · obtain ⟨a, e, h, he⟩ := flt_mul_pow hTf 925
          exact ⟨a, e, lt_trans h (by decide), he⟩
        · rw [le_div_iff₀ hmq]
          have : T * 2 ^ 925 * (2 ^ p - 1) ≤ c * 2 ^ 1074 := by
            calc T * 2 ^ 925 * (2 ^ p - 1) ≤ T * 2 ^ 925 * 2 ^ p := Nat.mul_le_mul_left _ (Nat.sub_le _ _)
              _ = c * 2 ^ 1074 := by
                rw [hTe, Nat.mul_assoc, Nat.mul_assoc, ← Nat.pow_add, ← Nat.pow_add]; congr 2; omega
          exact_mod_cast this
      rw [le_div_iff₀ (by positivity)]
      have : T * 2 ^ 1074 ≤ decWide p c * 2 ^ 149 := by
        calc T * 2 ^ 1074 = T * 2 ^ 925 * 2 ^ 149 := by rw [Nat.mul_assoc, ← Nat.pow_add]
          _ ≤ _ := Nat.mul_le_mul_right _ h2
      exact_mod_cast this
    · -- less than half a spacing above: compare with a bound that is an f64 value
      have hb : decWide p c ≤ (2 ^ 26 * a + (2 ^ 25 - 1)) * 2 ^ (k + 1025 - p) := by
        refine round_le_flt b64 hm1 (by decide) ⟨_, _, ?_, rfl⟩ ?_
        · show _ < 2 ^ 53
          omega
        · rw [div_le_iff₀ hmq]
          have : c * 2 ^ 1074 ≤ (2 ^ 26 * a + (2 ^ 25 - 1)) * 2 ^ (k + 1025 - p) * (2 ^ p - 1) := by
            have e : c * 2 ^ 1074 = 2 ^ 26 * a * 2 ^ (k + 1025 - p) * 2 ^ p := by
              calc c * 2 ^ 1074 = c * 2 ^ 23 * 2 ^ 1051 := by rw [Nat.mul_assoc, ← Nat.pow_add]
                _ = a * 2 ^ k * 2 ^ 1051 := by rw [hca]
                _ = 2 ^ 26 * a * 2 ^ (k + 1025 - p) * 2 ^ p := by
                  rw [Nat.mul_comm (2 ^ 26) a, Nat.mul_assoc, Nat.mul_assoc, Nat.mul_assoc, ← Nat.pow_add, ← Nat.pow_add, ← Nat.pow_add]
                  congr 2; omega
            rw [e, Nat.mul_right_comm _ (2 ^ (k + 1025 - p)), Nat.mul_right_comm _ (2 ^ (k + 1025 - p))]
            refine Nat.mul_le_mul_right _ ?_
            have hpp' : 2 ^ 25 ≤ 2 ^ p := Nat.pow_le_pow_right (by omega) hp1
            obtain ⟨m, hm⟩ : ∃ m, 2 ^ p = m + 1 := ⟨2 ^ p - 1, by omega⟩
            rw [hm, Nat.add_sub_cancel, Nat.mul_add, Nat.mul_one, Nat.add_mul]
            have h3 : (2 ^ 25 - 1) * (2 ^ 25 - 1) ≤ (2 ^ 25 - 1) * m := Nat.mul_le_mul_left _ (by omega)
            have h4 : 2 ^ 26 * a ≤ 2 ^ 26 * (2 ^ 24 - 1) := Nat.mul_le_mul_left _ (by omega)
            have h5 : (2 : Nat) ^ 26 * (2 ^ 24 - 1) ≤ (2 ^ 25 - 1) * (2 ^ 25 - 1) := by norm_num
            omega
          exact_mod_cast this
      rw [sub_lt_iff_lt_add, div_lt_iff₀ (by positivity)]
      have hfin : 2 * (decWide p c * 2 ^ 149) < (2 ^ (k + 149 - p + 1 - 24) + 2 * T) * 2 ^ 1074 := by
        have hTa : T * 2 ^ 1074 = 2 ^ 26 * a * 2 ^ (k + 1025 - p) * 2 ^ 149 := by
          calc T * 2 ^ 1074 = c * 2 ^ 23 * (2 ^ (149 - p) * 2 ^ 1051) := by
                rw [hTe, Nat.mul_assoc, Nat.mul_assoc, ← Nat.pow_add, ← Nat.pow_add, ← Nat.pow_add]
                exact congrArg (c * 2 ^ ·) (by omega)
            _ = a * 2 ^ k * (2 ^ (149 - p) * 2 ^ 1051) := by rw [hca]
            _ = 2 ^ 26 * a * 2 ^ (k + 1025 - p) * 2 ^ 149 := by
              rw [Nat.mul_comm (2 ^ 26) a, Nat.mul_assoc, Nat.mul_assoc, Nat.mul_assoc, ← Nat.pow_add, ← Nat.pow_add,
                ← Nat.pow_add, ← Nat.pow_add]
              exact congrArg (a * 2 ^ ·) (by omega)
        have hu : 2 ^ (k + 149 - p + 1 - 24) * 2 ^ 1074 = 2 ^ 26 * 2 ^ (k + 1025 - p) * 2 ^ 149 := by
          rw [← Nat.pow_add, ← Nat.pow_add, ← Nat.pow_add]
          exact congrArg (2 ^ ·) (by omega)
        have hb2 := Nat.mul_le_mul_right (2 ^ 149) hb
        rw [Nat.add_mul, Nat.add_mul] at hb2
        rw [Nat.add_mul, Nat.mul_assoc 2 T, hTa, hu]
        have hlt2 : 2 * ((2 ^ 25 - 1) * 2 ^ (k + 1025 - p) * 2 ^ 149) < 2 ^ 26 * 2 ^ (k + 1025 - p) * 2 ^ 149 := by
          rw [Nat.mul_assoc (2 ^ 25 - 1), Nat.mul_assoc (2 ^ 26), ← Nat.mul_assoc 2]
          exact Nat.mul_lt_mul_of_pos_right (by norm_num) (by positivity)
        exact two_mul_lt_of hb2 hlt2
      have hq : ((2 * (decWide p c * 2 ^ 149) : Nat) : ℚ) < (((2 ^ (k + 149 - p + 1 - 24) + 2 * T) * 2 ^ 1074 : Nat) : ℚ) := by
        exact_mod_cast hfin
      rw [Nat.cast_mul 2, Nat.cast_mul (2 ^ (k + 149 - p + 1 - 24) + 2 * T), Nat.cast_add, Nat.cast_mul 2 T,
        Nat.cast_pow 2 (k + 149 - p + 1 - 24), Nat.cast_ofNat] at hq
      clear hfin hb hwle hr hne hwrep hTge hTe
      generalize ((2 ^ 1074 : Nat) : ℚ) = M at hq ⊢
      generalize ((decWide p c * 2 ^ 149 : Nat) : ℚ) = D at hq ⊢
      linarith
  rw [rounded, hround, pack, dif_pos hTr]
  rfl

end

theorem toU64_neg_mul {m : Val b32} {X M : Nat} (hX : b32.Rep X) (hM : b32.Rep M) (hm : m = .fin false M hM) :
    toU64 (mul (.fin true X hX : Val b32) m) = 0 := by
  rw [hm]
  simp only [mul]
  rw [rounded, pack]
  split <;> simp [toU64]

theorem code_unit_high {p : Nat} (hp1 : 25 ≤ p) (hp : p ≤ 31) {x : Val b32} (hx : UnitValue x) :
    ∃ X, b32.Rep X ∧ X < 2 ^ 149 ∧ toU64 (mul x (ofNat (2 ^ p - 1))) % 2 ^ p = X / 2 ^ (149 - p) ∧
      (valueOf x < 1 → valueOf x = (X : ℚ) / 2 ^ 149) := by
  obtain ⟨s, X, hX, rfl, hX1, hs⟩ := unitValue_cases hx
  have h0 : b32.Rep 0 := (rep_iff b32 (by decide)).mpr ⟨⟨0, 0, by decide, rfl⟩, Nat.zero_le _⟩
  cases s with
  | true =>
    have : X = 0 := by simpa using hs
    subst this
    refine ⟨0, h0, by positivity, ?_, fun _ => by simp [valueOf, signed]⟩
    rw [toU64_neg_mul hX _ (ofNat_mask hp1 hp), Nat.zero_mod, Nat.zero_div]
  | false =>
    rcases Nat.lt_or_ge X (2 ^ 149) with h | h
    · refine ⟨X, hX, h, ?_, fun _ => ?_⟩
      · rw [code_high hp1 hp hX hX1, Nat.mod_eq_of_lt (code_high_lt hp1 hp h)]
      · simp only [valueOf, signed, Bool.false_eq_true, if_false, Int.cast_natCast]; rfl
    · have : X = 2 ^ 149 := le_antisymm hX1 h
      refine ⟨0, h0, by positivity, ?_, fun hlt => ?_⟩
      · rw [code_high hp1 hp hX hX1, this, Nat.pow_div (by omega) (by omega), show 149 - (149 - p) = p by omega,
          Nat.mod_self, Nat.zero_div]
      · refine absurd hlt (not_lt.mpr ?_)
        subst this
        simp only [valueOf, signed, Bool.false_eq_true, if_false, Int.cast_natCast]
        rw [le_div_iff₀ (by positivity), one_mul]
        exact_mod_cast le_refl _

theorem stepBelow_trunc {p : Nat} (hp1 : 25 ≤ p) (hp : p ≤ 31) {x : Val b32} {X : Nat} (hv : valueOf x = (X : ℚ) / 2 ^ 149)
    (h : b32.Rep (truncTo p X)) : StepBelow p x (.fin false (truncTo p X) h) := by
  have hv2 : valueOf (.fin false (truncTo p X) h : Val b32) = (truncTo p X : ℚ) / 2 ^ 149 := by
    simp only [valueOf, signed, Bool.false_eq_true, if_false, Int.cast_natCast]; rfl
  have hS : (0 : ℚ) < 2 ^ 149 := by positivity
  have h1 : (1 : ℚ) < 2 ^ p := one_lt_pow₀ (by norm_num) (by omega)
  refine ⟨rfl, ?_, ?_⟩
  · rw [hv, hv2, div_le_div_iff_of_pos_right hS]
    exact_mod_cast truncTo_le hp1 hp X
  · rw [hv, hv2, ← sub_div]
    have hlt : X < truncTo p X + 2 ^ (149 - p) := by
      rw [truncTo]
      have := Nat.div_add_mod X (2 ^ (149 - p))
      have h2 := Nat.mod_lt X (show 0 < 2 ^ (149 - p) by positivity)
      rw [Nat.mul_comm] at this
      omega
    have hq : (X : ℚ) < truncTo p X + 2 ^ (149 - p) := by exact_mod_cast hlt
    have e : (2 : ℚ) ^ 149 = 2 ^ (149 - p) * 2 ^ p := by rw [← pow_add]; congr 1; omega
    calc ((X : ℚ) - truncTo p X) / 2 ^ 149 < 2 ^ (149 - p) / 2 ^ 149 := by
          rw [div_lt_div_iff_of_pos_right hS]; linarith
      _ = 1 / 2 ^ p := by rw [e]; field_simp
      _ ≤ 1 / (2 ^ p - 1) := by
          apply one_div_le_one_div_of_le <;> linarith

section
variable (lib : Libm)

/-- One coordinate of `quantUv`. -/
def unitQ (p : Nat) (x : Val b32) : Val b32 :=
  div (ofNat (toU64 (mul x (ofNat (2 ^ p - 1))) % 2 ^ p)) (ofNat (2 ^ p - 1))

theorem quantUv_unitQ {p : Nat} (hp1 : 1 ≤ p) (x : Vec2 (Val b32)) :
    quantUv (ops lib) p x = (unitQ p x.1, unitQ p x.2) := by
  rw [quantUv, if_neg (by omega), uvOfCodes, ops_toU64 lib, ops_mul lib, ops_div lib, ops_ofNat lib]
  simp only [unitQ]

theorem unitQ_stepBelow {p : Nat} (hp1 : 1 ≤ p) (hp : p ≤ 31) {x : Val b32} (hx : UnitValue x)
    (h : p ≤ 24 ∨ valueOf x < 1) : StepBelow p x (unitQ p x) := by
  rcases Nat.lt_or_ge 24 p with h24 | h24
  · obtain ⟨X, hX, hlt, hc, hv⟩ := code_unit_high h24 hp hx
    rw [unitQ, hc, div_high h24 hp ((rep_iff b32 (by decide)).mp hX).1 hlt]
    exact stepBelow_trunc h24 hp (hv (h.resolve_left (by omega))) _
  · rw [unitQ, div_code hp1 h24 (mod_le_mask p _)]
    exact stepBelow_unitDec hp1 h24 hx _

theorem quantChannel_stepBelow {p : Nat} (hp1 : 1 ≤ p) (hp : p ≤ 31) {x : Val b32} (hx : UnitValue x)
    (h : p ≤ 24 ∨ valueOf x < 1) : StepBelow p x (quantChannel (ops lib) p x) := by
  rcases Nat.lt_or_ge 24 p with h24 | h24
  · obtain ⟨X, hX, hlt, hc, hv⟩ := code_unit_high h24 hp hx
    rw [quantChannel, channelOfCode, ops_ofD lib, ops_dDiv lib, ops_dOfNat lib, ops_toU64 lib, ops_mul lib, ops_ofNat lib, hc,
      div_high64 h24 hp ((rep_iff b32 (by decide)).mp hX).1 hlt]
    exact stepBelow_trunc h24 hp (hv (h.resolve_left (by omega))) _
  · rw [quantChannel_eq lib hp1 h24]
    exact stepBelow_unitDec hp1 h24 hx _

theorem unitQ_idem_high {p : Nat} (hp1 : 25 ≤ p) (hp : p ≤ 31) {x : Val b32} (hx : UnitValue x) :
    unitQ p (unitQ p x) = unitQ p x := by
  obtain ⟨X, hX, hlt, hc, hv⟩ := code_unit_high hp1 hp hx
  have hXf := ((rep_iff b32 (by decide)).mp hX).1
  have hle := truncTo_le hp1 hp X
  have e : unitQ p x = .fin false (truncTo p X) (trunc_rep hp1 hp hXf hlt.le) := by
    rw [unitQ, hc, div_high hp1 hp hXf hlt]
  rw [e]
  rw [unitQ, code_high hp1 hp _ (by omega), Nat.mod_eq_of_lt (code_high_lt hp1 hp (by omega)),
    div_high hp1 hp (trunc_flt hp1 hp hXf) (by omega)]
  exact fin_congr (by rw [truncTo, truncTo, Nat.mul_div_cancel _ (by positivity)]) _ _

theorem quantUv_idem_unit {p : Nat} (hp : p ≤ 31) {x : Vec2 (Val b32)} (h1 : UnitValue x.1) (h2 : UnitValue x.2) :
    quantUv (ops lib) p (quantUv (ops lib) p x) = quantUv (ops lib) p x := by
  rcases Nat.lt_or_ge 24 p with h24 | h24
  · rw [quantUv_unitQ lib (by omega), quantUv_unitQ lib (by omega)]
    exact Prod.ext (unitQ_idem_high h24 hp h1) (unitQ_idem_high h24 hp h2)
  · exact quantUv_idem lib h24 x

end

end Tmf.Ieee
