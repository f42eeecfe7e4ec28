import Verif.Spec.MissingFloats
import Verif.Lemmas.Missing
import Verif.Lemmas.NormalizeRange
/-
C113: custom fractions that are NaN.
-/

set_option exponentiation.threshold 2000

namespace Tmf.Ieee
open Spec

theorem low_fold {M : ℚ} : ∀ (xs ys : List (Val b32)) (a : Val b32), LowEnd ys a → (∀ x ∈ xs, Plain M x) → LowEnd (ys ++ xs) (xs.foldl Ieee.min a)
  | [], ys, a, h, _ => by rw [List.append_nil]; exact h
  | x :: xs, ys, a, h, hx => by
    have := low_fold xs (ys ++ [x]) _ (low_step h (hx x List.mem_cons_self) (by simp)) fun z hz => hx z (List.mem_cons_of_mem _ hz)
    rwa [List.append_assoc] at this

theorem high_fold {M : ℚ} : ∀ (xs ys : List (Val b32)) (a : Val b32), HighEnd ys a → (∀ x ∈ xs, Plain M x) →
    HighEnd (ys ++ xs) (xs.foldl Ieee.max a)
  | [], ys, a, h, _ => by rw [List.append_nil]; exact h
  | x :: xs, ys, a, h, hx => by
    have := high_fold xs (ys ++ [x]) _ (high_step h (hx x List.mem_cons_self) (by simp)) fun z hz => hx z (List.mem_cons_of_mem _ hz)
    rwa [List.append_assoc] at this

/-- The range of such an array: that of its numbers. -/
theorem range_ends {M : ℚ} {data : List (Val b32)} (h : ∀ x ∈ data, Plain M x) (hM : M ≤ 2 ^ 120) (hx : ∃ x ∈ data, isFinite x = true) :
    Least data (rangeOf data).1 ∧ Greatest data (rangeOf data).2 := by
  obtain ⟨x, hx, hf⟩ := hx
  have hbx := ((h x hx).resolve_left (not_finite_nan hf)).2
  rw [abs_le] at hbx
  have hmax : (2 : ℚ) ^ 120 < maxV b32 := lt_of_lt_of_le (by norm_num) maxV32
  have h1 := LowEnd.least (low_fold data _ _ (low_one (M := maxV b32) (x := pack false b32.max)
    (.inr ⟨valueOf_pack_max.1, abs_valueOf_le _⟩)) h) (List.mem_append_right _ hx) hf
  have h2 := HighEnd.greatest (high_fold data _ _ (high_one (M := maxV b32) (x := pack true b32.max)
    (.inr ⟨valueOf_pack_min.1, abs_valueOf_le _⟩)) h) (List.mem_append_right _ hx) hf
  constructor
  · refine ⟨h1.finite, ?_, fun z hz => h1.le z (List.mem_append_right _ hz)⟩
    obtain ⟨z, hz, hf', e⟩ := h1.among
    rcases List.mem_append.mp hz with hz | hz
    · exfalso
      rw [List.mem_singleton.mp hz, valueOf_pack_max.2] at e
      have := h1.le x (List.mem_append_right _ hx) hf
      rw [← e] at this
      linarith
    · exact ⟨z, hz, hf', e⟩
  · refine ⟨h2.finite, ?_, fun z hz => h2.ge z (List.mem_append_right _ hz)⟩
    obtain ⟨z, hz, hf', e⟩ := h2.among
    rcases List.mem_append.mp hz with hz | hz
    · exfalso
      rw [List.mem_singleton.mp hz, valueOf_pack_min.2] at e
      have := h2.ge x (List.mem_append_right _ hx) hf
      rw [← e] at this
      linarith
    · exact ⟨z, hz, hf', e⟩

/-- The range of an array without numbers. -/
theorem range_none : ∀ {data : List (Val b32)}, (∀ x ∈ data, x = .nan) → rangeOf data = (pack false b32.max, pack true b32.max) := by
  have key : ∀ (data : List (Val b32)) (a c : Val b32), (∀ x ∈ data, x = .nan) → data.foldl Ieee.min a = a ∧ data.foldl Ieee.max c = c := by
    intro data
    induction data with
    | nil => intro a c _; exact ⟨rfl, rfl⟩
    | cons x data ih =>
      intro a c h
      rw [List.foldl_cons, List.foldl_cons, h x List.mem_cons_self, min_nan, max_nan]
      exact ih a c fun z hz => h z (List.mem_cons_of_mem _ hz)
  intro data h
  exact Prod.ext (key data _ (pack true b32.max) h).1 (key data (pack false b32.max) _ h).2

/-- Code 0 comes back as the lower end of the range. -/
theorem floatQ_zero {p : Nat} (hp1 : 1 ≤ p) (hp : p ≤ 31) {x mn mx : Val b32} (hmn : isFinite mn = true) (hmx : isFinite mx = true)
    (hc : toU64 (mul (div (sub x mn) (sub mx mn)) (ofNat (2 ^ p - 1))) = 0) :
    isFinite (floatQ p mn mx x) = true ∧ valueOf (floatQ p mn mx x) = valueOf mn := by
  have hP : 0 < b32.prec := by decide
  have hP6 : 0 < b64.prec := by decide
  rw [floatQ, hc, Nat.zero_mod]
  have hz := ofNat_value64 (c := 0) (by norm_num)
  have hm53 : 2 ^ p - 1 ≤ 2 ^ 53 := by
    have : 2 ^ p ≤ 2 ^ 53 := Nat.pow_le_pow_right (by omega) (by omega)
    omega
  have hm := ofNat_value64 hm53
  have hm0 : ((2 ^ p - 1 : Nat) : ℚ) ≠ 0 := by
    have : 1 < 2 ^ p := Nat.one_lt_two_pow (by omega)
    exact_mod_cast (by omega : 2 ^ p - 1 ≠ 0)
  have hmx0 : (0 : ℚ) ≤ maxV b64 := le_trans (by positivity) maxV64
  have wn := widen_value hmn
  have wx := widen_value hmx
  have hs64 := sub_value (f := b64) hP6 wx.1 wn.1 (by
    rw [wx.2, wn.2]
    refine le_trans (abs_sub _ _) (le_trans (add_le_add (abs_valueOf_le mx) (abs_valueOf_le mn)) (le_trans ?_ maxV64))
    rw [maxV32_eq]
    norm_num)
  have hd := div_value hP6 hz.1 hm.1 (by rw [hm.2]; exact hm0) (by rw [hz.2, Nat.cast_zero, zero_div, abs_zero]; exact hmx0)
  rw [hz.2, Nat.cast_zero, zero_div, rnd_zero hP6] at hd
  have hr := mul_value hP6 hd.1 hs64.1 (by rw [hd.2, zero_mul, abs_zero]; exact hmx0)
  rw [hd.2, zero_mul, rnd_zero hP6] at hr
  have hy := add_value hP6 hr.1 wn.1 (by rw [hr.2, zero_add]; exact abs_valueOf_le _)
  rw [hr.2, zero_add, rnd_valueOf hP6, wn.2] at hy
  have hn := convert_value (g := b32) hP hy.1 (by rw [hy.2]; exact abs_valueOf_le _)
  rw [hy.2, rnd_valueOf hP] at hn
  exact hn

/-- NaN comes back as the lower end of the range. -/
theorem floatQ_nan {p : Nat} (hp1 : 1 ≤ p) (hp : p ≤ 31) {mn mx : Val b32} (hmn : isFinite mn = true) (hmx : isFinite mx = true) :
    isFinite (floatQ p mn mx .nan) = true ∧ valueOf (floatQ p mn mx .nan) = valueOf mn := by
  refine floatQ_zero hp1 hp hmn hmx ?_
  have e : sub .nan mn = (.nan : Val b32) := by cases mn <;> rfl
  rw [e]
  have e : div .nan (sub mx mn) = (.nan : Val b32) := by cases sub mx mn <;> rfl
  rw [e]
  have e : mul .nan (ofNat (2 ^ p - 1)) = (.nan : Val b32) := by cases (ofNat (2 ^ p - 1) : Val b32) <;> rfl
  rw [e]
  rfl

/-- So does every number of a range without extent. -/
theorem floatQ_level {p : Nat} (hp1 : 1 ≤ p) (hp : p ≤ 31) {x mn mx : Val b32} (hx : isFinite x = true) (hmn : isFinite mn = true)
    (hmx : isFinite mx = true) (h : valueOf mx = valueOf mn) (h' : valueOf x = valueOf mn) :
    isFinite (floatQ p mn mx x) = true ∧ valueOf (floatQ p mn mx x) = valueOf mn := by
  have zero : ∀ {y : Val b32}, isFinite y = true → valueOf y = valueOf mn → ∃ s h, sub y mn = .fin s 0 h := by
    intro y hy e
    obtain ⟨h1, h2⟩ := sub_value (f := b32) (by decide) hy hmn (by
      rw [e, sub_self, abs_zero]; exact le_trans (by positivity) maxV32)
    rw [e, sub_self, rnd_zero (by decide)] at h2
    obtain ⟨s, n, hn, e'⟩ := finite_cases h1
    rw [e', valueOf_fin] at h2
    have : n = 0 := by
      have hS := units_pos b32
      rcases mul_eq_zero.mp h2 with h | h
      · cases s <;> norm_num [sgn] at h
      · rcases div_eq_zero_iff.mp h with h | h
        · exact_mod_cast h
        · exact absurd h hS.ne'
    subst this
    exact ⟨s, hn, e'⟩
  refine floatQ_zero hp1 hp hmn hmx ?_
  obtain ⟨s, h0, e⟩ := zero hx h'
  obtain ⟨t, h0', e'⟩ := zero hmx h
  rw [e, e']
  have e : div (.fin s 0 h0) (.fin t 0 h0') = (.nan : Val b32) := rfl
  rw [e]
  have e : mul .nan (ofNat (2 ^ p - 1)) = (.nan : Val b32) := by cases (ofNat (2 ^ p - 1) : Val b32) <;> rfl
  rw [e]
  rfl

end Tmf.Ieee
