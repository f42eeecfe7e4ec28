import Verif.Lemmas.QuantizeWide
import Verif.Spec.Accuracy
/-
The numbers that IEEE operations give: the exact result, rounded by `rnd`.
-/

namespace Tmf.Ieee
open Spec

variable (f : Fmt)

/-- Rounding of a nonnegative number. -/
def rndPos (v : ℚ) : ℚ := (f.round (v.num.natAbs * 2 ^ f.scale) v.den : ℚ) / 2 ^ f.scale

/-- Rounding of a number to the format (without an upper limit). -/
def rnd (v : ℚ) : ℚ := if v < 0 then -rndPos f (-v) else rndPos f v

/-- The largest finite value. -/
def maxV : ℚ := (f.max : ℚ) / 2 ^ f.scale

theorem units_pos : (0 : ℚ) < 2 ^ f.scale := by positivity

theorem natAbs_div {v : ℚ} (h : 0 ≤ v) : ((v.num.natAbs : ℚ)) / v.den = v := by
  have h1 : ((v.num.natAbs : ℤ) : ℚ) = (v.num : ℚ) := by
    rw [Int.natAbs_of_nonneg (Rat.num_nonneg.mpr h)]
  rw [← Int.cast_natCast, h1]
  exact Rat.num_div_den v

variable {f}

theorem rndPos_eq (hp : 0 < f.prec) {v : ℚ} (hv : 0 ≤ v) {num den : Nat} (hd : 0 < den)
    (h : v * 2 ^ f.scale = (num : ℚ) / den) : rndPos f v = (f.round num den : ℚ) / 2 ^ f.scale := by
  rw [rndPos, round_congr f hp v.den_pos hd (num' := num)]
  rw [← h]
  push_cast
  rw [mul_div_right_comm, natAbs_div hv]

theorem rndPos_nonneg (v : ℚ) : 0 ≤ rndPos f v := div_nonneg (Nat.cast_nonneg _) (units_pos f).le

theorem rndPos_mono (hp : 0 < f.prec) {v w : ℚ} (hv : 0 ≤ v) (h : v ≤ w) : rndPos f v ≤ rndPos f w := by
  rw [rndPos, rndPos, div_le_div_iff_of_pos_right (units_pos f)]
  have := round_mono f (num := v.num.natAbs * 2 ^ f.scale) (num' := w.num.natAbs * 2 ^ f.scale) v.den_pos w.den_pos hp (by
    push_cast
    rw [mul_div_right_comm, natAbs_div hv, mul_div_right_comm, natAbs_div (le_trans hv h)]
    exact mul_le_mul_of_nonneg_right h (units_pos f).le)
  exact_mod_cast this

theorem rnd_of_nonneg {v : ℚ} (h : 0 ≤ v) : rnd f v = rndPos f v := if_neg (not_lt.mpr h)

theorem rndPos_zero (hp : 0 < f.prec) : rndPos f 0 = 0 := by
  have h := rndPos_eq (f := f) hp (le_refl (0 : ℚ)) (num := 0) (den := 1) (by decide) (by simp)
  rw [h, round_of_flt f hp (y := 0) ⟨0, 0, by positivity, rfl⟩, Nat.cast_zero, zero_div]

theorem rnd_zero (hp : 0 < f.prec) : rnd f 0 = 0 := by rw [rnd_of_nonneg (le_refl _), rndPos_zero hp]

theorem rnd_neg (hp : 0 < f.prec) (v : ℚ) : rnd f (-v) = -rnd f v := by
  rcases lt_trichotomy v 0 with h | rfl | h
  · rw [rnd_of_nonneg (by linarith), rnd, if_pos h, neg_neg]
  · rw [neg_zero, rnd_zero hp, neg_zero]
  · rw [rnd, if_pos (by linarith), neg_neg, rnd_of_nonneg h.le]

theorem rnd_mono (hp : 0 < f.prec) {v w : ℚ} (h : v ≤ w) : rnd f v ≤ rnd f w := by
  rw [rnd, rnd]
  split
  · split
    · exact neg_le_neg (rndPos_mono hp (by linarith) (by linarith))
    · exact le_trans (neg_nonpos.mpr (rndPos_nonneg _)) (rndPos_nonneg _)
  · rw [if_neg (by linarith)]
    exact rndPos_mono hp (by linarith) h

theorem rnd_nonneg {v : ℚ} (h : 0 ≤ v) : 0 ≤ rnd f v := by
  rw [rnd_of_nonneg h]; exact rndPos_nonneg v

/-- The error of rounding, in units. -/
theorem round_error (hp : 0 < f.prec) {num den : Nat} (hd : 0 < den) :
    |(f.round num den : ℚ) - (num : ℚ) / den| ≤ (num : ℚ) / den / 2 ^ f.prec + 1 / 2 ∧
    (den = 1 → |(f.round num den : ℚ) - (num : ℚ) / den| ≤ (num : ℚ) / den / 2 ^ f.prec) := by
  have hc := round_close f (num := num) hd
  have hnn : (0 : ℚ) ≤ (num : ℚ) / den / 2 ^ f.prec := by positivity
  by_cases h : num / den < 2 ^ f.prec
  · refine ⟨?_, ?_⟩
    · rw [spacing_of_lt f h, pow_zero] at hc
      linarith
    · rintro rfl
      rw [Nat.div_one] at h
      rw [round_of_flt f hp ⟨num, 0, h, by simp⟩, Nat.cast_one, div_one, sub_self, abs_zero]
      positivity
  · push Not at h
    obtain ⟨_, h2, _⟩ := spacing_bounds f h hp
    have h3 : (2 : ℚ) ^ f.spacing (num / den) / 2 ≤ (num : ℚ) / den / 2 ^ f.prec := by
      rw [div_le_div_iff₀ (by norm_num) (by positivity)]
      have h4 := (le_div_iff_floor (num := num) (k := 2 ^ (f.prec - 1 + f.spacing (num / den))) hd).mpr h2
      push_cast at h4
      calc (2 : ℚ) ^ f.spacing (num / den) * 2 ^ f.prec = 2 ^ (f.prec - 1 + f.spacing (num / den)) * 2 := by
            rw [← pow_add, ← pow_succ]; congr 1; omega
        _ ≤ (num : ℚ) / den * 2 := by linarith
    exact ⟨by linarith, fun _ => by linarith⟩

theorem rndPos_error (hp : 0 < f.prec) {v : ℚ} (hv : 0 ≤ v) :
    |rndPos f v - v| ≤ v / 2 ^ f.prec + 1 / 2 ^ (f.scale + 1) := by
  have h := (round_error (f := f) hp (num := v.num.natAbs * 2 ^ f.scale) v.den_pos).1
  have hS := units_pos f
  have e : ((v.num.natAbs * 2 ^ f.scale : Nat) : ℚ) / v.den = v * 2 ^ f.scale := by
    push_cast
    rw [mul_div_right_comm, natAbs_div hv]
  rw [e] at h
  have e2 : rndPos f v - v = ((f.round (v.num.natAbs * 2 ^ f.scale) v.den : ℚ) - v * 2 ^ f.scale) / 2 ^ f.scale := by
    rw [rndPos, sub_div, mul_div_cancel_right₀ _ hS.ne']
  rw [e2, abs_div, abs_of_pos hS, div_le_iff₀ hS, add_mul]
  have e3 : (1 : ℚ) / 2 ^ (f.scale + 1) * 2 ^ f.scale = 1 / 2 := by
    rw [pow_succ]; field_simp
  rw [e3]
  have e4 : v / 2 ^ f.prec * 2 ^ f.scale = v * 2 ^ f.scale / 2 ^ f.prec := by ring
  rw [e4]
  exact h

/-- Rounding moves a number by at most one part in `2^prec`, or half a unit. -/
theorem rnd_error (hp : 0 < f.prec) (v : ℚ) : |rnd f v - v| ≤ |v| / 2 ^ f.prec + 1 / 2 ^ (f.scale + 1) := by
  rcases le_or_gt 0 v with h | h
  · rw [rnd_of_nonneg h, abs_of_nonneg h]; exact rndPos_error hp h
  · have := rndPos_error (f := f) hp (v := -v) (by linarith)
    rw [rnd, if_pos h, abs_of_neg h]
    have e : -rndPos f (-v) - v = -(rndPos f (-v) - -v) := by ring
    rw [e, abs_neg]
    exact this

/-- Rounding a whole number of units. -/
theorem rnd_error_units (hp : 0 < f.prec) {v : ℚ} {k : ℤ} (hk : v * 2 ^ f.scale = k) : |rnd f v - v| ≤ |v| / 2 ^ f.prec := by
  have hS := units_pos f
  have main : ∀ (w : ℚ) (n : Nat), 0 ≤ w → w * 2 ^ f.scale = n → |rndPos f w - w| ≤ w / 2 ^ f.prec := by
    intro w n hw hn
    have h := (round_error (f := f) hp (num := n) (den := 1) (by decide)).2 rfl
    rw [rndPos_eq hp hw (num := n) (den := 1) (by decide) (by rw [hn]; simp)]
    have e2 : (f.round n 1 : ℚ) / 2 ^ f.scale - w = ((f.round n 1 : ℚ) - n) / 2 ^ f.scale := by
      rw [sub_div, ← hn, mul_div_cancel_right₀ _ hS.ne']
    rw [Nat.cast_one, div_one] at h
    rw [e2, abs_div, abs_of_pos hS, div_le_iff₀ hS]
    have e4 : w / 2 ^ f.prec * 2 ^ f.scale = n / 2 ^ f.prec := by rw [← hn]; ring
    rw [e4]
    exact h
  rcases le_or_gt 0 v with h | h
  · rw [rnd_of_nonneg h, abs_of_nonneg h]
    refine main v k.natAbs h ?_
    have : 0 ≤ k := by
      have : (0 : ℚ) ≤ k := by rw [← hk]; positivity
      exact_mod_cast this
    rw [hk, ← Int.cast_natCast, Int.natAbs_of_nonneg this]
  · have hk0 : k ≤ 0 := by
      have : (k : ℚ) ≤ 0 := by rw [← hk]; exact mul_nonpos_of_nonpos_of_nonneg h.le hS.le
      exact_mod_cast this
    have := main (-v) k.natAbs (by linarith) (by
      rw [neg_mul, hk, ← Int.cast_natCast, Int.ofNat_natAbs_of_nonpos hk0]; push_cast; ring)
    rw [rnd, if_pos h, abs_of_neg h]
    have e : -rndPos f (-v) - v = -(rndPos f (-v) - -v) := by ring
    rw [e, abs_neg]
    exact this

/-! ### Values -/

/-- `+1` or `-1`. -/
def sgn (s : Bool) : ℚ := if s then -1 else 1

theorem abs_sgn (s : Bool) : |sgn s| = 1 := by cases s <;> simp [sgn]

theorem signed_cast (s : Bool) (n : Nat) : ((signed s n : ℤ) : ℚ) = sgn s * n := by
  cases s <;> simp [signed, sgn]

theorem valueOf_fin (s : Bool) (n : Nat) (h : f.Rep n) : valueOf (.fin s n h : Val f) = sgn s * ((n : ℚ) / 2 ^ f.scale) := by
  rw [valueOf, signed_cast, mul_div_assoc]

theorem abs_valueOf_fin (s : Bool) (n : Nat) (h : f.Rep n) : |valueOf (.fin s n h : Val f)| = (n : ℚ) / 2 ^ f.scale := by
  rw [valueOf_fin, abs_mul, abs_sgn, one_mul, abs_of_nonneg (by positivity)]

theorem abs_valueOf_le (x : Val f) : |valueOf x| ≤ maxV f := by
  cases x with
  | nan => show |(0 : ℚ)| ≤ _; rw [abs_zero]; exact div_nonneg (Nat.cast_nonneg _) (units_pos f).le
  | inf s => show |(0 : ℚ)| ≤ _; rw [abs_zero]; exact div_nonneg (Nat.cast_nonneg _) (units_pos f).le
  | fin s n h =>
    rw [abs_valueOf_fin, maxV, div_le_div_iff_of_pos_right (units_pos f)]
    exact_mod_cast h.2

theorem rnd_sgn (hp : 0 < f.prec) (s : Bool) (v : ℚ) : rnd f (sgn s * v) = sgn s * rnd f v := by
  cases s
  · simp [sgn]
  · simp only [sgn, if_true, neg_mul, one_mul]; exact rnd_neg hp v

/-- Rounding keeps the values of the format. -/
theorem rnd_valueOf (hp : 0 < f.prec) (x : Val f) : rnd f (valueOf x) = valueOf x := by
  cases x with
  | nan => exact rnd_zero hp
  | inf s => exact rnd_zero hp
  | fin s n h =>
    have hv : (0 : ℚ) ≤ (n : ℚ) / 2 ^ f.scale := by positivity
    rw [valueOf_fin, rnd_sgn hp, rnd_of_nonneg hv,
      rndPos_eq hp hv (num := n) (den := 1) (by decide) (by rw [div_mul_cancel₀ _ (units_pos f).ne']; simp),
      round_of_flt f hp ((rep_iff f hp).mp h).1]

theorem rnd_le_valueOf (hp : 0 < f.prec) {v : ℚ} {x : Val f} (h : v ≤ valueOf x) : rnd f v ≤ valueOf x := by
  rw [← rnd_valueOf hp x]; exact rnd_mono hp h

theorem valueOf_le_rnd (hp : 0 < f.prec) {v : ℚ} {x : Val f} (h : valueOf x ≤ v) : valueOf x ≤ rnd f v := by
  rw [← rnd_valueOf hp x]; exact rnd_mono hp h

/-- What `rounded` gives. -/
theorem rounded_value (hp : 0 < f.prec) (s : Bool) {num den : Nat} (hd : 0 < den) {v : ℚ}
    (hv : v = sgn s * ((num : ℚ) / den / 2 ^ f.scale)) (hm : |v| ≤ maxV f) :
    isFinite (rounded s num den : Val f) = true ∧ valueOf (rounded s num den : Val f) = rnd f v := by
  have hS := units_pos f
  have hnn : (0 : ℚ) ≤ (num : ℚ) / den / 2 ^ f.scale := by positivity
  have hmx : (num : ℚ) / den ≤ f.max := by
    rw [hv, abs_mul, abs_sgn, one_mul, abs_of_nonneg hnn, maxV, div_le_div_iff_of_pos_right hS] at hm
    exact hm
  rw [rounded, pack, dif_pos (round_rep f hd hp hmx)]
  refine ⟨rfl, ?_⟩
  rw [valueOf_fin, hv, rnd_sgn hp, rnd_of_nonneg hnn, rndPos_eq hp hnn (num := num) hd (div_mul_cancel₀ _ hS.ne')]

theorem units_valueOf (x : Val f) : ∃ k : ℤ, valueOf x * 2 ^ f.scale = k := by
  cases x with
  | nan => exact ⟨0, by simp [valueOf]⟩
  | inf s => exact ⟨0, by simp [valueOf]⟩
  | fin s n h => exact ⟨signed s n, by rw [valueOf, div_mul_cancel₀ _ (units_pos f).ne']⟩

theorem finite_cases {x : Val f} (h : isFinite x = true) : ∃ s n hn, x = .fin s n hn := by
  cases x with
  | nan => cases h
  | inf s => cases h
  | fin s n hn => exact ⟨s, n, hn, rfl⟩

variable {x y : Val f}

theorem add_value (hp : 0 < f.prec) (hx : isFinite x = true) (hy : isFinite y = true)
    (hm : |valueOf x + valueOf y| ≤ maxV f) :
    isFinite (add x y) = true ∧ valueOf (add x y) = rnd f (valueOf x + valueOf y) := by
  obtain ⟨s, n, hn, rfl⟩ := finite_cases hx
  obtain ⟨t, m, hm', rfl⟩ := finite_cases hy
  have hS := units_pos f
  have e : valueOf (.fin s n hn : Val f) + valueOf (.fin t m hm' : Val f) = ((signed s n + signed t m : ℤ) : ℚ) / 2 ^ f.scale := by
    rw [valueOf, valueOf, ← add_div]; push_cast; rfl
  rw [e] at hm ⊢
  simp only [add]
  generalize signed s n + signed t m = k at hm ⊢
  split
  · rename_i h0
    subst h0
    have := rounded_value (f := f) hp (s && t) (num := 0) (den := 1) (v := 0) (by decide) (by simp) (by simpa using hm)
    simpa using this
  · refine rounded_value hp _ (by decide) ?_ hm
    rw [Nat.cast_one, div_one, ← mul_div_assoc]
    congr 1
    by_cases h : k < 0
    · rw [sgn, if_pos (decide_eq_true h), ← Int.cast_natCast, Int.ofNat_natAbs_of_nonpos h.le]
      push_cast; ring
    · push Not at h
      rw [sgn, if_neg (by simpa using h), ← Int.cast_natCast, Int.natAbs_of_nonneg h, one_mul]

theorem neg_value (x : Val f) : isFinite (neg x) = isFinite x ∧ valueOf (neg x) = -valueOf x := by
  cases x with
  | nan => exact ⟨rfl, by simp [neg, valueOf]⟩
  | inf s => exact ⟨rfl, by simp [neg, valueOf]⟩
  | fin s n h =>
    refine ⟨rfl, ?_⟩
    simp only [neg]
    rw [valueOf_fin, valueOf_fin]
    cases s <;> simp [sgn]

theorem sub_value (hp : 0 < f.prec) (hx : isFinite x = true) (hy : isFinite y = true)
    (hm : |valueOf x - valueOf y| ≤ maxV f) :
    isFinite (sub x y) = true ∧ valueOf (sub x y) = rnd f (valueOf x - valueOf y) := by
  have hn := neg_value y
  have := add_value (x := x) (y := neg y) hp hx (by rw [hn.1]; exact hy) (by rw [hn.2, ← sub_eq_add_neg]; exact hm)
  rw [hn.2, ← sub_eq_add_neg] at this
  exact this

theorem sgn_bne (s t : Bool) : sgn (s != t) = sgn s * sgn t := by cases s <;> cases t <;> simp [sgn]

theorem mul_value (hp : 0 < f.prec) (hx : isFinite x = true) (hy : isFinite y = true)
    (hm : |valueOf x * valueOf y| ≤ maxV f) :
    isFinite (mul x y) = true ∧ valueOf (mul x y) = rnd f (valueOf x * valueOf y) := by
  obtain ⟨s, n, hn, rfl⟩ := finite_cases hx
  obtain ⟨t, m, hm', rfl⟩ := finite_cases hy
  simp only [mul]
  refine rounded_value hp _ (by positivity) ?_ hm
  rw [valueOf_fin, valueOf_fin, sgn_bne]
  push_cast
  ring

theorem div_value (hp : 0 < f.prec) (hx : isFinite x = true) (hy : isFinite y = true) (h0 : valueOf y ≠ 0)
    (hm : |valueOf x / valueOf y| ≤ maxV f) :
    isFinite (div x y) = true ∧ valueOf (div x y) = rnd f (valueOf x / valueOf y) := by
  obtain ⟨s, n, hn, rfl⟩ := finite_cases hx
  obtain ⟨t, m, hm', rfl⟩ := finite_cases hy
  have hS := units_pos f
  have hm0 : m ≠ 0 := by
    rintro rfl
    exact h0 (by rw [valueOf_fin]; simp)
  have hmq : (m : ℚ) ≠ 0 := by exact_mod_cast hm0
  simp only [div]
  rw [if_neg hm0]
  refine rounded_value hp _ (by omega) ?_ hm
  rw [valueOf_fin, valueOf_fin, sgn_bne]
  have ht : sgn t ≠ 0 := by cases t <;> simp [sgn]
  have ht2 : sgn t * sgn t = 1 := by cases t <;> simp [sgn]
  push_cast
  field_simp
  rw [pow_two, ht2, mul_one]

theorem convert_value {g : Fmt} (hp : 0 < g.prec) (hx : isFinite x = true) (hm : |valueOf x| ≤ maxV g) :
    isFinite (convert x : Val g) = true ∧ valueOf (convert x : Val g) = rnd g (valueOf x) := by
  obtain ⟨s, n, hn, rfl⟩ := finite_cases hx
  simp only [convert]
  refine rounded_value hp _ (by positivity) ?_ hm
  rw [valueOf_fin]
  push_cast
  have := (units_pos g).ne'
  field_simp

end Tmf.Ieee
