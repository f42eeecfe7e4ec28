import Mathlib.Analysis.Real.Pi.Bounds
import Verif.Lemmas.IeeeRound
import Verif.Lemmas.IeeeValue
import Verif.Lemmas.SineSeries
import Verif.Spec.Drift
/-
The values a libm without errors returns.
-/

namespace Tmf.Ieee
open Spec Geometry

/-- There is at most one value nearer than half the spacing. -/
theorem nearest_unique {n k : Nat} (hn : b32.Rep n) (h1 : 2 ^ (k + 23) < n) (hd : 2 ^ k ∣ n) {r : ℝ}
    (h : |(n : ℝ) / 2 ^ 149 - r| < 2 ^ k / 2 ^ 150) {w : Val b32} (hw : NearestVal r w) : w = .fin false n hn := by
  obtain ⟨hf, hm⟩ := hw
  have hv : realOf (.fin false n hn : Val b32) = (n : ℝ) / 2 ^ 149 := by
    rw [realOf, valueOf_fin, show b32.scale = 149 from rfl, sgn, if_neg (by decide)]
    push_cast
    ring
  have hle := hm (.fin false n hn) rfl
  rw [hv] at hle
  have hlt : |realOf w - (n : ℝ) / 2 ^ 149| < 2 ^ k / 2 ^ 149 := by
    have e : realOf w - (n : ℝ) / 2 ^ 149 = (realOf w - r) - ((n : ℝ) / 2 ^ 149 - r) := by ring
    rw [e]
    refine lt_of_le_of_lt (abs_sub _ _) ?_
    have : (2 : ℝ) ^ k / 2 ^ 149 = 2 ^ k / 2 ^ 150 + 2 ^ k / 2 ^ 150 := by norm_num; ring
    rw [this]
    linarith
  have hnk : n ≥ 2 ^ (k + 23) + 2 ^ k := by
    obtain ⟨c, rfl⟩ := hd
    rw [pow_add] at h1 ⊢
    have : 2 ^ 23 < c := lt_of_mul_lt_mul_left h1 (Nat.zero_le _)
    calc 2 ^ k * 2 ^ 23 + 2 ^ k = 2 ^ k * (2 ^ 23 + 1) := by ring
      _ ≤ 2 ^ k * c := Nat.mul_le_mul_left _ this
  match w, hf with
  | .fin s m hmr, _ =>
    have hvw : realOf (.fin s m hmr : Val b32) = (signed s m : ℤ) / 2 ^ 149 := by
      rw [realOf, valueOf, show b32.scale = 149 from rfl]
      push_cast
      rfl
    rw [hvw, ← sub_div, abs_div, abs_of_pos (by positivity : (0 : ℝ) < 2 ^ 149), div_lt_div_iff_of_pos_right (by positivity)] at hlt
    have hint : |signed s m - (n : ℤ)| < 2 ^ k := by exact_mod_cast hlt
    have hpos : 0 < signed s m := by
      rw [abs_lt] at hint
      have : (n : ℤ) ≥ 2 ^ (k + 23) + 2 ^ k := by exact_mod_cast hnk
      have : (0 : ℤ) < 2 ^ (k + 23) := by positivity
      omega
    have hs : s = false := by
      cases s
      · rfl
      · simp [signed] at hpos; omega
    subst hs
    simp only [signed, Bool.false_eq_true, if_false] at hint
    have hm2 : 2 ^ (k + 23) ≤ m := by
      have h3 : ((m : ℤ) : ℤ) > n - 2 ^ k := by rw [abs_lt] at hint; omega
      have : (n : ℤ) ≥ 2 ^ (k + 23) + 2 ^ k := by exact_mod_cast hnk
      have : ((2 ^ (k + 23) : Nat) : ℤ) ≤ m := by push_cast; omega
      exact_mod_cast this
    have hdm : 2 ^ k ∣ m := by
      have := flt_dvd b32 (t := k + 23) ((rep_iff b32 (by decide)).mp hmr).1 hm2 (by show 24 ≤ k + 23 + 1; omega)
      simpa [b32] using this
    have : m = n := by
      obtain ⟨c, rfl⟩ := hd
      obtain ⟨c', rfl⟩ := hdm
      have e : ((2 ^ k * c' : Nat) : ℤ) - ((2 ^ k * c : Nat) : ℤ) = 2 ^ k * ((c' : ℤ) - c) := by push_cast; ring
      rw [e, abs_mul, abs_of_pos (by positivity)] at hint
      have h5 : |(c' : ℤ) - c| < 1 := by
        by_contra hc
        have := mul_le_mul_of_nonneg_left (not_lt.mp hc) (by positivity : (0 : ℤ) ≤ 2 ^ k)
        omega
      have : (c' : ℤ) - c = 0 := Int.abs_lt_one_iff.mp h5
      have : c' = c := by omega
      rw [this]
    subst this
    rfl

/-- `n` units, with a spacing of `2^k`, are less than half the spacing away from `r`, twelve digits considered. -/
def Close (n k : Nat) (r : ℚ) : Prop :=
  b32.Rep n ∧ 2 ^ (k + 23) < n ∧ n % 2 ^ k = 0 ∧ |(n : ℚ) / 2 ^ 149 - r| + 1 / 10 ^ 13 < 2 ^ k / 2 ^ 150

instance (n k : Nat) (r : ℚ) : Decidable (Close n k r) := by unfold Close; infer_instance

theorem close_nearest {n k : Nat} {r : ℚ} (h : Close n k r) {x : ℝ} (hx : |x - (r : ℝ)| ≤ 1 / 10 ^ 13) {w : Val b32} (hw : NearestVal x w) :
    w = pack false n := by
  obtain ⟨h1, h2, h3, h4⟩ := h
  rw [pack, dif_pos h1]
  refine nearest_unique h1 h2 (Nat.dvd_of_mod_eq_zero h3) ?_ hw
  have h5 := (Rat.cast_lt (K := ℝ)).mpr h4
  push_cast at h5
  refine lt_of_le_of_lt ?_ h5
  have e : (n : ℝ) / 2 ^ 149 - x = ((n : ℝ) / 2 ^ 149 - r) - (x - r) := by ring
  rw [e]
  exact (abs_sub _ _).trans (by linarith)

theorem real_pack {n : Nat} (h : b32.Rep n) : realOf (pack false n : Val b32) = (((n : ℚ) / 2 ^ 149 : ℚ) : ℝ) := by
  rw [pack, dif_pos h, realOf, valueOf_fin, show b32.scale = 149 from rfl, sgn, if_neg (by decide), one_mul]

/-- The sine of `t` units is nearest to `n` units. -/
def SineIs (t n k : Nat) : Prop := b32.Rep t ∧ (t : ℚ) / 2 ^ 149 ≤ 2 ∧ Close n k (sineQ ((t : ℚ) / 2 ^ 149))

/-- The cosine of `t` units is nearest to `n` units. -/
def CosineIs (t n k : Nat) : Prop := b32.Rep t ∧ (t : ℚ) / 2 ^ 149 ≤ 2 ∧ Close n k (cosineQ ((t : ℚ) / 2 ^ 149))

/-- The arcsine of `q` units is nearest to `n` units: `q` is between the sines half the spacing below and above. -/
def ArcsineIs (q n k : Nat) : Prop :=
  b32.Rep q ∧ q ≤ 2 ^ 149 ∧ b32.Rep n ∧ 2 ^ (k + 23) < n ∧ n % 2 ^ k = 0 ∧ ((n : ℚ) + 2 ^ k / 2) / 2 ^ 149 ≤ 1.57 ∧
    sineQ (((n : ℚ) - 2 ^ k / 2) / 2 ^ 149) + 1 / 10 ^ 13 < (q : ℚ) / 2 ^ 149 ∧
    (q : ℚ) / 2 ^ 149 < sineQ (((n : ℚ) + 2 ^ k / 2) / 2 ^ 149) - 1 / 10 ^ 13

instance (t n k : Nat) : Decidable (SineIs t n k) := by unfold SineIs; infer_instance
instance (t n k : Nat) : Decidable (CosineIs t n k) := by unfold CosineIs; infer_instance
instance (q n k : Nat) : Decidable (ArcsineIs q n k) := by unfold ArcsineIs; infer_instance

variable {lib : Libm}

theorem pack_finite {n : Nat} (h : b32.Rep n) : isFinite (pack false n : Val b32) = true := by rw [pack, dif_pos h]; rfl

theorem sine_is (hlib : CorrectLibm lib) {t n k : Nat} (h : SineIs t n k) : lib.sin (pack false t) = pack false n := by
  obtain ⟨h1, h2, h3⟩ := h
  have hs := hlib.sin (pack false t) (pack_finite h1)
  rw [real_pack h1] at hs
  exact close_nearest h3 (series_near (by positivity) h2).2 hs

theorem cosine_is (hlib : CorrectLibm lib) {t n k : Nat} (h : CosineIs t n k) : lib.cos (pack false t) = pack false n := by
  obtain ⟨h1, h2, h3⟩ := h
  have hs := hlib.cos (pack false t) (pack_finite h1)
  rw [real_pack h1] at hs
  exact close_nearest h3 (series_near (by positivity) h2).1 hs

theorem arcsine_is (hlib : CorrectLibm lib) {q n k : Nat} (h : ArcsineIs q n k) : lib.asin (pack false q) = pack false n := by
  obtain ⟨h1, hq1, h2, h3, h4, h5, h6, h7⟩ := h
  have hn : (2 : ℚ) ^ (k + 23) ≤ n := by exact_mod_cast h3.le
  have hk : (2 : ℚ) ^ k / 2 ≤ 2 ^ (k + 23) := by
    rw [pow_add]
    have : (0 : ℚ) < 2 ^ k := by positivity
    nlinarith
  have hlo : (0 : ℚ) ≤ ((n : ℚ) - 2 ^ k / 2) / 2 ^ 149 := div_nonneg (by linarith) (by positivity)
  have hkp : (0 : ℚ) < 2 ^ k / 2 := by positivity
  have hle : ((n : ℚ) - 2 ^ k / 2) / 2 ^ 149 ≤ ((n : ℚ) + 2 ^ k / 2) / 2 ^ 149 :=
    div_le_div_of_nonneg_right (by linarith) (by positivity)
  have hfin : UnitValue (pack false q : Val b32) := by
    have hv : valueOf (pack false q : Val b32) = (q : ℚ) / 2 ^ 149 := by
      rw [pack, dif_pos h1, valueOf_fin, show b32.scale = 149 from rfl, sgn, if_neg (by decide), one_mul]
    have hq : (q : ℚ) ≤ 2 ^ 149 := by exact_mod_cast hq1
    generalize (2 : ℚ) ^ 149 = D at hv hq
    rw [UnitValue, hv]
    refine ⟨pack_finite h1, div_nonneg (Nat.cast_nonneg _) ((Nat.cast_nonneg _).trans hq), div_le_one_of_le₀ hq ((Nat.cast_nonneg _).trans hq)⟩
  have hs := hlib.asin (pack false q) hfin
  rw [real_pack h1] at hs
  rw [show (pack false n : Val b32) = .fin false n h2 from dif_pos h2]
  refine nearest_unique h2 h3 (Nat.dvd_of_mod_eq_zero h4) ?_ hs
  have a1 := (abs_le.mp (series_near hlo (hle.trans (h5.trans (by norm_num)))).2).2
  have a2 := (abs_le.mp (series_near (hlo.trans hle) (h5.trans (by norm_num))).2).1
  have h6' := (Rat.cast_lt (K := ℝ)).mpr h6
  have h7' := (Rat.cast_lt (K := ℝ)).mpr h7
  have h5' := (Rat.cast_le (K := ℝ)).mpr h5
  have hlo' := (Rat.cast_le (K := ℝ)).mpr hlo
  have hle' := (Rat.cast_le (K := ℝ)).mpr hle
  rw [Rat.cast_zero] at hlo'
  rw [Rat.cast_add, Rat.cast_div, Rat.cast_one, Rat.cast_pow, Rat.cast_ofNat] at h6'
  rw [Rat.cast_sub (p := sineQ _), Rat.cast_div 1, Rat.cast_one, Rat.cast_pow, Rat.cast_ofNat] at h7'
  have hpi := Real.pi_gt_d6
  have hq0 : ((((1.57 : ℚ)) : ℝ)) ≤ Real.pi / 2 := by norm_num; linarith
  have b1 : ((((n : ℚ) - 2 ^ k / 2) / 2 ^ 149 : ℚ) : ℝ) < Real.arcsin (((q : ℚ) / 2 ^ 149 : ℚ) : ℝ) := by
    rw [Real.lt_arcsin_iff_sin_lt' ⟨by linarith, by linarith⟩]
    linarith
  have b2 : Real.arcsin (((q : ℚ) / 2 ^ 149 : ℚ) : ℝ) < ((((n : ℚ) + 2 ^ k / 2) / 2 ^ 149 : ℚ) : ℝ) := by
    rw [Real.arcsin_lt_iff_lt_sin' ⟨by linarith, by linarith⟩]
    linarith
  have e1 : ((((n : ℚ) - 2 ^ k / 2) / 2 ^ 149 : ℚ) : ℝ) = (n : ℝ) / 2 ^ 149 - 2 ^ k / 2 ^ 150 := by push_cast; ring
  have e2 : ((((n : ℚ) + 2 ^ k / 2) / 2 ^ 149 : ℚ) : ℝ) = (n : ℝ) / 2 ^ 149 + 2 ^ k / 2 ^ 150 := by push_cast; ring
  rw [e1] at b1
  rw [e2] at b2
  rw [abs_lt]
  constructor <;> linarith

end Tmf.Ieee
