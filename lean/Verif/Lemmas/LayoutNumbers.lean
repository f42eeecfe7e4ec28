import Verif.Lemmas.CoordHigh
import Verif.Lemmas.StepsCode
import Verif.Lemmas.Layout
import Verif.Spec.LayoutNumbers
import Verif.Props.F64
import Verif.Lemmas.NormalAngle
import Verif.Lemmas.LibmWitness
import Mathlib.Analysis.SpecialFunctions.Trigonometric.Deriv
/-
The codes the writer computes in f32 arithmetic mean what `Spec.numbers` says.
-/

set_option exponentiation.threshold 3000

namespace Tmf.Ieee
open Spec

variable (lib : Libm)

/-- The bytes of a bound and the number they mean. -/
theorem isF64_bytes {x : Val b32} {q : ℚ} (h : IsF64 (f64Bytes (f64Le lib) x) q) : isFinite x = true ∧ q = valueOf x := by
  obtain ⟨s, e, m, he, hm, hb, rfl⟩ := h
  obtain ⟨h1, -, h3⟩ := Props.C55_meaning lib (s := s) he hm
  rw [← hb, f64Bytes, (Props.C55_exact lib).1, show (ops lib).toD x = convert x from rfl] at h1 h3
  have hf : isFinite x = true := by
    cases x with
    | nan => cases h1
    | inf s => cases h1
    | fin s n h => rfl
  exact ⟨hf, by rw [← h3, (widen_value hf).2]⟩

/-! ### Numbers between 0 and 1 -/

theorem unitCode_value {w : Nat} (hw1 : 1 ≤ w) (hw : w ≤ 24) {x : Val b32} (hx : UnitValue x) :
    toU64 (mul x (ofNat (2 ^ w - 1))) ≤ 2 ^ w - 1 ∧ OnScale 0 1 (1 / 2 ^ 23) w (toU64 (mul x (ofNat (2 ^ w - 1)))) (valueOf x) := by
  obtain ⟨hf, h0, h1⟩ := hx
  have hm24 : 2 ^ w - 1 ≤ 2 ^ 24 := by
    have : 2 ^ w ≤ 2 ^ 24 := Nat.pow_le_pow_right (by omega) hw
    omega
  obtain ⟨mf, mv⟩ := ofNat_value hm24
  have hmc : ((2 ^ w - 1 : Nat) : ℚ) = 2 ^ w - 1 := by
    rw [Nat.cast_sub Nat.one_le_two_pow]; push_cast; rfl
  have hm1 : (1 : ℚ) ≤ 2 ^ w - 1 := by
    rw [← hmc]; exact_mod_cast (show 1 ≤ 2 ^ w - 1 by have := Nat.pow_le_pow_right (show 1 ≤ 2 by omega) hw1; omega)
  have hM : ((2 : ℚ) ^ w - 1) ≤ 2 ^ 24 := by rw [← hmc]; exact_mod_cast hm24
  have hprod : valueOf x * valueOf (ofNat (2 ^ w - 1) : Val b32) ≤ 2 ^ w - 1 := by
    rw [mv, hmc]; nlinarith
  have hprod0 : 0 ≤ valueOf x * valueOf (ofNat (2 ^ w - 1) : Val b32) := by
    rw [mv, hmc]; exact mul_nonneg h0 (by linarith)
  obtain ⟨rf, rv⟩ := mul_value (f := b32) (by decide) hf mf (small_le_max (by
    rw [abs_of_nonneg hprod0]; exact le_trans hprod (le_trans hM (by norm_num))))
  have hle : valueOf (mul x (ofNat (2 ^ w - 1))) ≤ 2 ^ w - 1 := by
    have h := rnd_le_valueOf (f := b32) (by decide) (v := valueOf x * valueOf (ofNat (2 ^ w - 1) : Val b32))
      (x := ofNat (2 ^ w - 1)) (by rw [mv, hmc] at *; exact hprod)
    rw [mv, hmc] at h
    rw [rv, mv, hmc]
    exact h
  have hge : 0 ≤ valueOf (mul x (ofNat (2 ^ w - 1))) := by rw [rv]; exact rnd_nonneg hprod0
  obtain ⟨c1, c2⟩ := toU64_value rf hge (lt_of_le_of_lt hle (lt_of_le_of_lt hM (by norm_num)))
  have he := rnd32_error (valueOf x * valueOf (ofNat (2 ^ w - 1) : Val b32))
  rw [← rv, abs_of_nonneg hprod0, mv, hmc] at he
  rw [mv, hmc] at hprod hprod0
  generalize toU64 (mul x (ofNat (2 ^ w - 1))) = c at *
  generalize valueOf (mul x (ofNat (2 ^ w - 1))) = r at *
  generalize valueOf x = q at *
  refine ⟨?_, ?_⟩
  · have : (c : ℚ) ≤ ((2 ^ w - 1 : Nat) : ℚ) := by rw [hmc]; linarith
    exact_mod_cast this
  · rw [OnScale]
    generalize (2 : ℚ) ^ w - 1 = M at *
    have hM0 : 0 < M := by linarith
    rw [abs_le] at he
    constructor
    · rw [sub_zero, mul_one, zero_add, sub_le_iff_le_add, div_le_iff₀ hM0]
      norm_num at he ⊢
      nlinarith
    · rw [sub_zero, mul_one, zero_add, ← sub_lt_iff_lt_add, lt_div_iff₀ hM0]
      norm_num at he ⊢
      nlinarith

theorem mask_mod {w c : Nat} (h : c ≤ 2 ^ w - 1) : c % 2 ^ w = c :=
  Nat.mod_eq_of_lt (by have : 0 < 2 ^ w := by positivity
                       omega)

/-- With 25 bits or more, the code is the number times `2^w`, rounded down. -/
theorem unitCode_high {w : Nat} (hw1 : 25 ≤ w) (hw : w ≤ 31) {x : Val b32} (hx : UnitValue x) (hlt : valueOf x < 1) :
    toU64 (mul x (ofNat (2 ^ w - 1))) % 2 ^ w ≤ 2 ^ w - 1 ∧
    OnScale 0 1 (1 / 2 ^ 23) w (toU64 (mul x (ofNat (2 ^ w - 1))) % 2 ^ w) (valueOf x) := by
  refine ⟨mod_le_mask _ _, ?_⟩
  obtain ⟨c, e, -, -, -, h⟩ := unit_code hw1 hw hx
  obtain ⟨c1, c2⟩ := h hlt
  have hpow := pow_ge_25 hw1
  rw [e, OnScale]
  have h0 := hx.2.1
  generalize valueOf x = q at *
  generalize (2 : ℚ) ^ w = M at *
  have hM : 0 < M - 1 := by norm_num at hpow; linarith
  constructor
  · rw [sub_zero, mul_one, zero_add, sub_le_iff_le_add, div_le_iff₀ hM]
    norm_num at *
    nlinarith
  · rw [sub_zero, mul_one, zero_add, ← sub_lt_iff_lt_add, lt_div_iff₀ hM]
    norm_num at *
    nlinarith

theorem unitCode_holds (w : Nat) (x : Val b32) : UnitCode w x (toU64 (mul x (ofNat (2 ^ w - 1))) % 2 ^ w) := by
  intro h1 h2
  refine ⟨fun hf => steps_of_unit h1 h2 hf, fun h3 => ?_⟩
  rcases Nat.lt_or_ge 24 w with h24 | h24
  · exact unitCode_high h24 h2 h3.1 (h3.2.resolve_left (by omega))
  · have h := unitCode_value h1 h24 h3.1
    rw [mask_mod h.1]
    exact h

/-! ### Numbers between two bounds -/

theorem scale_value {w : Nat} (hw1 : 1 ≤ w) (hw : w ≤ 24) {x mn size : Val b32} {a b : ℚ} (hx : isFinite x = true)
    (hmn : isFinite mn = true) (hsz : isFinite size = true) (ha : valueOf mn = a) (hab : a < b) (hb : b - a ≤ 2 ^ 127)
    (h0 : a ≤ valueOf x) (h1 : valueOf x ≤ b) (hsv : valueOf size = rnd b32 (b - a))
    (hse : |rnd b32 (b - a) - (b - a)| ≤ 1 / 2 ^ 24 * (b - a)) :
    toU64 (mul (div (sub x mn) size) (ofNat (2 ^ w - 1))) % 2 ^ w ≤ 2 ^ w - 1 ∧
    OnScale a b ((b - a) / 2 ^ 21) w (toU64 (mul (div (sub x mn) size) (ofNat (2 ^ w - 1))) % 2 ^ w) (valueOf x) := by
  have hm1 : (1 : ℚ) ≤ 2 ^ w - 1 := by
    have : (2 : ℚ) ^ 1 ≤ 2 ^ w := pow_le_pow_right₀ (by norm_num) hw1
    linarith
  subst ha
  obtain ⟨hc, c1, c2⟩ := code_value hw1 hw (S := b - valueOf mn) hx hmn hsz (by linarith) hb h0 (by linarith) hsv hse
  refine ⟨mod_le_mask _ _, ?_⟩
  rw [mask_mod hc]
  generalize toU64 (mul (div (sub x mn) size) (ofNat (2 ^ w - 1))) = c at *
  have hS : 0 < b - valueOf mn := by linarith
  rw [OnScale]
  generalize (2 : ℚ) ^ w - 1 = M at *
  have hM0 : 0 < M := by linarith
  have hq : valueOf x = valueOf mn + (valueOf x - valueOf mn) / (b - valueOf mn) * (b - valueOf mn) := by
    rw [div_mul_cancel₀ _ hS.ne']; ring
  rw [hq]
  generalize (valueOf x - valueOf mn) / (b - valueOf mn) = t at *
  generalize b - valueOf mn = S at *
  constructor
  · have : (c : ℚ) / M ≤ t + 1 / 2 ^ 21 := by
      rw [div_le_iff₀ hM0]
      calc (c : ℚ) ≤ _ := c1
        _ = _ := by ring
    have := mul_le_mul_of_nonneg_right this hS.le
    linarith
  · have : t - 1 / 2 ^ 21 < ((c : ℚ) + 1) / M := by
      rw [lt_div_iff₀ hM0]
      calc _ = _ := by ring
        _ < _ := c2
    have := mul_lt_mul_of_pos_right this hS
    linarith

/-- The same with 25 bits or more, below the upper end. -/
theorem scale_high {w : Nat} (hw1 : 25 ≤ w) (hw : w ≤ 31) {x mn size : Val b32} {a b : ℚ} (hx : isFinite x = true)
    (hmn : isFinite mn = true) (hsz : isFinite size = true) (ha : valueOf mn = a) (hab : a < b) (hb : b - a ≤ 2 ^ 127)
    (h0 : a ≤ valueOf x) (hsv : valueOf size = rnd b32 (b - a))
    (hse : |rnd b32 (b - a) - (b - a)| ≤ 1 / 2 ^ 24 * (b - a)) (htop : valueOf x - a ≤ (1 - 1 / 2 ^ 21) * (b - a)) :
    toU64 (mul (div (sub x mn) size) (ofNat (2 ^ w - 1))) % 2 ^ w ≤ 2 ^ w - 1 ∧
    OnScale a b ((b - a) / 2 ^ 21) w (toU64 (mul (div (sub x mn) size) (ofNat (2 ^ w - 1))) % 2 ^ w) (valueOf x) := by
  refine ⟨mod_le_mask _ _, ?_⟩
  subst ha
  have hS : 0 < b - valueOf mn := by linarith
  obtain ⟨hu, hqe⟩ := quotient_value (S := b - valueOf mn) hx hmn hsz hS hb h0 (by linarith) hsv hse
  have ht : (valueOf x - valueOf mn) / (b - valueOf mn) ≤ 1 - 1 / 2 ^ 21 := by rw [div_le_iff₀ hS]; exact htop
  have ht0 : 0 ≤ (valueOf x - valueOf mn) / (b - valueOf mn) := div_nonneg (by linarith) hS.le
  obtain ⟨c, e, -, -, -, h⟩ := unit_code hw1 hw hu
  rw [abs_le] at hqe
  obtain ⟨c1, c2⟩ := h (by linarith [hqe.2, show (6 : ℚ) / 2 ^ 24 < 1 / 2 ^ 21 by norm_num])
  have hpow := pow_ge_25 hw1
  rw [e, OnScale]
  have hq : valueOf x = valueOf mn + (valueOf x - valueOf mn) / (b - valueOf mn) * (b - valueOf mn) := by
    rw [div_mul_cancel₀ _ hS.ne']; ring
  rw [hq]
  generalize (valueOf x - valueOf mn) / (b - valueOf mn) = t at *
  generalize b - valueOf mn = S at *
  generalize valueOf (div (sub x mn) size) = q at *
  generalize (2 : ℚ) ^ w = M at *
  have hM : 0 < M - 1 := by norm_num at hpow; linarith
  constructor
  · have : (c : ℚ) / (M - 1) ≤ t + 1 / 2 ^ 21 := by
      rw [div_le_iff₀ hM]
      norm_num at *
      nlinarith
    have := mul_le_mul_of_nonneg_right this hS.le
    linarith
  · have : t - 1 / 2 ^ 21 < ((c : ℚ) + 1) / (M - 1) := by
      rw [lt_div_iff₀ hM]
      norm_num at *
      nlinarith
    have := mul_lt_mul_of_pos_right this hS
    linarith

theorem axisCode_holds (w : Nat) (x mn mx : Val b32) :
    AxisCode (f64Bytes (f64Le lib) mn) (f64Bytes (f64Le lib) mx) w x
      (toU64 (mul (div (sub x mn) (sizeOf mn mx)) (ofNat (2 ^ w - 1))) % 2 ^ w) := by
  intro hx a b ha hb hw1 hw
  obtain ⟨fa, rfl⟩ := isF64_bytes lib ha
  obtain ⟨fb, rfl⟩ := isF64_bytes lib hb
  refine ⟨fun hS hD => ?_, fun h0 h1 hlow hhigh htop => ?_⟩
  · obtain ⟨sf, s0, se⟩ := size_error fa fb hS
    exact steps_of_scale hw1 hw hx fa sf s0 se hD
  have hP : 0 < b32.prec := by decide
  have hS0 : 0 < valueOf mx - valueOf mn := lt_of_lt_of_le (by norm_num) hlow
  have hspan := sub_value (f := b32) hP fb fa (by rw [abs_of_nonneg hS0.le]; exact le_trans hhigh maxV32)
  obtain ⟨heps, heps0, heps1⟩ := eps_value
  have hszv := max_value hspan.1 heps
  have hc : valueOf (lit 1 6 : Val b32) ≤ valueOf (sub mx mn) := by
    rw [hspan.2]
    exact valueOf_le_rnd hP (by linarith)
  have hsz : valueOf (sizeOf mn mx) = rnd b32 (valueOf mx - valueOf mn) := by
    rw [sizeOf, hszv.2, max_eq_left hc, hspan.2]
  have herr := rnd32_error_sub mx mn
  rw [abs_of_pos hS0] at herr
  rcases Nat.lt_or_ge 24 w with h24 | h24
  · exact scale_high h24 hw hx fa hszv.1 rfl (by linarith) hhigh h0 hsz herr (htop h24)
  · exact scale_value hw1 h24 hx fa hszv.1 rfl (by linarith) hhigh h0 h1 hsz herr

/-! ### The range of a float array, whatever is in it -/

theorem fold_min_inf (l : List (Val b32)) : l.foldl Ieee.min (.inf true) = .inf true := by
  induction l with
  | nil => rfl
  | cons y l ih =>
    rw [List.foldl_cons]
    have : Ieee.min (.inf true) y = .inf true := by
      cases y with
      | nan => rfl
      | inf s => cases s <;> rfl
      | fin s n h => rfl
    rw [this, ih]

theorem fold_max_inf (l : List (Val b32)) : l.foldl Ieee.max (.inf false) = .inf false := by
  induction l with
  | nil => rfl
  | cons y l ih =>
    rw [List.foldl_cons]
    have : Ieee.max (.inf false) y = .inf false := by
      cases y with
      | nan => rfl
      | inf s => cases s <;> rfl
      | fin s n h => rfl
    rw [this, ih]

theorem fold_min_le {l : List (Val b32)} {a : Val b32} (ha : isFinite a = true) (hr : isFinite (l.foldl Ieee.min a) = true) :
    valueOf (l.foldl Ieee.min a) ≤ valueOf a ∧ ∀ x ∈ l, isFinite x = true → valueOf (l.foldl Ieee.min a) ≤ valueOf x := by
  induction l generalizing a with
  | nil => exact ⟨le_refl _, by simp⟩
  | cons y l ih =>
    rw [List.foldl_cons] at hr ⊢
    have hcase : Ieee.min a y = .inf true ∨ (isFinite (Ieee.min a y) = true ∧ valueOf (Ieee.min a y) ≤ valueOf a ∧
        (isFinite y = true → valueOf (Ieee.min a y) ≤ valueOf y)) := by
      cases hy : isFinite y with
      | true =>
        obtain ⟨h1, h2⟩ := min_value ha hy
        rw [h2]
        exact .inr ⟨h1, min_le_left _ _, fun _ => min_le_right _ _⟩
      | false =>
        obtain ⟨s, n, hn, rfl⟩ := finite_cases ha
        cases y with
        | nan => exact .inr ⟨rfl, le_refl _, fun h => by cases h⟩
        | inf t =>
          cases t
          · exact .inr ⟨rfl, le_refl _, fun h => by cases h⟩
          · exact .inl rfl
        | fin t m hm => cases hy
    rcases hcase with h | ⟨h1, h2, h3⟩
    · rw [h, fold_min_inf] at hr
      cases hr
    · obtain ⟨i1, i2⟩ := ih h1 hr
      refine ⟨le_trans i1 h2, fun x hx fx => ?_⟩
      rcases List.mem_cons.mp hx with rfl | hx
      · exact le_trans i1 (h3 fx)
      · exact i2 x hx fx

theorem fold_max_ge {l : List (Val b32)} {a : Val b32} (ha : isFinite a = true) (hr : isFinite (l.foldl Ieee.max a) = true) :
    valueOf a ≤ valueOf (l.foldl Ieee.max a) ∧ ∀ x ∈ l, isFinite x = true → valueOf x ≤ valueOf (l.foldl Ieee.max a) := by
  induction l generalizing a with
  | nil => exact ⟨le_refl _, by simp⟩
  | cons y l ih =>
    rw [List.foldl_cons] at hr ⊢
    have hcase : Ieee.max a y = .inf false ∨ (isFinite (Ieee.max a y) = true ∧ valueOf a ≤ valueOf (Ieee.max a y) ∧
        (isFinite y = true → valueOf y ≤ valueOf (Ieee.max a y))) := by
      cases hy : isFinite y with
      | true =>
        obtain ⟨h1, h2⟩ := max_value ha hy
        rw [h2]
        exact .inr ⟨h1, le_max_left _ _, fun _ => le_max_right _ _⟩
      | false =>
        obtain ⟨s, n, hn, rfl⟩ := finite_cases ha
        cases y with
        | nan => exact .inr ⟨rfl, le_refl _, fun h => by cases h⟩
        | inf t =>
          cases t
          · exact .inl rfl
          · exact .inr ⟨rfl, le_refl _, fun h => by cases h⟩
        | fin t m hm => cases hy
    rcases hcase with h | ⟨h1, h2, h3⟩
    · rw [h, fold_max_inf] at hr
      cases hr
    · obtain ⟨i1, i2⟩ := ih h1 hr
      refine ⟨le_trans h2 i1, fun x hx fx => ?_⟩
      rcases List.mem_cons.mp hx with rfl | hx
      · exact le_trans (h3 fx) i1
      · exact i2 x hx fx

theorem floatCode_holds {l : List (Val b32)} {x : Val b32} (hx : x ∈ l) (w : Nat) :
    FloatCode (f64Bytes (f64Le lib) (rangeOf l).1) (f64Bytes (f64Le lib) (rangeOf l).2) w x
      (toU64 (mul (div (sub x (rangeOf l).1) (sub (rangeOf l).2 (rangeOf l).1)) (ofNat (2 ^ w - 1))) % 2 ^ w) := by
  intro fx a b ha hb
  obtain ⟨fa, rfl⟩ := isF64_bytes lib ha
  obtain ⟨fb, rfl⟩ := isF64_bytes lib hb
  have h0 : valueOf (rangeOf l).1 ≤ valueOf x := (fold_min_le valueOf_pack_max.1 fa).2 x hx fx
  have h1 : valueOf x ≤ valueOf (rangeOf l).2 := (fold_max_ge valueOf_pack_min.1 fb).2 x hx fx
  refine ⟨h0, h1, fun hw1 hw hlt hS => ?_⟩
  have hP : 0 < b32.prec := by decide
  have hS0 : 0 < valueOf (rangeOf l).2 - valueOf (rangeOf l).1 := by linarith
  have hspan := sub_value (f := b32) hP fb fa (by rw [abs_of_nonneg hS0.le]; exact le_trans hS maxV32)
  have herr := rnd32_error_sub (rangeOf l).2 (rangeOf l).1
  rw [abs_of_pos hS0] at herr
  refine ⟨?_, fun htop => ?_⟩
  · refine steps_of_scale hw1 hw fx fa hspan.1 hS0 ?_ ?_
    · rw [hspan.2]
      refine le_trans herr (mul_le_mul_of_nonneg_right (by norm_num) hS0.le)
    · rw [abs_of_nonneg (by linarith)]
      linarith
  rcases Nat.lt_or_ge 24 w with h24 | h24
  · exact scale_high h24 hw fx fa hspan.1 rfl hlt hS h0 hspan.2 herr (htop h24)
  · exact scale_value hw1 h24 fx fa hspan.1 rfl hlt hS h0 h1 hspan.2 herr

/-! ### Normals -/

theorem sin_lipschitz (x y : ℝ) : |Real.sin x - Real.sin y| ≤ |x - y| := by
  have h := Real.sin_sub_sin x y
  rw [h, abs_mul, abs_mul, abs_two]
  have h1 := Real.abs_sin_le_abs (x := (x - y) / 2)
  have h2 := Real.abs_cos_le_one ((x + y) / 2)
  have h3 : |(x - y) / 2| = |x - y| / 2 := by rw [abs_div, abs_two]
  rw [h3] at h1
  have := mul_le_mul h1 h2 (abs_nonneg _) (by positivity)
  linarith

theorem unitQ_code {p : Nat} (hp1 : 1 ≤ p) (hp : p ≤ 24) (x : Val b32) :
    |valueOf (unitQ p x) - ((toU64 (mul x (ofNat (2 ^ p - 1))) % 2 ^ p : Nat) : ℚ) / (2 ^ p - 1)| ≤ 1 / 2 ^ 23 := by
  have hc := mod_le_mask p (toU64 (mul x (ofNat (2 ^ p - 1))))
  rw [unitQ]
  generalize toU64 (mul x (ofNat (2 ^ p - 1))) % 2 ^ p = c at *
  have hm24 : 2 ^ p - 1 ≤ 2 ^ 24 := by
    have : 2 ^ p ≤ 2 ^ 24 := Nat.pow_le_pow_right (by omega) hp
    omega
  obtain ⟨mf, mv⟩ := ofNat_value hm24
  obtain ⟨cf, cv⟩ := ofNat_value (le_trans hc hm24)
  have hmc : ((2 ^ p - 1 : Nat) : ℚ) = 2 ^ p - 1 := by
    rw [Nat.cast_sub Nat.one_le_two_pow]; push_cast; rfl
  have hcc : (c : ℚ) ≤ 2 ^ p - 1 := by rw [← hmc]; exact_mod_cast hc
  have hm1 : (1 : ℚ) ≤ 2 ^ p - 1 := by
    have : (2 : ℚ) ^ 1 ≤ 2 ^ p := pow_le_pow_right₀ (by norm_num) hp1
    linarith
  have hq1 : (c : ℚ) / (2 ^ p - 1) ≤ 1 := (div_le_one (by linarith)).mpr hcc
  have hq0 : 0 ≤ (c : ℚ) / (2 ^ p - 1) := div_nonneg (Nat.cast_nonneg _) (by linarith)
  obtain ⟨_, dv⟩ := div_value (f := b32) (by decide) cf mf (by rw [mv, hmc]; linarith) (small_le_max (by
    rw [mv, cv, hmc, abs_of_nonneg hq0]; exact le_trans hq1 (by norm_num)))
  have he := rnd32_error ((c : ℚ) / (2 ^ p - 1))
  rw [dv, mv, cv, hmc]
  rw [abs_of_nonneg hq0] at he
  refine le_trans he ?_
  norm_num
  linarith

/-- The decoded number and the exact one, for any code of up to 31 bits. -/
theorem unitQ_code_any {p : Nat} (hp1 : 1 ≤ p) (hp : p ≤ 31) (x : Val b32) :
    |valueOf (unitQ p x) - ((toU64 (mul x (ofNat (2 ^ p - 1))) % 2 ^ p : Nat) : ℚ) / (2 ^ p - 1)| ≤ 3 / 2 ^ 24 := by
  rcases Nat.lt_or_ge 24 p with h24 | h24
  swap
  · exact le_trans (unitQ_code hp1 h24 x) (by norm_num)
  have hc := mod_le_mask p (toU64 (mul x (ofNat (2 ^ p - 1))))
  rw [unitQ]
  generalize toU64 (mul x (ofNat (2 ^ p - 1))) % 2 ^ p = c at *
  have hmc : ((2 ^ p - 1 : Nat) : ℚ) = 2 ^ p - 1 := by
    rw [Nat.cast_sub Nat.one_le_two_pow]; push_cast; rfl
  have hcc : (c : ℚ) ≤ 2 ^ p - 1 := by rw [← hmc]; exact_mod_cast hc
  have hpow := pow_ge_25 h24
  have hpow31 : (2 : ℚ) ^ p ≤ 2 ^ 31 := pow_le_pow_right₀ (by norm_num) hp
  have hc0 : (0 : ℚ) ≤ c := Nat.cast_nonneg _
  obtain ⟨mf, mv⟩ := mask_value h24 hp
  have h64 : 2 ^ p ≤ 2 ^ 31 := Nat.pow_le_pow_right (by decide) hp
  obtain ⟨cf, cv⟩ := ofNat_rnd (c := c) (by omega)
  have he := rnd32_error (c : ℚ)
  rw [← cv, abs_of_nonneg hc0] at he
  have hcv0 : 0 ≤ valueOf (ofNat c : Val b32) := by rw [cv]; exact rnd_nonneg hc0
  have hcv1 : valueOf (ofNat c : Val b32) ≤ 2 ^ p := by
    rw [cv, ← mv]
    exact rnd_le_valueOf (by decide) (by rw [mv]; linarith)
  have hp0 : (0 : ℚ) < 2 ^ p := by positivity
  have hq1 : valueOf (ofNat c : Val b32) / 2 ^ p ≤ 1 := (div_le_one hp0).mpr hcv1
  have hq0 : 0 ≤ valueOf (ofNat c : Val b32) / 2 ^ p := div_nonneg hcv0 hp0.le
  obtain ⟨_, dv⟩ := div_value (f := b32) (by decide) cf mf (by rw [mv]; exact hp0.ne') (small_le_max (by
    rw [mv, abs_of_nonneg hq0]; exact le_trans hq1 (by norm_num)))
  have hd := rnd32_error (valueOf (ofNat c : Val b32) / 2 ^ p)
  rw [dv, mv]
  rw [abs_of_nonneg hq0] at hd
  have hm : 0 < (2 : ℚ) ^ p - 1 := by norm_num at hpow; linarith
  have e1 : |valueOf (ofNat c : Val b32) / 2 ^ p - c / 2 ^ p| ≤ 1 / 2 ^ 24 + 1 / 2 ^ 150 := by
    rw [← sub_div, abs_div, abs_of_pos hp0, div_le_iff₀ hp0]
    refine le_trans he ?_
    norm_num at hpow ⊢
    linarith
  have e2 : |(c : ℚ) / 2 ^ p - c / (2 ^ p - 1)| ≤ 1 / 2 ^ 25 := by
    have h3 : (c : ℚ) / 2 ^ p - c / (2 ^ p - 1) = -(c / (2 ^ p - 1) / 2 ^ p) := by field_simp; ring
    have h4 : (c : ℚ) / (2 ^ p - 1) ≤ 1 := (div_le_one hm).mpr hcc
    have h5 : 0 ≤ (c : ℚ) / (2 ^ p - 1) := div_nonneg hc0 hm.le
    rw [h3, abs_neg, abs_of_nonneg (by positivity), div_le_iff₀ hp0]
    norm_num at hpow ⊢
    linarith
  generalize rnd b32 (valueOf (ofNat c : Val b32) / 2 ^ p) = r at *
  generalize valueOf (ofNat c : Val b32) / 2 ^ p = y at *
  generalize (c : ℚ) / 2 ^ p = t at *
  generalize (c : ℚ) / (2 ^ p - 1) = u at *
  rw [abs_le] at *
  norm_num at *
  constructor <;> linarith [hd.1, hd.2, e1.1, e1.2, e2.1, e2.2]

theorem angleCode_holds {lib : Libm} (hlib : AccurateLibm lib) {p : Nat} (hp1 : 1 ≤ p) (hp : p ≤ 31) {n : Vec3 (Val b32)}
    (hoff : p ≤ 24 ∨ |valueOf n.1| ≤ 512 * |valueOf n.2.1|)
    (hx : isFinite n.1 = true) (hy : isFinite n.2.1 = true) (bx : |valueOf n.1| ≤ 9 / 8) (by' : |valueOf n.2.1| ≤ 9 / 8)
    (hQ : 1 / 2 ^ 40 ≤ valueOf n.1 ^ 2 + valueOf n.2.1 ^ 2) :
    |Real.sin (((toU64 (mul (angleFrac lib n) (ofNat (2 ^ p - 1))) % 2 ^ p : Nat) : ℝ) / (2 ^ p - 1) * (Real.pi / 2)) -
      |realOf n.1| / √(realOf n.1 ^ 2 + realOf n.2.1 ^ 2)| ≤ 1.5708 / (2 ^ p - 1) + 1 / 2 ^ 19 := by
  have hQr : (1 : ℝ) / 2 ^ 40 ≤ realOf n.1 ^ 2 + realOf n.2.1 ^ 2 := by
    have := (Rat.cast_le (K := ℝ)).mpr hQ
    push_cast at this
    exact this
  have hpos : (0 : ℝ) < realOf n.1 ^ 2 + realOf n.2.1 ^ 2 := lt_of_lt_of_le (by norm_num) hQr
  have hR : 0 < √(realOf n.1 ^ 2 + realOf n.2.1 ^ 2) := Real.sqrt_pos.mpr hpos
  obtain ⟨q, q0, q1, hq, ha⟩ := angleQ_near hlib hp1 hp hoff hx hy bx by' hQ (X := |realOf n.1|) (Y := |realOf n.2.1|) rfl rfl hR
    (by rw [Real.sq_sqrt hpos.le, sq_abs, sq_abs])
  obtain ⟨-, -, -, te⟩ := angle_value (unitQ_unit hp1 (by omega) (angleFrac lib n))
  have hu := unitQ_code_any hp1 hp (angleFrac lib n)
  have hB : mul (unitQ p (angleFrac lib n)) halfPi32 = angleQ lib p n := rfl
  rw [hB] at te
  obtain ⟨-, u0, u1⟩ := unitQ_unit hp1 (by omega) (angleFrac lib n)
  have hc := mod_le_mask p (toU64 (mul (angleFrac lib n) (ofNat (2 ^ p - 1))))
  obtain ⟨b1, b2⟩ := halfPi_above
  have te' := (Rat.cast_le (K := ℝ)).mpr te
  have hu' := (Rat.cast_le (K := ℝ)).mpr hu
  have u0' := (Rat.cast_le (K := ℝ)).mpr u0
  have u1' := (Rat.cast_le (K := ℝ)).mpr u1
  push_cast at te' hu' u0' u1'
  change |realOf (angleQ lib p n) - _ * realOf halfPi32| ≤ _ at te'
  generalize (valueOf (unitQ p (angleFrac lib n)) : ℝ) = u at *
  generalize toU64 (mul (angleFrac lib n) (ofNat (2 ^ p - 1))) % 2 ^ p = c at *
  have hd : |(c : ℝ) / (2 ^ p - 1) * (Real.pi / 2) - Real.arcsin q| ≤ 1.5708 / (2 ^ p - 1) + 1 / 2 ^ 20 := by
    rw [codeStep] at ha
    rw [abs_le] at *
    generalize (c : ℝ) / (2 ^ p - 1) = t at *
    have hstep : (1.5708 : ℝ) / (2 ^ p - 1) = 1.5708 * (1 / (2 ^ p - 1)) := by ring
    rw [hstep]
    generalize (1 : ℝ) / (2 ^ p - 1) = h at *
    have hpi := Real.pi_lt_d2
    have hpi0 := Real.pi_gt_three
    generalize realOf (angleQ lib p n) = A at *
    generalize realOf halfPi32 = H at *
    have e1 : |(t - u) * (Real.pi / 2)| ≤ 19 / 2 ^ 26 := by
      rw [abs_mul, abs_of_pos (show (0 : ℝ) < Real.pi / 2 by linarith)]
      have : |t - u| ≤ 3 / 2 ^ 24 := by rw [abs_le]; constructor <;> linarith [hu'.1, hu'.2]
      calc |t - u| * (Real.pi / 2) ≤ 3 / 2 ^ 24 * (19 / 12) := mul_le_mul this (by linarith) (by linarith) (by norm_num)
        _ = _ := by norm_num
    have e2 : |u * (H - Real.pi / 2)| ≤ 1 / 2 ^ 24 := by
      rw [abs_mul, abs_of_nonneg u0', abs_of_pos (by linarith)]
      calc u * (H - Real.pi / 2) ≤ 1 * (1 / 2 ^ 24) := mul_le_mul u1' b2.le (by linarith) (by norm_num)
        _ = _ := by norm_num
    rw [abs_le] at e1 e2
    norm_num at *
    constructor <;> linarith [e1.1, e1.2, e2.1, e2.2, te'.1, te'.2, ha.1, ha.2]
  have hs := sin_lipschitz ((c : ℝ) / (2 ^ p - 1) * (Real.pi / 2)) (Real.arcsin q)
  rw [Real.sin_arcsin (by linarith) q1] at hs
  have hr : |q - |realOf n.1| / √(realOf n.1 ^ 2 + realOf n.2.1 ^ 2)| ≤ 1 / 2 ^ 21 := by
    generalize √(realOf n.1 ^ 2 + realOf n.2.1 ^ 2) = R at *
    have : q - |realOf n.1| / R = (q * R - |realOf n.1|) / R := by field_simp
    rw [this, abs_div, abs_of_pos hR, div_le_iff₀ hR]
    exact hq
  have ht := abs_sub_le (Real.sin ((c : ℝ) / (2 ^ p - 1) * (Real.pi / 2))) q
    (|realOf n.1| / √(realOf n.1 ^ 2 + realOf n.2.1 ^ 2))
  refine le_trans ht (le_trans (add_le_add (le_trans hs hd) hr) ?_)
  rw [add_assoc]
  norm_num

/-- Away from the axis, the fraction of the quarter turn that is stored is near the angle of the original. -/
theorem angleFrac_near {lib : Libm} (hlib : AccurateLibm lib) {n : Vec3 (Val b32)}
    (hx : isFinite n.1 = true) (hy : isFinite n.2.1 = true) (bx : |valueOf n.1| ≤ 9 / 8) (by' : |valueOf n.2.1| ≤ 9 / 8)
    (hQ : 1 / 2 ^ 40 ≤ valueOf n.1 ^ 2 + valueOf n.2.1 ^ 2) {X Y R : ℝ} (hXr : X = |realOf n.1|)
    (hYr : Y = |realOf n.2.1|) (hR : 0 < R) (hRR : R ^ 2 = X ^ 2 + Y ^ 2) :
    UnitValue (angleFrac lib n) ∧ ∃ q : ℝ, 0 ≤ q ∧ q ≤ 1 ∧ |q * R - X| ≤ 1 / 2 ^ 21 * R ∧
      |realOf (angleFrac lib n) * realOf halfPi32 - Real.arcsin q| ≤ 1 / 2 ^ 21 := by
  obtain ⟨fx, vx⟩ := abs_fin_value hx
  obtain ⟨fy, vy⟩ := abs_fin_value hy
  obtain ⟨mf, m0, me, mx⟩ := magXY_value fx fy (by rw [vx]; exact abs_nonneg _) (by rw [vy]; exact abs_nonneg _)
    (by rw [vx]; exact bx) (by rw [vy]; exact by') (by rw [vx, vy, sq_abs, sq_abs]; exact hQ)
  have hX0 : 0 ≤ valueOf (abs n.1) := by rw [vx]; exact abs_nonneg _
  have hm : magXY n = sqrt (add (mul (abs n.1) (abs n.1)) (mul (abs n.2.1) (abs n.2.1))) := rfl
  rw [← hm] at mf m0 me mx
  have hq1 : valueOf (abs n.1) / valueOf (magXY n) ≤ 1 := (div_le_one m0).mpr mx
  have hq0 : 0 ≤ valueOf (abs n.1) / valueOf (magXY n) := div_nonneg hX0 m0.le
  obtain ⟨of, ov⟩ := lit_one
  obtain ⟨pf, pv⟩ := halfPi_value
  have pp : 0 < valueOf halfPi32 := by rw [pv]; norm_num
  -- the quotient
  obtain ⟨qf, qv⟩ := div_value (f := b32) (by decide) fx mf m0.ne' (small_le_max (by
    rw [abs_of_nonneg hq0]; exact le_trans hq1 (by norm_num)))
  have qu : UnitValue (div (abs n.1) (magXY n)) := by
    refine ⟨qf, by rw [qv]; exact rnd_nonneg hq0, ?_⟩
    have h := rnd_le_valueOf (f := b32) (by decide) (v := valueOf (abs n.1) / valueOf (magXY n)) (x := lit 1 0) (by rw [ov]; exact hq1)
    rw [qv]; rwa [ov] at h
  have qe := rnd32_error (valueOf (abs n.1) / valueOf (magXY n))
  rw [← qv, abs_of_nonneg hq0] at qe
  -- its arc sine
  obtain ⟨tf, tn, t0, t1⟩ := hlib.asin_near _ qu
  have ha0 : 0 ≤ valueOf (lib.asin (div (abs n.1) (magXY n))) / valueOf halfPi32 := div_nonneg t0 pp.le
  have ha1 : valueOf (lib.asin (div (abs n.1) (magXY n))) / valueOf halfPi32 ≤ 1 := (div_le_one pp).mpr t1
  obtain ⟨af, av⟩ := div_value (f := b32) (by decide) tf pf pp.ne' (small_le_max (by
    rw [abs_of_nonneg ha0]; exact le_trans ha1 (by norm_num)))
  have au : UnitValue (angleFrac lib n) := by
    refine ⟨af, ?_, ?_⟩
    · rw [angleFrac, av]; exact rnd_nonneg ha0
    · have h := rnd_le_valueOf (f := b32) (by decide)
        (v := valueOf (lib.asin (div (abs n.1) (magXY n))) / valueOf halfPi32) (x := lit 1 0) (by rw [ov]; exact ha1)
      rw [angleFrac, av]; rwa [ov] at h
  have ae := rnd32_error (valueOf (lib.asin (div (abs n.1) (magXY n))) / valueOf halfPi32)
  rw [← av, abs_of_nonneg ha0] at ae
  have hqn : |realOf (div (abs n.1) (magXY n)) * R - X| ≤ 1 / 2 ^ 21 * R := by
    replace hXr : X = ((valueOf (abs n.1) : ℚ) : ℝ) := by rw [hXr, realOf, vx]; push_cast; rfl
    replace hYr : Y = ((valueOf (abs n.2.1) : ℚ) : ℝ) := by rw [hYr, realOf, vy]; push_cast; rfl
    rw [hXr, hYr] at hRR
    rw [hXr]
    refine Geometry.axis_quotient_near (g := realOf (magXY n)) (by exact_mod_cast hX0) (by rw [realOf]; exact_mod_cast mx) hR
      (by rw [realOf]; exact_mod_cast m0) ?_ ?_
    · have h := (Rat.cast_le (K := ℝ)).mpr me
      push_cast at h
      rw [hRR, realOf]; exact h
    · have h := (Rat.cast_le (K := ℝ)).mpr qe
      push_cast at h
      rw [realOf, realOf]; exact h
  have hmain : |valueOf (angleFrac lib n) * valueOf halfPi32 - valueOf (lib.asin (div (abs n.1) (magXY n)))| ≤ 1 / 2 ^ 22 := by
    have hA : div (lib.asin (div (abs n.1) (magXY n))) halfPi32 = angleFrac lib n := rfl
    rw [hA] at ae
    have hT : valueOf (lib.asin (div (abs n.1) (magXY n))) =
        valueOf (lib.asin (div (abs n.1) (magXY n))) / valueOf halfPi32 * valueOf halfPi32 := (div_mul_cancel₀ _ pp.ne').symm
    rw [hT]
    generalize valueOf (lib.asin (div (abs n.1) (magXY n))) / valueOf halfPi32 = T at *
    generalize valueOf (angleFrac lib n) = a at *
    rw [pv] at *
    rw [abs_le] at *
    norm_num at *
    constructor <;> linarith [ae.1, ae.2]
  refine ⟨au, realOf (div (abs n.1) (magXY n)), ?_, ?_, hqn, ?_⟩
  · rw [realOf]; exact_mod_cast qu.2.1
  · rw [realOf]; exact_mod_cast qu.2.2
  · have h1 := (Rat.cast_le (K := ℝ)).mpr hmain
    push_cast at h1
    have h2 := abs_sub_le (realOf (angleFrac lib n) * realOf halfPi32) (realOf (lib.asin (div (abs n.1) (magXY n))))
      (Real.arcsin (realOf (div (abs n.1) (magXY n))))
    refine le_trans h2 (le_trans (add_le_add h1 tn) (le_of_eq ?_))
    norm_num

/-- The angle code is a number of steps of the quarter turn, without the bits that are beyond the code. -/
theorem angleSteps_holds {lib : Libm} (hlib : AccurateLibm lib) {p : Nat} (hp1 : 1 ≤ p) (hp : p ≤ 31) {n : Vec3 (Val b32)}
    (hx : isFinite n.1 = true) (hy : isFinite n.2.1 = true) (bx : |valueOf n.1| ≤ 9 / 8) (by' : |valueOf n.2.1| ≤ 9 / 8)
    (hQ : 1 / 2 ^ 40 ≤ valueOf n.1 ^ 2 + valueOf n.2.1 ^ 2) :
    ∃ k : Nat, toU64 (mul (angleFrac lib n) (ofNat (2 ^ p - 1))) % 2 ^ p = k % 2 ^ p ∧
    |Real.sin ((k : ℝ) / (2 ^ p - 1) * (Real.pi / 2)) - |realOf n.1| / √(realOf n.1 ^ 2 + realOf n.2.1 ^ 2)| ≤
      1.5708 / (2 ^ p - 1) + 1 / 2 ^ 18 := by
  have hQr : (1 : ℝ) / 2 ^ 40 ≤ realOf n.1 ^ 2 + realOf n.2.1 ^ 2 := by
    have := (Rat.cast_le (K := ℝ)).mpr hQ
    push_cast at this
    exact this
  have hpos : (0 : ℝ) < realOf n.1 ^ 2 + realOf n.2.1 ^ 2 := lt_of_lt_of_le (by norm_num) hQr
  have hR : 0 < √(realOf n.1 ^ 2 + realOf n.2.1 ^ 2) := Real.sqrt_pos.mpr hpos
  obtain ⟨au, q, q0, q1, hq, ha⟩ := angleFrac_near hlib hx hy bx by' hQ (X := |realOf n.1|) (Y := |realOf n.2.1|) rfl rfl hR
    (by rw [Real.sq_sqrt hpos.le, sq_abs, sq_abs])
  obtain ⟨af, a0, a1⟩ := au
  obtain ⟨k, hk, k1, k2⟩ := ((steps_of_unit hp1 hp af) (by
    rw [sub_zero, abs_of_nonneg a0]; exact le_trans a1 (by norm_num))).2 a0
  refine ⟨k, hk, ?_⟩
  rw [sub_zero, div_one] at k1 k2
  have hm : (1 : ℝ) ≤ 2 ^ p - 1 := by
    have : (2 : ℝ) ^ 1 ≤ 2 ^ p := pow_le_pow_right₀ (by norm_num) hp1
    linarith
  have k1' := (Rat.cast_le (K := ℝ)).mpr k1
  have k2' := (Rat.cast_lt (K := ℝ)).mpr k2
  have a0' := (Rat.cast_le (K := ℝ)).mpr a0
  have a1' := (Rat.cast_le (K := ℝ)).mpr a1
  push_cast at k1' k2' a0' a1'
  obtain ⟨b1, b2⟩ := halfPi_above
  rw [realOf] at ha
  have hd : |(k : ℝ) / (2 ^ p - 1) * (Real.pi / 2) - Real.arcsin q| ≤ 1.5708 / (2 ^ p - 1) + 1 / 2 ^ 19 + 1 / 2 ^ 20 := by
    have hstep : (1.5708 : ℝ) / (2 ^ p - 1) = 1.5708 * (1 / (2 ^ p - 1)) := by ring
    rw [hstep]
    generalize (valueOf (angleFrac lib n) : ℝ) = a at *
    generalize realOf halfPi32 = H at *
    have hpi := Real.pi_lt_d6
    have hpi0 := Real.pi_gt_three
    have u1 : (k : ℝ) / (2 ^ p - 1) ≤ a + 1 / 2 ^ 20 + 1 / 2 ^ 100 := by
      rw [div_le_iff₀ (by linarith)]
      generalize (2 : ℝ) ^ p - 1 = M at *
      have : a * M ≤ 1 * M := mul_le_mul_of_nonneg_right a1' (by linarith)
      norm_num at *
      linarith
    have u2 : a - 1 / 2 ^ 20 - 1 / 2 ^ 100 - 1 / (2 ^ p - 1) ≤ (k : ℝ) / (2 ^ p - 1) := by
      rw [sub_le_iff_le_add, ← add_div, le_div_iff₀ (by linarith)]
      generalize (2 : ℝ) ^ p - 1 = M at *
      have : a * M ≤ 1 * M := mul_le_mul_of_nonneg_right a1' (by linarith)
      norm_num at *
      linarith
    have hs0 : (0 : ℝ) ≤ 1 / (2 ^ p - 1) := div_nonneg zero_le_one (by linarith)
    generalize (k : ℝ) / (2 ^ p - 1) = t at *
    generalize (1 : ℝ) / (2 ^ p - 1) = h at *
    have e1 : |a * (H - Real.pi / 2)| ≤ 1 / 2 ^ 24 := by
      rw [abs_mul, abs_of_nonneg (by exact_mod_cast a0'), abs_of_pos (by linarith)]
      calc a * (H - Real.pi / 2) ≤ 1 * (1 / 2 ^ 24) := mul_le_mul (by exact_mod_cast a1') b2.le (by linarith) (by norm_num)
        _ = _ := by norm_num
    have hhalf : Real.pi / 2 ≤ 1.5708 := by norm_num at *; linarith
    have e2 : (t - a) * (Real.pi / 2) ≤ 1.5708 * (1 / 2 ^ 20 + 1 / 2 ^ 100) := by
      calc (t - a) * (Real.pi / 2) ≤ (1 / 2 ^ 20 + 1 / 2 ^ 100) * (Real.pi / 2) :=
            mul_le_mul_of_nonneg_right (by linarith) (by linarith)
        _ ≤ _ := by
            have := mul_le_mul_of_nonneg_left hhalf (show (0 : ℝ) ≤ 1 / 2 ^ 20 + 1 / 2 ^ 100 by norm_num)
            linarith
    have e3 : (a - t) * (Real.pi / 2) ≤ 1.5708 * (h + 1 / 2 ^ 20 + 1 / 2 ^ 100) := by
      calc (a - t) * (Real.pi / 2) ≤ (h + 1 / 2 ^ 20 + 1 / 2 ^ 100) * (Real.pi / 2) :=
            mul_le_mul_of_nonneg_right (by linarith) (by linarith)
        _ ≤ _ := by
            have := mul_le_mul_of_nonneg_left hhalf (show (0 : ℝ) ≤ h + 1 / 2 ^ 20 + 1 / 2 ^ 100 by positivity)
            linarith
    rw [abs_le] at *
    norm_num at *
    constructor <;> linarith [e1.1, e1.2, ha.1, ha.2]
  have hs := sin_lipschitz ((k : ℝ) / (2 ^ p - 1) * (Real.pi / 2)) (Real.arcsin q)
  rw [Real.sin_arcsin (by linarith) q1] at hs
  have hr : |q - |realOf n.1| / √(realOf n.1 ^ 2 + realOf n.2.1 ^ 2)| ≤ 1 / 2 ^ 21 := by
    generalize √(realOf n.1 ^ 2 + realOf n.2.1 ^ 2) = R at *
    have : q - |realOf n.1| / R = (q * R - |realOf n.1|) / R := by field_simp
    rw [this, abs_div, abs_of_pos hR, div_le_iff₀ hR]
    exact hq
  have ht := abs_sub_le (Real.sin ((k : ℝ) / (2 ^ p - 1) * (Real.pi / 2))) q
    (|realOf n.1| / √(realOf n.1 ^ 2 + realOf n.2.1 ^ 2))
  refine le_trans ht (le_trans (add_le_add (le_trans hs hd) hr) ?_)
  rw [add_assoc, add_assoc]
  norm_num

theorem normal_means {lib : Libm} (hlib : AccurateLibm lib) (w : Nat) (n : Vec3 (Val b32)) :
    NormalMeans w n (normalBits (ops lib) w n) := by
  have hz := lit_zero
  have sign : ∀ x : Val b32, isFinite x = true → (lt x (lit 0 0) = true ↔ valueOf x < 0) := by
    intro x hx
    rw [lt_value hx hz.1, hz.2]
  have hA : (normalBits (ops lib) w n).angle = toU64 (mul (angleFrac lib n) (ofNat (2 ^ w - 1))) % 2 ^ w := by
    rw [normalBits, normalCode]
    dsimp only
    rw [halfPi_eq]
    rfl
  constructor
  · exact fun h => sign _ h
  · exact fun h => sign _ h
  · exact fun h => sign _ h
  · intro hf hw1 hw
    obtain ⟨af, av⟩ := abs_fin_value hf
    have h := (unitCode_holds w (abs n.2.2) hw1 hw).1 af
    rw [av] at h
    exact h
  · intro hf hw1 hw h1 htop
    obtain ⟨af, av⟩ := abs_fin_value hf
    have h := (unitCode_holds w (abs n.2.2) hw1 hw).2 ⟨⟨af, by rw [av]; exact abs_nonneg _, by rw [av]; exact h1⟩,
      (Nat.lt_or_ge 24 w).symm.imp_right fun h => by rw [av]; exact htop h⟩
    rw [av] at h
    exact h
  · intro hx hy hw1 hw bx by' hQ
    rw [hA]
    exact angleSteps_holds hlib hw1 hw hx hy bx by' hQ
  · intro hx hy hw1 hw bx by' hQ hoff
    rw [hA]
    exact ⟨mod_le_mask _ _, angleCode_holds hlib hw1 hw ((Nat.lt_or_ge 24 w).symm.imp_right hoff) hx hy bx by' hQ⟩

theorem hand_means (h : Val b32) (hf : isFinite h = true) (h0 : valueOf h ≠ 0) : (isSignNegative h = true ↔ valueOf h < 0) := by
  obtain ⟨s, n, hn, rfl⟩ := finite_cases hf
  have hS : (0 : ℚ) < 2 ^ b32.scale := units_pos b32
  rw [valueOf_fin] at *
  have hq : (0 : ℚ) ≤ (n : ℚ) / 2 ^ b32.scale := div_nonneg (Nat.cast_nonneg _) hS.le
  cases s
  · simp only [sgn, Bool.false_eq_true, if_false, one_mul, isSignNegative] at *
    constructor
    · intro h; cases h
    · intro h; linarith
  · simp only [sgn, if_true, isSignNegative] at *
    refine ⟨fun _ => ?_, fun _ => trivial⟩
    have : (n : ℚ) / 2 ^ b32.scale ≠ 0 := fun h => h0 (by rw [h]; norm_num)
    have := lt_of_le_of_ne hq this.symm
    linarith

/-! ### All of them -/

theorem vertex_means (s : VBox (Val b32)) (w : Nat × Nat × Nat) (v : Vec3 (Val b32)) :
    numbers.vertex (boxBytes (ops lib) (f64Le lib) s) w v (vertexCodes (ops lib) s w v) := by
  rw [vertexCodes, sizes_ops lib]
  exact ⟨axisCode_holds lib w.1 v.1 s.minX s.maxX, axisCode_holds lib w.2.1 v.2.1 s.minY s.maxY,
    axisCode_holds lib w.2.2 v.2.2 s.minZ s.maxZ⟩

theorem exact_numbers {lib : Libm} (hlib : AccurateLibm lib) {prec : PrecisionInfo (Val b32)} {edge : Val b32} {b : Build}
    (m : Mesh (Val b32)) : Exact (ops lib) (f64Le lib) prec edge b m numbers where
  vertex _ _ _ s _ _ _ _ v _ := vertex_means lib s _ v
  normal _ _ n _ := normal_means hlib _ n
  uv _ _ x _ := ⟨unitCode_holds prec.uv x.1, unitCode_holds prec.uv x.2⟩
  tangent _ _ t _ := ⟨fun hf h0 => hand_means t.2 hf h0, normal_means hlib _ t.1⟩
  float _ l p _ _ hx := floatCode_holds lib hx (floatPrec (ops lib) l p)
  color _ _ _ _ c _ := ⟨unitCode_holds _ c.1, unitCode_holds _ c.2.1, unitCode_holds _ c.2.2.1, unitCode_holds _ c.2.2.2⟩

end Tmf.Ieee
