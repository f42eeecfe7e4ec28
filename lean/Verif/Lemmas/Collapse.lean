import Verif.Lemmas.WideArrays
import Verif.Lemmas.CoordHigh
import Verif.Lemmas.NormalAngle
/-
Widths from 32 to 63 bits in builds without overflow checks: the multiplier is `2^(p-32) - 1`, the
divisor `2^p - 1`, so that everything comes back next to the lower end of its range.
-/

set_option exponentiation.threshold 2000

namespace Tmf.Ieee
open Spec

theorem rnd_unit_multiple {f : Fmt} (hP : 0 < f.prec) {n : Nat} (h : f.Flt n) : rnd f ((n : ℚ) / 2 ^ f.scale) = (n : ℚ) / 2 ^ f.scale := by
  have hv : (0 : ℚ) ≤ (n : ℚ) / 2 ^ f.scale := by positivity
  rw [rnd_of_nonneg hv,
    rndPos_eq hP hv (num := n) (den := 1) (by decide) (by rw [div_mul_cancel₀ _ (units_pos f).ne']; simp), round_of_flt f hP h]

theorem one_lt_digits {f : Fmt} (hP : 0 < f.prec) : 1 < 2 ^ f.prec := Nat.one_lt_two_pow (by omega)

theorem rnd_pow {f : Fmt} (hP : 0 < f.prec) (k : Nat) : rnd f (2 ^ k) = 2 ^ k := by
  have := rnd_unit_multiple hP (f := f) (n := 2 ^ (k + f.scale)) ⟨1, k + f.scale, one_lt_digits hP, (Nat.one_mul _).symm⟩
  rwa [Nat.cast_pow, Nat.cast_ofNat, pow_add, mul_div_assoc, div_self (units_pos f).ne', mul_one] at this

theorem rnd_inv_pow {f : Fmt} (hP : 0 < f.prec) {k : Nat} (hk : k ≤ f.scale) : rnd f (1 / 2 ^ k) = 1 / 2 ^ k := by
  have := rnd_unit_multiple hP (f := f) (n := 2 ^ (f.scale - k)) ⟨1, f.scale - k, one_lt_digits hP, (Nat.one_mul _).symm⟩
  have e : (((2 : Nat) ^ (f.scale - k) : Nat) : ℚ) / 2 ^ f.scale = 1 / 2 ^ k := by
    obtain ⟨d, hd⟩ := Nat.exists_eq_add_of_le hk
    rw [hd, Nat.add_sub_cancel_left, Nat.cast_pow, Nat.cast_ofNat, pow_add, div_mul_eq_div_div_swap, div_self (by positivity)]
  rwa [e] at this

theorem ofNat_rounds {f : Fmt} (hP : 0 < f.prec) {n : Nat} (h : (n : ℚ) ≤ maxV f) :
    isFinite (ofNat n : Val f) = true ∧ valueOf (ofNat n : Val f) = rnd f n := by
  refine rounded_value hP false Nat.one_pos ?_ (by rwa [abs_of_nonneg (Nat.cast_nonneg _)])
  simp only [sgn, Bool.false_eq_true, if_false, one_mul]
  rw [Nat.cast_one, div_one, Nat.cast_mul, Nat.cast_pow, Nat.cast_ofNat, mul_div_cancel_right₀ _ (units_pos f).ne']

/-- The quotient of a small code and the divisor. -/
theorem ratio_small {f : Fmt} (hP : 0 < f.prec) (hmax : 2 ^ 64 ≤ maxV f) {p c : Nat} (h1 : 32 ≤ p) (h2 : p < 64)
    (hc : c ≤ 2 ^ (p - 32)) : isFinite (ofNat c : Val f) = true ∧ isFinite (ofNat (2 ^ p - 1) : Val f) = true ∧
      0 < valueOf (ofNat (2 ^ p - 1) : Val f) ∧ 0 ≤ valueOf (ofNat c : Val f) / valueOf (ofNat (2 ^ p - 1) : Val f) ∧
      valueOf (ofNat c : Val f) / valueOf (ofNat (2 ^ p - 1) : Val f) ≤ 1 / 2 ^ 31 := by
  have hp64 : (2 : ℚ) ^ p ≤ 2 ^ 64 := pow_le_pow_right₀ (by norm_num) (by omega)
  have hcq : (c : ℚ) ≤ 2 ^ (p - 32) := by exact_mod_cast hc
  have hpp : (2 : ℚ) ^ (p - 32) ≤ 2 ^ p := pow_le_pow_right₀ (by norm_num) (by omega)
  obtain ⟨cf, cv⟩ := ofNat_rounds hP (f := f) (n := c) (by linarith)
  have hge : 2 ^ (p - 1) ≤ 2 ^ p - 1 := by
    have h : 2 ^ p = 2 * 2 ^ (p - 1) := by rw [← pow_succ']; congr 1; omega
    have : 0 < 2 ^ (p - 1) := by positivity
    omega
  have hgeq : (2 : ℚ) ^ (p - 1) ≤ ((2 ^ p - 1 : Nat) : ℚ) := by exact_mod_cast hge
  have hleq : ((2 ^ p - 1 : Nat) : ℚ) ≤ 2 ^ p := by exact_mod_cast Nat.sub_le _ _
  obtain ⟨mf, mv⟩ := ofNat_rounds hP (f := f) (n := 2 ^ p - 1) (by linarith)
  have m1 : (2 : ℚ) ^ (p - 1) ≤ valueOf (ofNat (2 ^ p - 1) : Val f) := by
    rw [mv, ← rnd_pow hP (f := f)]; exact rnd_mono hP hgeq
  have c0 : 0 ≤ valueOf (ofNat c : Val f) := by rw [cv]; exact rnd_nonneg (Nat.cast_nonneg _)
  have c1 : valueOf (ofNat c : Val f) ≤ 2 ^ (p - 32) := by
    rw [cv, ← rnd_pow hP (f := f)]; exact rnd_mono hP hcq
  have mpos : 0 < valueOf (ofNat (2 ^ p - 1) : Val f) := lt_of_lt_of_le (by positivity) m1
  refine ⟨cf, mf, mpos, div_nonneg c0 mpos.le, ?_⟩
  rw [div_le_div_iff₀ mpos (by positivity), one_mul]
  calc valueOf (ofNat c : Val f) * 2 ^ 31 ≤ 2 ^ (p - 32) * 2 ^ 31 := mul_le_mul_of_nonneg_right c1 (by positivity)
    _ = 2 ^ (p - 1) := by rw [← pow_add]; congr 1; omega
    _ ≤ _ := m1

/-- Decoding a small code. -/
theorem tiny_div {f : Fmt} (hP : 0 < f.prec) (hS : 31 ≤ f.scale) (hmax : 2 ^ 64 ≤ maxV f) {p c : Nat} (h1 : 32 ≤ p) (h2 : p < 64)
    (hc : c ≤ 2 ^ (p - 32)) : Tiny (div (ofNat c) (ofNat (2 ^ p - 1)) : Val f) := by
  obtain ⟨cf, mf, mpos, q0, q1⟩ := ratio_small hP hmax h1 h2 hc
  obtain ⟨hf, hv⟩ := div_value hP cf mf mpos.ne' (by
    rw [abs_of_nonneg q0]
    exact le_trans q1 (le_trans (by norm_num) hmax))
  refine ⟨hf, by rw [hv]; exact rnd_nonneg q0, ?_⟩
  rw [hv, ← rnd_inv_pow hP hS]
  exact rnd_mono hP q1

theorem max32_64 : (2 : ℚ) ^ 64 ≤ maxV b32 := le_trans (by norm_num) maxV32
theorem max64_64 : (2 : ℚ) ^ 64 ≤ maxV b64 := le_trans (by norm_num) maxV64

theorem tiny_div32 {p c : Nat} (h1 : 32 ≤ p) (h2 : p < 64) (hc : c ≤ 2 ^ (p - 32)) :
    Tiny (div (ofNat c) (ofNat (2 ^ p - 1)) : Val b32) := tiny_div (by decide) (by decide) max32_64 h1 h2 hc

theorem tiny_div64 {p c : Nat} (h1 : 32 ≤ p) (h2 : p < 64) (hc : c ≤ 2 ^ (p - 32)) :
    Tiny (div (ofNat c) (ofNat (2 ^ p - 1)) : Val b64) := tiny_div (by decide) (by decide) max64_64 h1 h2 hc

theorem tiny_convert {x : Val b64} (h : Tiny x) : Tiny (convert x : Val b32) := by
  obtain ⟨h0, h1, h2⟩ := h
  obtain ⟨hf, hv⟩ := convert_value (g := b32) (by decide) h0 (by
    rw [abs_of_nonneg h1]
    exact le_trans h2 (le_trans (by norm_num) maxV32))
  refine ⟨hf, by rw [hv]; exact rnd_nonneg h1, ?_⟩
  rw [hv, ← rnd_inv_pow (f := b32) (by decide) (k := 31) (by decide)]
  exact rnd_mono (by decide) h2

theorem mulI32_wrapping {p : Nat} (h1 : 32 ≤ p) (h2 : p < 64) : mulI32 .wrapping p = .ok (2 ^ (p - 32) - 1) := by
  show Outcome.ok (2 ^ (p % 32) - 1) = _
  rw [show p % 32 = p - 32 by omega]

/-- The code of a number in [0,1]. -/
theorem code_small {p : Nat} (h1 : 32 ≤ p) (h2 : p < 64) {q : Val b32} (hq : UnitValue q) :
    toU64 (mul q (ofNat (2 ^ (p - 32) - 1))) ≤ 2 ^ (p - 32) := by
  have hP : 0 < b32.prec := by decide
  obtain ⟨q0, q1, q2⟩ := hq
  have hle : ((2 ^ (p - 32) - 1 : Nat) : ℚ) ≤ 2 ^ (p - 32) := by exact_mod_cast Nat.sub_le _ _
  have h64 : (2 : ℚ) ^ (p - 32) < 2 ^ 64 := pow_lt_pow_right₀ (by norm_num) (by omega)
  obtain ⟨mf, mv⟩ := ofNat_rounds hP (f := b32) (n := 2 ^ (p - 32) - 1) (by linarith [max32_64])
  have m0 : 0 ≤ valueOf (ofNat (2 ^ (p - 32) - 1) : Val b32) := by rw [mv]; exact rnd_nonneg (Nat.cast_nonneg _)
  have m1 : valueOf (ofNat (2 ^ (p - 32) - 1) : Val b32) ≤ 2 ^ (p - 32) := by
    rw [mv, ← rnd_pow hP (f := b32)]; exact rnd_mono hP hle
  have w0 : 0 ≤ valueOf q * valueOf (ofNat (2 ^ (p - 32) - 1) : Val b32) := mul_nonneg q1 m0
  have w1 : valueOf q * valueOf (ofNat (2 ^ (p - 32) - 1) : Val b32) ≤ 2 ^ (p - 32) := by nlinarith
  obtain ⟨wf, wv⟩ := mul_value hP q0 mf (by rw [abs_of_nonneg w0]; linarith [max32_64])
  have w2 : valueOf (mul q (ofNat (2 ^ (p - 32) - 1))) ≤ 2 ^ (p - 32) := by
    rw [wv, ← rnd_pow hP (f := b32)]; exact rnd_mono hP w1
  obtain ⟨t1, -⟩ := toU64_value wf (by rw [wv]; exact rnd_nonneg w0) (by linarith)
  exact_mod_cast le_trans t1 w2

theorem pairCode_le (p c : Nat) : pairCode p c ≤ c := by
  rw [pairCode]
  split
  · exact Nat.zero_le _
  · exact Nat.mod_le _ _

theorem mod_small {p c : Nat} (h : c ≤ 2 ^ (p - 32)) : c % 2 ^ p ≤ 2 ^ (p - 32) := le_trans (Nat.mod_le _ _) h

/-- A coordinate decoded from a small code. -/
theorem coord_collapse {p c : Nat} (h1 : 32 ≤ p) (h2 : p < 64) (hc : c ≤ 2 ^ (p - 32)) {mn mx : Val b32} {M : ℚ}
    (hmn : isFinite mn = true) (hmx : isFinite mx = true) (hle : valueOf mn ≤ valueOf mx)
    (hM1 : |valueOf mn| ≤ M) (hM2 : |valueOf mx| ≤ M) (hM : M ≤ 2 ^ 120) :
    Within (M / 2 ^ 19 + 1 / 2 ^ 148) mn (add (mul (div (ofNat c) (ofNat (2 ^ p - 1))) (sub mx mn)) mn) := by
  have hM0 : 0 ≤ M := le_trans (abs_nonneg _) hM1
  obtain ⟨cf, mf, mpos, q0, q1⟩ := ratio_small (f := b32) (by decide) max32_64 h1 h2 hc
  obtain ⟨hf, he⟩ := decode_value (f := b32) (by decide) (u := 1 / 2 ^ 24) (η := 1 / 2 ^ 150) (M := M)
      rfl (by norm_num) rfl (by norm_num) (o := ofNat 1) (by rw [(ofNat_value (c := 1) (by norm_num)).2, Nat.cast_one])
      cf mf mpos.ne' rfl q0 (le_trans q1 (by norm_num)) hmn hmx hle hM1 hM2
      (le_trans (by linarith [show (8 : ℚ) * 2 ^ 120 + 8 ≤ 2 ^ 127 by norm_num]) maxV32)
  refine ⟨hf, ?_⟩
  have hSM : valueOf mx - valueOf mn ≤ 2 * M := by rw [abs_le] at hM1 hM2; linarith
  generalize valueOf (ofNat c : Val b32) / valueOf (ofNat (2 ^ p - 1) : Val b32) = D at *
  generalize valueOf (add (mul (div (ofNat c) (ofNat (2 ^ p - 1))) (sub mx mn)) mn : Val b32) = y at *
  have e1 : D * (valueOf mx - valueOf mn) ≤ 1 / 2 ^ 31 * (2 * M) :=
    mul_le_mul q1 hSM (by linarith) (by norm_num)
  have e0 : 0 ≤ D * (valueOf mx - valueOf mn) := mul_nonneg q0 (by linarith)
  rw [abs_le] at he ⊢
  have e2 : (15 : ℚ) * (1 / 2 ^ 24) * M + 1 / 2 ^ 31 * (2 * M) ≤ M / 2 ^ 19 := by
    have : M / 2 ^ 19 - (15 * (1 / 2 ^ 24) * M + 1 / 2 ^ 31 * (2 * M)) = M * (1 / 2 ^ 19 - 15 / 2 ^ 24 - 2 / 2 ^ 31) := by ring
    have := mul_nonneg hM0 (show (0 : ℚ) ≤ 1 / 2 ^ 19 - 15 / 2 ^ 24 - 2 / 2 ^ 31 by norm_num)
    linarith
  have e3 : (3 : ℚ) * (1 / 2 ^ 150) ≤ 1 / 2 ^ 148 := by norm_num
  constructor <;> linarith [he.1, he.2]

/-- A float decoded from a small code. -/
theorem float_collapse {p c : Nat} (h1 : 32 ≤ p) (h2 : p < 64) (hc : c ≤ 2 ^ (p - 32)) {mn mx : Val b32} {M : ℚ}
    (hmn : isFinite mn = true) (hmx : isFinite mx = true) (hle : valueOf mn ≤ valueOf mx)
    (hM1 : |valueOf mn| ≤ M) (hM2 : |valueOf mx| ≤ M) (hM : M ≤ 2 ^ 120) :
    Within (M / 2 ^ 19 + 1 / 2 ^ 148) mn
      (convert (add (mul (div (ofNat c : Val b64) (ofNat (2 ^ p - 1))) (sub (convert mx) (convert mn))) (convert mn)) : Val b32) := by
  have hM0 : 0 ≤ M := le_trans (abs_nonneg _) hM1
  have hwn := widen_value hmn
  have hwx := widen_value hmx
  have hη64 : (1 : ℚ) / 2 ^ 1075 ≤ 1 / 2 ^ 153 := one_div_le_one_div_of_le (by positivity) (pow_le_pow_right₀ (by norm_num) (by norm_num))
  obtain ⟨cf, mf, mpos, q0, q1⟩ := ratio_small (f := b64) (by decide) max64_64 h1 h2 hc
  obtain ⟨hf, he⟩ := decode_value (f := b64) (by decide) (u := 1 / 2 ^ 53) (η := 1 / 2 ^ 1075) (M := M)
    rfl (by norm_num) rfl (le_trans hη64 (by norm_num)) (o := ofNat 1)
    (by rw [(ofNat_value64 (c := 1) (by norm_num)).2, Nat.cast_one])
    cf mf mpos.ne' rfl q0 (le_trans q1 (by norm_num)) hwn.1 hwx.1 (by rw [hwn.2, hwx.2]; exact hle)
    (by rw [hwn.2]; exact hM1) (by rw [hwx.2]; exact hM2)
    (le_trans (by linarith [show (8 : ℚ) * 2 ^ 120 + 8 ≤ 2 ^ 200 by norm_num]) maxV64)
  rw [hwn.2, hwx.2] at he
  have hSM : valueOf mx - valueOf mn ≤ 2 * M := by rw [abs_le] at hM1 hM2; linarith
  generalize valueOf (ofNat c : Val b64) / valueOf (ofNat (2 ^ p - 1) : Val b64) = D at *
  generalize (add (mul (div (ofNat c : Val b64) (ofNat (2 ^ p - 1))) (sub (convert mx) (convert mn))) (convert mn)) = y64 at *
  generalize (1 : ℚ) / 2 ^ 1075 = η at *
  have e1 : D * (valueOf mx - valueOf mn) ≤ 1 / 2 ^ 31 * (2 * M) :=
    mul_le_mul q1 hSM (by linarith) (by norm_num)
  have e0 : 0 ≤ D * (valueOf mx - valueOf mn) := mul_nonneg q0 (by linarith)
  have e2 : (15 : ℚ) * (1 / 2 ^ 53) * M + 1 / 2 ^ 31 * (2 * M) ≤ M / 2 ^ 24 := by
    have : M / 2 ^ 24 - (15 * (1 / 2 ^ 53) * M + 1 / 2 ^ 31 * (2 * M)) = M * (1 / 2 ^ 24 - 15 / 2 ^ 53 - 2 / 2 ^ 31) := by ring
    have := mul_nonneg hM0 (show (0 : ℚ) ≤ 1 / 2 ^ 24 - 15 / 2 ^ 53 - 2 / 2 ^ 31 by norm_num)
    linarith
  have hη3 : 3 * η ≤ 1 / 2 ^ 151 := le_trans (mul_le_mul_of_nonneg_left hη64 (by norm_num)) (by norm_num)
  have hd : |valueOf y64 - valueOf mn| ≤ M / 2 ^ 24 + 1 / 2 ^ 151 := by
    rw [abs_le] at he ⊢
    constructor <;> linarith [he.1, he.2]
  have hy : |valueOf y64| ≤ 2 * M + 1 / 2 ^ 151 := by
    have := abs_add_le (valueOf y64 - valueOf mn) (valueOf mn)
    rw [sub_add_cancel] at this
    have : M / 2 ^ 24 ≤ M := div_le_self hM0 (by norm_num)
    linarith
  have hfin := convert_value (g := b32) (by decide) hf (by
    refine le_trans hy (le_trans ?_ maxV32)
    linarith [show (2 : ℚ) * 2 ^ 120 + 1 / 2 ^ 151 ≤ 2 ^ 127 by norm_num])
  refine ⟨hfin.1, ?_⟩
  rw [hfin.2]
  have hr := rnd32_error (valueOf y64)
  have := abs_add_le (rnd b32 (valueOf y64) - valueOf y64) (valueOf y64 - valueOf mn)
  rw [sub_add_sub_cancel] at this
  have e4 : (1 : ℚ) / 2 ^ 24 * |valueOf y64| ≤ 1 / 2 ^ 24 * (2 * M + 1 / 2 ^ 151) := mul_le_mul_of_nonneg_left hy (by norm_num)
  have e5 : (1 : ℚ) / 2 ^ 24 * (2 * M + 1 / 2 ^ 151) + M / 2 ^ 24 ≤ M / 2 ^ 19 + 1 / 2 ^ 175 := by
    have : M / 2 ^ 19 + 1 / 2 ^ 175 - (1 / 2 ^ 24 * (2 * M + 1 / 2 ^ 151) + M / 2 ^ 24) = M * (1 / 2 ^ 19 - 3 / 2 ^ 24) := by ring
    have := mul_nonneg hM0 (show (0 : ℚ) ≤ 1 / 2 ^ 19 - 3 / 2 ^ 24 by norm_num)
    linarith
  linarith [show (1 : ℚ) / 2 ^ 150 + 1 / 2 ^ 151 + 1 / 2 ^ 175 ≤ 1 / 2 ^ 148 by norm_num]

/-- What the code of a coordinate inside the box is computed from. -/
theorem coord_unit {x mn mx : Val b32} (hx : isFinite x = true) (hmn : isFinite mn = true) (hmx : isFinite mx = true)
    (h0 : valueOf mn ≤ valueOf x) (h1 : valueOf x ≤ valueOf mx) (hS : valueOf mx - valueOf mn ≤ 2 ^ 127) :
    UnitValue (div (sub x mn) (sizeOf mn mx)) := by
  have hP : 0 < b32.prec := by decide
  have hX0 : 0 ≤ valueOf x - valueOf mn := by linarith
  have hspan := sub_value (f := b32) hP hmx hmn (by rw [abs_of_nonneg (by linarith)]; exact le_trans hS maxV32)
  have ht := sub_value (f := b32) hP hx hmn (by rw [abs_of_nonneg hX0]; exact le_trans (by linarith) (le_trans hS maxV32))
  obtain ⟨heps, heps0, heps1⟩ := eps_value
  have hszv := max_value hspan.1 heps
  have hsz : valueOf (sizeOf mn mx) = Max.max (valueOf (sub mx mn)) (valueOf (lit 1 6 : Val b32)) := hszv.2
  have hts : valueOf (sub x mn) ≤ valueOf (sizeOf mn mx) := by
    rw [hsz]
    refine le_trans ?_ (le_max_left _ _)
    rw [ht.2, hspan.2]
    exact rnd_mono hP (by linarith)
  have hspos : 0 < valueOf (sizeOf mn mx) := by rw [hsz]; exact lt_of_lt_of_le heps0 (le_max_right _ _)
  have hq1 : valueOf (sub x mn) / valueOf (sizeOf mn mx) ≤ 1 := (div_le_one hspos).mpr hts
  have hq0 : 0 ≤ valueOf (sub x mn) / valueOf (sizeOf mn mx) := div_nonneg (by rw [ht.2]; exact rnd_nonneg hX0) hspos.le
  have hq := div_value hP ht.1 (show isFinite (sizeOf mn mx) = true from hszv.1) hspos.ne' (by
    rw [abs_of_nonneg hq0]; exact le_trans hq1 (le_trans (by norm_num) maxV32))
  have hone := ofNat_value (c := 1) (by norm_num)
  refine ⟨hq.1, by rw [hq.2]; exact rnd_nonneg hq0, ?_⟩
  rw [hq.2, ← Nat.cast_one (R := ℚ), ← hone.2]
  exact rnd_le_valueOf hP (by rw [hone.2, Nat.cast_one]; exact hq1)

/-! ### Normals -/

/-- Away from the z axis, the angle is a fraction of a quarter turn. -/
theorem angleFrac_unit {lib : Libm} (hlib : AccurateLibm lib) {n : Vec3 (Val b32)}
    (hx : isFinite n.1 = true) (hy : isFinite n.2.1 = true) (bx : |valueOf n.1| ≤ 9 / 8) (by' : |valueOf n.2.1| ≤ 9 / 8)
    (hQ : 1 / 2 ^ 40 ≤ valueOf n.1 ^ 2 + valueOf n.2.1 ^ 2) : UnitValue (angleFrac lib n) := by
  obtain ⟨fx, vx⟩ := abs_fin_value hx
  obtain ⟨fy, vy⟩ := abs_fin_value hy
  obtain ⟨mf, m0, me, mx⟩ := magXY_value fx fy (by rw [vx]; exact abs_nonneg _) (by rw [vy]; exact abs_nonneg _)
    (by rw [vx]; exact bx) (by rw [vy]; exact by') (by rw [vx, vy, sq_abs, sq_abs]; exact hQ)
  have hX0 : 0 ≤ valueOf (abs n.1) := by rw [vx]; exact abs_nonneg _
  have hm : magXY n = sqrt (add (mul (abs n.1) (abs n.1)) (mul (abs n.2.1) (abs n.2.1))) := rfl
  rw [← hm] at mf m0 me mx
  have hq1 : valueOf (abs n.1) / valueOf (magXY n) ≤ 1 := (div_le_one m0).mpr mx
  have hq0 : 0 ≤ valueOf (abs n.1) / valueOf (magXY n) := div_nonneg hX0 m0.le
  obtain ⟨of, ov⟩ := lit_one
  obtain ⟨pf, pv⟩ := halfPi_value
  have pp : 0 < valueOf halfPi32 := by rw [pv]; norm_num
  obtain ⟨qf, qv⟩ := div_value (f := b32) (by decide) fx mf m0.ne' (small_le_max (by
    rw [abs_of_nonneg hq0]; exact le_trans hq1 (by norm_num)))
  have qu : UnitValue (div (abs n.1) (magXY n)) := by
    refine ⟨qf, by rw [qv]; exact rnd_nonneg hq0, ?_⟩
    have h := rnd_le_valueOf (f := b32) (by decide) (v := valueOf (abs n.1) / valueOf (magXY n)) (x := lit 1 0) (by rw [ov]; exact hq1)
    rw [qv]; rwa [ov] at h
  obtain ⟨tf, tn, t0, t1⟩ := hlib.asin_near _ qu
  have ha0 : 0 ≤ valueOf (lib.asin (div (abs n.1) (magXY n))) / valueOf halfPi32 := div_nonneg t0 pp.le
  have ha1 : valueOf (lib.asin (div (abs n.1) (magXY n))) / valueOf halfPi32 ≤ 1 := (div_le_one pp).mpr t1
  obtain ⟨af, av⟩ := div_value (f := b32) (by decide) tf pf pp.ne' (small_le_max (by
    rw [abs_of_nonneg ha0]; exact le_trans ha1 (by norm_num)))
  refine ⟨af, ?_, ?_⟩
  · rw [angleFrac, av]; exact rnd_nonneg ha0
  · have h := rnd_le_valueOf (f := b32) (by decide)
      (v := valueOf (lib.asin (div (abs n.1) (magXY n))) / valueOf halfPi32) (x := lit 1 0) (by rw [ov]; exact ha1)
    rw [angleFrac, av]; rwa [ov] at h

theorem fromEncoding_eq (lib : Libm) {p : Nat} (hp1 : 1 ≤ p) (c : NormalCode) : normalFromEncoding (ops lib) p c =
    (setSign c.sx (mul (lib.sin (mul (div (ofNat c.asine) (ofNat (2 ^ p - 1))) halfPi32)) (magQ (div (ofNat c.z) (ofNat (2 ^ p - 1))))),
     setSign c.sy (mul (lib.cos (mul (div (ofNat c.asine) (ofNat (2 ^ p - 1))) halfPi32)) (magQ (div (ofNat c.z) (ofNat (2 ^ p - 1))))),
     setSign c.sz (div (ofNat c.z) (ofNat (2 ^ p - 1)))) := by
  rw [normalFromEncoding, if_neg (by omega), withSign_eq lib, FloatOps.one]
  dsimp only
  rw [halfPi_eq]
  rfl

theorem abs_setSign (s : Bool) (x : Val b32) : |valueOf (setSign s x)| = |valueOf x| := by
  rw [(setSign_value s x).2]
  split
  · exact abs_neg _
  · rfl

theorem tiny_unit {x : Val b32} (h : Tiny x) : UnitValue x := ⟨h.1, h.2.1, le_trans h.2.2 (by norm_num)⟩

/-- The distance from the axis if z is next to nothing. -/
theorem magQ_tiny {z : Val b32} (hz : Tiny z) : isFinite (magQ z) = true ∧ |valueOf (magQ z) - 1| ≤ 1 / 2 ^ 20 := by
  obtain ⟨gf, g0, ge⟩ := magQ_value (tiny_unit hz)
  refine ⟨gf, ?_⟩
  obtain ⟨-, z0, z1⟩ := hz
  have z2 : valueOf z ^ 2 ≤ (1 / 2 ^ 31) ^ 2 := pow_le_pow_left₀ z0 z1 2
  have z3 : 0 ≤ valueOf z ^ 2 := sq_nonneg _
  generalize valueOf (magQ z) = g at *
  rw [abs_le] at ge ⊢
  constructor
  · by_contra h
    push Not at h
    have : g ≤ 1 - 1 / 2 ^ 20 := by linarith
    have : g ^ 2 ≤ (1 - 1 / 2 ^ 20) ^ 2 := pow_le_pow_left₀ g0 this 2
    norm_num at *
    linarith
  · by_contra h
    push Not at h
    have : 1 + 1 / 2 ^ 20 ≤ g := by linarith
    have : (1 + 1 / 2 ^ 20) ^ 2 ≤ g ^ 2 := pow_le_pow_left₀ (by norm_num) this 2
    norm_num at *
    linarith

/-- A normal decoded from small codes points along the y axis. -/
theorem normal_collapse {lib : Libm} (hlib : AccurateLibm lib) {p : Nat} (h1 : 32 ≤ p) (h2 : p < 64) {c : NormalCode}
    (ha : c.asine ≤ 2 ^ (p - 32)) (hz : c.z ≤ 2 ^ (p - 32)) :
    |valueOf (normalFromEncoding (ops lib) p c).1| ≤ 1 / 2 ^ 20 ∧
      |(|valueOf (normalFromEncoding (ops lib) p c).2.1| - 1)| ≤ 1 / 2 ^ 18 := by
  rw [fromEncoding_eq lib (by omega)]
  dsimp only
  rw [abs_setSign, abs_setSign]
  have tz := tiny_div32 h1 h2 hz
  have ta := tiny_div32 h1 h2 ha
  obtain ⟨gf, ge⟩ := magQ_tiny tz
  generalize div (ofNat c.z : Val b32) (ofNat (2 ^ p - 1)) = z at *
  obtain ⟨tf, t0, t1, te⟩ := angle_value (tiny_unit ta)
  obtain ⟨-, -, sn, cn, xe, ye⟩ := decoded_value hlib tf t0 t1 (tiny_unit tz)
  obtain ⟨pf, pv⟩ := halfPi_value
  have hA : valueOf (mul (div (ofNat c.asine) (ofNat (2 ^ p - 1))) halfPi32) ≤ 1 / 2 ^ 22 := by
    have : valueOf (div (ofNat c.asine : Val b32) (ofNat (2 ^ p - 1))) * valueOf halfPi32 ≤ 1 / 2 ^ 31 * 2 :=
      mul_le_mul ta.2.2 (by rw [pv]; norm_num) (by rw [pv]; norm_num) (by norm_num)
    have := (abs_le.mp te).2
    linarith [show (1 : ℚ) / 2 ^ 31 * 2 + 1 / 2 ^ 23 ≤ 1 / 2 ^ 22 by norm_num]
  generalize mul (div (ofNat c.asine : Val b32) (ofNat (2 ^ p - 1))) halfPi32 = t at *
  have hT : realOf t ≤ 1 / 2 ^ 22 := by
    have h := (Rat.cast_le (K := ℝ)).mpr hA
    push_cast at h
    exact h
  have hT0 : 0 ≤ realOf t := by rw [realOf]; exact_mod_cast t0
  have s1 := Real.sin_le hT0
  have s0 := Real.sin_nonneg_of_nonneg_of_le_pi hT0 (by linarith [Real.pi_gt_three, show (1 : ℝ) / 2 ^ 22 ≤ 1 by norm_num])
  have k1 := Real.one_sub_sq_div_two_le_cos (x := realOf t)
  have k2 := Real.cos_le_one (realOf t)
  have hg : |realOf (magQ z) - 1| ≤ 1 / 2 ^ 20 := by
    have h := (Rat.cast_le (K := ℝ)).mpr ge
    push_cast at h
    exact h
  have hTT : realOf t ^ 2 ≤ (1 / 2 ^ 22) ^ 2 := pow_le_pow_left₀ hT0 hT 2
  have X : |realOf (mul (lib.sin t) (magQ z))| ≤ 1 / 2 ^ 20 := by
    have hs : |realOf (lib.sin t)| ≤ 1 / 2 ^ 21 := by
      rw [abs_le] at sn ⊢
      norm_num at *
      constructor <;> linarith [sn.1, sn.2]
    have hgg : |realOf (magQ z)| ≤ 3 / 2 := by
      rw [abs_le] at hg ⊢
      norm_num at *
      constructor <;> linarith [hg.1, hg.2]
    have hm : |realOf (lib.sin t) * realOf (magQ z)| ≤ 1 / 2 ^ 21 * (3 / 2) := by
      rw [abs_mul]
      exact mul_le_mul hs hgg (abs_nonneg _) (by norm_num)
    have := abs_sub_abs_le_abs_sub (realOf (mul (lib.sin t) (magQ z))) (realOf (lib.sin t) * realOf (magQ z))
    norm_num at *
    linarith
  have Y : |realOf (mul (lib.cos t) (magQ z)) - 1| ≤ 1 / 2 ^ 18 := by
    have hc : |realOf (lib.cos t) - 1| ≤ 1 / 2 ^ 21 := by
      rw [abs_le] at cn ⊢
      norm_num at *
      constructor <;> linarith [cn.1, cn.2]
    rw [abs_le] at *
    generalize realOf (mul (lib.cos t) (magQ z)) = y at *
    generalize realOf (lib.cos t) = cc at *
    generalize realOf (magQ z) = g at *
    norm_num at *
    have b1 : cc * g ≤ 2097153 / 2097152 * (1048577 / 1048576) :=
      mul_le_mul (by linarith [hc.2]) (by linarith [hg.2]) (by linarith [hg.1]) (by norm_num)
    have b2 : 2097151 / 2097152 * (1048575 / 1048576) ≤ cc * g :=
      mul_le_mul (by linarith [hc.1]) (by linarith [hg.1]) (by norm_num) (by linarith [hc.1])
    constructor <;> linarith [ye.1, ye.2]
  constructor
  · have : ((|valueOf (mul (lib.sin t) (magQ z))| : ℚ) : ℝ) ≤ ((1 / 2 ^ 20 : ℚ) : ℝ) := by
      push_cast
      exact X
    exact Rat.cast_le.mp this
  · have : |valueOf (mul (lib.cos t) (magQ z)) - 1| ≤ 1 / 2 ^ 18 := by
      have : ((|valueOf (mul (lib.cos t) (magQ z)) - 1| : ℚ) : ℝ) ≤ ((1 / 2 ^ 18 : ℚ) : ℝ) := by
        push_cast
        exact Y
      exact Rat.cast_le.mp this
    have hpos : 0 ≤ valueOf (mul (lib.cos t) (magQ z)) := by
      have := (abs_le.mp this).1
      linarith [show (1 : ℚ) / 2 ^ 18 ≤ 1 by norm_num]
    rwa [abs_of_nonneg hpos]

theorem normal_collapse_z {lib : Libm} {p : Nat} (h1 : 32 ≤ p) (h2 : p < 64) {c : NormalCode}
    (hz : c.z ≤ 2 ^ (p - 32)) : |valueOf (normalFromEncoding (ops lib) p c).2.2| ≤ 1 / 2 ^ 31 := by
  rw [fromEncoding_eq lib (by omega)]
  dsimp only
  rw [abs_setSign]
  have tz := tiny_div32 h1 h2 hz
  rw [abs_of_nonneg tz.2.1]
  exact tz.2.2

end Tmf.Ieee
