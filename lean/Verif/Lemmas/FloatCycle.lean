import Verif.Lemmas.Order
import Verif.Lemmas.Decimal
import Verif.Props.CustomPrecision
/-
One cycle of a float array: the ends of the range stay where they are up to the rounding of f64, and the
precision attached on loading asks for one bit more.
-/

set_option exponentiation.threshold 2000

namespace Tmf.Ieee
open Spec

/-- Decoding a code that stands for the f32 number `e`. -/
theorem decode_exact {p c : Nat} (hp1 : 1 ≤ p) (hp : p ≤ 53) {e mn mx : Val b32} {M : ℚ} (he : isFinite e = true)
    (hmn : isFinite mn = true) (hmx : isFinite mx = true)
    (hlt : valueOf mn < valueOf mx) (hM1 : |valueOf mn| ≤ M) (hM2 : |valueOf mx| ≤ M) (hM : M ≤ 2 ^ 120) (hM0 : 1 / 2 ^ 90 ≤ M)
    (c1 : c ≤ 2 ^ p - 1) (hD : (c : ℚ) / (2 ^ p - 1) * (valueOf mx - valueOf mn) + valueOf mn = valueOf e) :
    isFinite (convert (add (mul (div (ofNat c : Val b64) (ofNat (2 ^ p - 1))) (sub (convert mx) (convert mn))) (convert mn)) :
      Val b32) = true ∧
    |valueOf (convert (add (mul (div (ofNat c : Val b64) (ofNat (2 ^ p - 1))) (sub (convert mx) (convert mn))) (convert mn)) :
      Val b32) - valueOf e| ≤ M / 2 ^ 48 := by
  obtain ⟨hD0, hD1⟩ := frac_bounds hp1 c1
  have hm24 : 2 ^ p - 1 ≤ 2 ^ 53 := by
    have : 2 ^ p ≤ 2 ^ 53 := Nat.pow_le_pow_right (by omega) hp
    omega
  have hmc : ((2 ^ p - 1 : Nat) : ℚ) = 2 ^ p - 1 := by
    rw [Nat.cast_sub Nat.one_le_two_pow]; push_cast; rfl
  have hm1 : (1 : ℚ) ≤ 2 ^ p - 1 := by
    have : (2 : ℚ) ^ 1 ≤ 2 ^ p := pow_le_pow_right₀ (by norm_num) hp1
    linarith
  have hcv := ofNat_value64 (c := c) (by omega)
  have hmv := ofNat_value64 hm24
  have hwn := widen_value hmn
  have hwx := widen_value hmx
  have hη64 : (1 : ℚ) / 2 ^ 1075 ≤ 1 / 2 ^ 152 := one_div_le_one_div_of_le (by positivity) (pow_le_pow_right₀ (by norm_num) (by norm_num))
  obtain ⟨hf, herr⟩ := decode_value (f := b64) (by decide) (u := 1 / 2 ^ 53) (η := 1 / 2 ^ 1075) (D := (c : ℚ) / (2 ^ p - 1)) (M := M)
    rfl (by norm_num) rfl (le_trans hη64 (by norm_num)) (o := ofNat 1)
    (by rw [(ofNat_value64 (c := 1) (by norm_num)).2, Nat.cast_one])
    hcv.1 hmv.1 (by rw [hmv.2, hmc]; linarith) (by rw [hcv.2, hmv.2, hmc]) hD0 hD1 hwn.1 hwx.1 (by rw [hwn.2, hwx.2]; exact hlt.le)
    (by rw [hwn.2]; exact hM1) (by rw [hwx.2]; exact hM2)
    (le_trans (by linarith [show (8 : ℚ) * 2 ^ 120 + 8 ≤ 2 ^ 200 by norm_num]) maxV64)
  rw [hwn.2, hwx.2, hD] at herr
  have hbet := between_abs hD0 hD1 hlt.le hM1 hM2
  rw [hD] at hbet
  generalize (add (mul (div (ofNat c : Val b64) (ofNat (2 ^ p - 1))) (sub (convert mx) (convert mn))) (convert mn)) = y64 at *
  have hsmall : |valueOf y64 - valueOf e| ≤ M / 2 ^ 49 := by
    refine le_trans herr ?_
    generalize (1 : ℚ) / 2 ^ 1075 = η at *
    have e1 := mul_le_mul_of_nonneg_right hM0 (show (0 : ℚ) ≤ 1 / 2 ^ 53 by positivity)
    have e2 : (3 : ℚ) * (1 / 2 ^ 152) ≤ 1 / 2 ^ 90 * (1 / 2 ^ 53) := by norm_num
    have e3 : M / 2 ^ 49 = 15 * (1 / 2 ^ 53) * M + M * (1 / 2 ^ 53) := by ring
    linarith
  have hy64 : |valueOf y64| ≤ 2 * M := by
    have := abs_add_le (valueOf y64 - valueOf e) (valueOf e)
    rw [sub_add_cancel] at this
    have hMp : 0 ≤ M := le_trans (abs_nonneg _) hM1
    have : M / 2 ^ 49 ≤ M := div_le_self hMp (by norm_num)
    linarith
  have hfin := convert_value (g := b32) (by decide) hf (by
    refine le_trans hy64 (le_trans ?_ maxV32)
    linarith [show (2 : ℚ) * 2 ^ 120 ≤ 2 ^ 127 by norm_num])
  refine ⟨hfin.1, ?_⟩
  rw [hfin.2]
  have hn := rnd_nearest (f := b32) (by decide) (valueOf y64) he
  rw [abs_sub_comm (valueOf e)] at hn
  have := abs_sub_le (rnd b32 (valueOf y64)) (valueOf y64) (valueOf e)
  have e1 : M / 2 ^ 48 = M / 2 ^ 49 + M / 2 ^ 49 := by ring
  linarith

/-- The largest and the smallest number of an array stored in up to 24 bits. -/
theorem float_ends {p : Nat} (hp1 : 1 ≤ p) (hp : p ≤ 24) {x mn mx : Val b32} {M : ℚ} (hx : isFinite x = true)
    (hmn : isFinite mn = true) (hmx : isFinite mx = true)
    (hlt : valueOf mn < valueOf mx) (hM1 : |valueOf mn| ≤ M) (hM2 : |valueOf mx| ≤ M) (hM : M ≤ 2 ^ 120) (hM0 : 1 / 2 ^ 90 ≤ M) :
    (valueOf x = valueOf mx → isFinite (floatQ p mn mx x) = true ∧ |valueOf (floatQ p mn mx x) - valueOf mx| ≤ M / 2 ^ 48) ∧
    (valueOf x = valueOf mn → isFinite (floatQ p mn mx x) = true ∧ |valueOf (floatQ p mn mx x) - valueOf mn| ≤ M / 2 ^ 48) := by
  have hP : 0 < b32.prec := by decide
  have hmax : valueOf mx - valueOf mn ≤ 2 ^ 127 := by
    rw [abs_le] at hM1 hM2
    linarith [show (2 : ℚ) ^ 120 + 2 ^ 120 ≤ 2 ^ 127 by norm_num]
  have hS0 : 0 < valueOf mx - valueOf mn := by linarith
  have hspan := sub_value (f := b32) hP hmx hmn (by rw [abs_of_nonneg hS0.le]; exact le_trans hmax maxV32)
  have hpos : 0 < valueOf (sub mx mn) := by
    rw [hspan.2]
    have := abs_le.mp (span_error hlt.le)
    linarith [mul_lt_mul_of_pos_right (show (1 : ℚ) / 2 ^ 24 < 1 by norm_num) hS0]
  have hm24 : 2 ^ p - 1 ≤ 2 ^ 24 := by
    have : 2 ^ p ≤ 2 ^ 24 := Nat.pow_le_pow_right (by omega) hp
    omega
  have hmv := ofNat_value hm24
  have hmc : ((2 ^ p - 1 : Nat) : ℚ) = 2 ^ p - 1 := by
    rw [Nat.cast_sub Nat.one_le_two_pow]; push_cast; rfl
  have hm1 : (1 : ℚ) ≤ 2 ^ p - 1 := by
    have : (2 : ℚ) ^ 1 ≤ 2 ^ p := pow_le_pow_right₀ (by norm_num) hp1
    linarith
  constructor
  · intro he
    have hsub := sub_value (f := b32) hP hx hmn (by rw [he, abs_of_nonneg hS0.le]; exact le_trans hmax maxV32)
    have hes : valueOf (sub x mn) = valueOf (sub mx mn) := by rw [hsub.2, hspan.2, he]
    have hone := ofNat_value (c := 1) (by norm_num)
    have hq := div_value hP hsub.1 hspan.1 hpos.ne' (by
      rw [hes, div_self hpos.ne', abs_one]; exact le_trans (by norm_num) maxV32)
    rw [hes, div_self hpos.ne', one_le_rnd hP (by rw [hone.2, Nat.cast_one])] at hq
    obtain ⟨hf, hv, -, hlt'⟩ := unit_code_low hp (q := div (sub x mn) (sub mx mn)) ⟨hq.1, by rw [hq.2]; norm_num, by rw [hq.2]⟩
    rw [hq.2, one_mul, ← hmv.2, rnd_valueOf hP, hmv.2] at hv
    obtain ⟨t1, t2⟩ := toU64_value hf (by rw [hv]; positivity) (by rw [hv]; exact lt_of_le_of_lt (by exact_mod_cast hm24) (by norm_num : (2 : ℚ) ^ 24 < 2 ^ 64))
    rw [hv] at t1 t2
    have hc : toU64 (mul (div (sub x mn) (sub mx mn)) (ofNat (2 ^ p - 1))) = 2 ^ p - 1 := by
      have a : toU64 (mul (div (sub x mn) (sub mx mn)) (ofNat (2 ^ p - 1))) ≤ 2 ^ p - 1 := by exact_mod_cast t1
      have c : 2 ^ p - 1 < toU64 (mul (div (sub x mn) (sub mx mn)) (ofNat (2 ^ p - 1))) + 1 := by exact_mod_cast t2
      omega
    rw [floatQ, Nat.mod_eq_of_lt hlt', hc]
    refine decode_exact hp1 (by omega) hmx hmn hmx hlt hM1 hM2 hM hM0 (le_refl _) ?_
    rw [hmc, div_self (by linarith), one_mul, sub_add_cancel]
  · intro he
    have hsub := sub_value (f := b32) hP hx hmn (by rw [he, sub_self, abs_zero]; exact le_trans (by positivity) maxV32)
    rw [he, sub_self, rnd_zero hP] at hsub
    have hq := div_value hP hsub.1 hspan.1 hpos.ne' (by
      rw [hsub.2, zero_div, abs_zero]; exact le_trans (by positivity) maxV32)
    rw [hsub.2, zero_div, rnd_zero hP] at hq
    obtain ⟨hf, hv, -, hlt'⟩ := unit_code_low hp (q := div (sub x mn) (sub mx mn)) ⟨hq.1, by rw [hq.2], by rw [hq.2]; norm_num⟩
    rw [hq.2, zero_mul, rnd_zero hP] at hv
    obtain ⟨t1, -⟩ := toU64_value hf (by rw [hv]) (by rw [hv]; positivity)
    rw [hv] at t1
    have hc : toU64 (mul (div (sub x mn) (sub mx mn)) (ofNat (2 ^ p - 1))) = 0 := by
      have a : toU64 (mul (div (sub x mn) (sub mx mn)) (ofNat (2 ^ p - 1))) ≤ 0 := by exact_mod_cast t1
      omega
    rw [floatQ, Nat.mod_eq_of_lt hlt', hc]
    refine decode_exact hp1 (by omega) hmn hmn hmx hlt hM1 hM2 hM hM0 (Nat.zero_le _) ?_
    rw [Nat.cast_zero, zero_div, zero_mul, zero_add]

/-! ### The precision attached on loading -/

theorem rel32 {v : ℚ} (h : 1 / 2 ^ 120 ≤ v) : v * (1 - 1 / 2 ^ 23) ≤ rnd b32 v ∧ rnd b32 v ≤ v * (1 + 1 / 2 ^ 23) := by
  have h0 : 0 ≤ v := le_trans (by positivity) h
  have e := abs_le.mp (rnd32_error v)
  rw [abs_of_nonneg h0] at e
  have e1 : (1 : ℚ) / 2 ^ 150 ≤ v * (1 / 2 ^ 24) := le_trans (by norm_num) (mul_le_mul_of_nonneg_right h (by positivity))
  have e2 : v / 2 ^ 23 = v * (1 / 2 ^ 24) + v * (1 / 2 ^ 24) := by ring
  constructor <;> linarith

theorem rel64 {v : ℚ} (h : 1 / 2 ^ 120 ≤ v) : v * (1 - 1 / 2 ^ 23) ≤ rnd b64 v ∧ rnd b64 v ≤ v * (1 + 1 / 2 ^ 23) := by
  have h0 : 0 ≤ v := le_trans (by positivity) h
  have e := abs_le.mp (rnd_error (f := b64) (by decide) v)
  rw [abs_of_nonneg h0, show b64.prec = 53 from rfl, show b64.scale = 1074 from rfl] at e
  have e0 : (1 : ℚ) / 2 ^ (1074 + 1) ≤ 1 / 2 ^ 150 := one_div_le_one_div_of_le (by positivity) (pow_le_pow_right₀ (by norm_num) (by norm_num))
  have e1 : (1 : ℚ) / 2 ^ 150 ≤ v * (1 / 2 ^ 24) := le_trans (by norm_num) (mul_le_mul_of_nonneg_right h (by positivity))
  have e2 : v / 2 ^ 23 = v * (1 / 2 ^ 24) + v * (1 / 2 ^ 24) := by ring
  have e3 : v / 2 ^ 53 ≤ v * (1 / 2 ^ 24) := by
    rw [div_eq_mul_one_div]; exact mul_le_mul_of_nonneg_left (by norm_num) h0
  generalize (1 : ℚ) / 2 ^ (1074 + 1) = η at *
  constructor <;> linarith

theorem shrink_exact : isFinite (lit 99999 5 : Val b32) = true ∧ valueOf (lit 99999 5 : Val b32) = 16777048 / 2 ^ 24 := by
  rw [show (lit 99999 5 : Val b32) = .fin false (16777048 * 2 ^ 125) (by decide +kernel) by decide +kernel, Props.valueOf_pos,
    show b32.scale = 149 from rfl]
  exact ⟨rfl, by norm_num⟩

/-- The precision attached to an array of the range `S` stored in `p` bits: a little less than `S / 2^p`. -/
theorem loaded_precision {p : Nat} (hp : p ≤ 24) {mn mx : Val b32} (hmn : isFinite mn = true) (hmx : isFinite mx = true)
    (hS : 1 / 2 ^ 80 ≤ valueOf mx - valueOf mn) (hS1 : valueOf mx - valueOf mn ≤ 2 ^ 121) :
    isFinite (Props.floatPrec32 mn mx p) = true ∧
    (valueOf mx - valueOf mn) / 2 ^ p * (999989 / 1000000) ≤ valueOf (Props.floatPrec32 mn mx p) ∧
    valueOf (Props.floatPrec32 mn mx p) ≤ (valueOf mx - valueOf mn) / 2 ^ p * (999991 / 1000000) := by
  have wn := widen_value hmn
  have wx := widen_value hmx
  have big : (2 : ℚ) ^ 123 ≤ maxV b64 := le_trans (pow_le_pow_right₀ (by norm_num) (by norm_num)) maxV64
  have big32 : (2 : ℚ) ^ 124 ≤ maxV b32 := le_trans (pow_le_pow_right₀ (by norm_num) (by norm_num)) maxV32
  have hS0 : 0 < valueOf mx - valueOf mn := lt_of_lt_of_le (by positivity) hS
  have s := sub_value (f := b64) (by decide) wx.1 wn.1 (by
    rw [wx.2, wn.2, abs_of_pos hS0]; exact le_trans hS1 (le_trans (by norm_num) big))
  rw [wx.2, wn.2] at s
  have rs := rel64 (le_trans (by norm_num) hS)
  rw [← s.2] at rs
  have hp24 : (2 : ℚ) ^ p ≤ 2 ^ 24 := pow_le_pow_right₀ (by norm_num) hp
  have hp0 : (1 : ℚ) ≤ 2 ^ p := one_le_pow₀ (by norm_num)
  have hm := ofNat_value64 (c := 2 ^ p) (Nat.pow_le_pow_right (by omega) (by omega))
  rw [Nat.cast_pow, Nat.cast_ofNat] at hm
  rw [Props.floatPrec32]
  generalize valueOf mx - valueOf mn = S at *
  generalize (sub (convert mx) (convert mn) : Val b64) = s64 at *
  generalize (2 : ℚ) ^ p = m at *
  have hm0 : 0 < m := by linarith
  have dlo : S / m * (1 - 1 / 2 ^ 23) ≤ valueOf s64 / m := by
    rw [div_mul_eq_mul_div]; exact div_le_div_of_nonneg_right rs.1 hm0.le
  have dhi : valueOf s64 / m ≤ S / m * (1 + 1 / 2 ^ 23) := by
    rw [div_mul_eq_mul_div]; exact div_le_div_of_nonneg_right rs.2 hm0.le
  have qlo : 1 / 2 ^ 104 ≤ S / m := by
    rw [le_div_iff₀ hm0]
    calc 1 / 2 ^ 104 * m ≤ 1 / 2 ^ 104 * 2 ^ 24 := mul_le_mul_of_nonneg_left hp24 (by positivity)
      _ = 1 / 2 ^ 80 := by norm_num
      _ ≤ S := hS
  have qhi : S / m ≤ 2 ^ 121 := le_trans (div_le_self hS0.le hp0) hS1
  generalize S / m = Q at *
  have hQ : 0 < Q := lt_of_lt_of_le (by positivity) qlo
  have k1 : Q * (1 / 2) ≤ Q * (1 - 1 / 2 ^ 23) := mul_le_mul_of_nonneg_left (by norm_num) hQ.le
  have k2 : Q * (1 + 1 / 2 ^ 23) ≤ Q * 2 := mul_le_mul_of_nonneg_left (by norm_num) hQ.le
  have n1 : (1 : ℚ) / 2 ^ 104 * (1 / 2) = 1 / 2 ^ 105 := by norm_num
  have n2 : (2 : ℚ) ^ 121 * 2 = 2 ^ 122 := by norm_num
  have vlo : 1 / 2 ^ 105 ≤ valueOf s64 / m := by linarith
  have vhi : valueOf s64 / m ≤ 2 ^ 122 := by linarith
  have d := div_value (f := b64) (by decide) s.1 hm.1 (by rw [hm.2]; exact hm0.ne') (by
    rw [hm.2, abs_of_pos (lt_of_lt_of_le (by positivity) vlo)]; exact le_trans vhi (le_trans (by norm_num) big))
  rw [hm.2] at d
  have rd := rel64 (le_trans (by norm_num) vlo)
  rw [← d.2] at rd
  generalize valueOf s64 / m = v at *
  generalize (div s64 (ofNat (2 ^ p)) : Val b64) = d64 at *
  have k3 : v * (1 / 2) ≤ v * (1 - 1 / 2 ^ 23) := mul_le_mul_of_nonneg_left (by norm_num) (le_trans (by positivity) vlo)
  have k4 : v * (1 + 1 / 2 ^ 23) ≤ v * 2 := mul_le_mul_of_nonneg_left (by norm_num) (le_trans (by positivity) vlo)
  have n3 : (1 : ℚ) / 2 ^ 105 * (1 / 2) = 1 / 2 ^ 106 := by norm_num
  have n4 : (2 : ℚ) ^ 122 * 2 = 2 ^ 123 := by norm_num
  have wlo : 1 / 2 ^ 106 ≤ valueOf d64 := by linarith
  have whi : valueOf d64 ≤ 2 ^ 123 := by linarith
  have c := convert_value (g := b32) (by decide) d.1 (by
    rw [abs_of_pos (lt_of_lt_of_le (by positivity) wlo)]; exact le_trans whi (le_trans (by norm_num) big32))
  have rc := rel32 (le_trans (by norm_num) wlo)
  rw [← c.2] at rc
  generalize valueOf d64 = w at *
  generalize (convert d64 : Val b32) = c32 at *
  have k5 : w * (1 / 2) ≤ w * (1 - 1 / 2 ^ 23) := mul_le_mul_of_nonneg_left (by norm_num) (le_trans (by positivity) wlo)
  have k6 : w * (1 + 1 / 2 ^ 23) ≤ w * 2 := mul_le_mul_of_nonneg_left (by norm_num) (le_trans (by positivity) wlo)
  have n5 : (1 : ℚ) / 2 ^ 106 * (1 / 2) = 1 / 2 ^ 107 := by norm_num
  have n6 : (2 : ℚ) ^ 123 * 2 = 2 ^ 124 := by norm_num
  have xlo : 1 / 2 ^ 107 ≤ valueOf c32 := by linarith
  have xhi : valueOf c32 ≤ 2 ^ 124 := by linarith
  have hx0 : 0 < valueOf c32 := lt_of_lt_of_le (by positivity) xlo
  have ylo : valueOf c32 * (1 / 2) ≤ valueOf c32 * (16777048 / 2 ^ 24) := mul_le_mul_of_nonneg_left (by norm_num) hx0.le
  have yhi : valueOf c32 * (16777048 / 2 ^ 24) ≤ valueOf c32 * 1 := mul_le_mul_of_nonneg_left (by norm_num) hx0.le
  have n7 : (1 : ℚ) / 2 ^ 107 * (1 / 2) = 1 / 2 ^ 108 := by norm_num
  have y0 : 1 / 2 ^ 108 ≤ valueOf c32 * (16777048 / 2 ^ 24) := by linarith
  have y := mul_value (f := b32) (by decide) c.1 shrink_exact.1 (by
    rw [shrink_exact.2, abs_of_pos (lt_of_lt_of_le (by positivity) y0)]; linarith)
  rw [shrink_exact.2] at y
  have ry := rel32 (le_trans (by norm_num) y0)
  rw [← y.2] at ry
  refine ⟨y.1, ?_, ?_⟩
  · generalize valueOf (mul c32 (lit 99999 5)) = z at *
    generalize valueOf c32 = x at *
    norm_num at *
    linarith
  · generalize valueOf (mul c32 (lit 99999 5)) = z at *
    generalize valueOf c32 = x at *
    norm_num at *
    linarith

/-- The next width is one larger. -/
theorem bits_grow {lib : Libm} (hlog : AccurateLog2 lib) {data : List (Val b32)} {prec : Val b32} {lo hi S : ℚ} {p : Nat} (he : Extent data lo hi)
    (hlo : |lo| ≤ 2 ^ 120) (hhi : |hi| ≤ 2 ^ 120) (hf : isFinite prec = true) (hS0 : 0 < S) (hp : p ≤ 24)
    (h1 : S / 2 ^ p * (999989 / 1000000) ≤ valueOf prec) (h2 : valueOf prec ≤ S / 2 ^ p * (999991 / 1000000))
    (s1 : S * (1 - 1 / 2 ^ 22) ≤ hi - lo) (s2 : hi - lo ≤ S * (1 + 1 / 2 ^ 22)) :
    floatPrec (ops lib) data prec = p + 1 := by
  have hp0 : (0 : ℚ) < 2 ^ p := by positivity
  have hp24 : (2 : ℚ) ^ p ≤ 2 ^ 24 := pow_le_pow_right₀ (by norm_num) hp
  have hQ : 0 < S / 2 ^ p := div_pos hS0 hp0
  have e : S = 2 ^ p * (S / 2 ^ p) := by rw [mul_div_cancel₀ _ hp0.ne']
  have hP : 0 < valueOf prec := lt_of_lt_of_le (by positivity) h1
  have hlt : lo < hi := by
    have : S * (1 / 2) ≤ S * (1 - 1 / 2 ^ 22) := mul_le_mul_of_nonneg_left (by norm_num) hS0.le
    linarith
  have up : (hi - lo) / valueOf prec ≤ 2 ^ p * (1 + 12 / 1000000) := by
    rw [div_le_iff₀ hP]
    have a := mul_le_mul_of_nonneg_left h1 (show (0 : ℚ) ≤ 2 ^ p * (1 + 12 / 1000000) by positivity)
    have c : 2 ^ p * (1 + 12 / 1000000) * (S / 2 ^ p * (999989 / 1000000)) = S * ((1 + 12 / 1000000) * (999989 / 1000000)) := by
      rw [show (2 : ℚ) ^ p * (1 + 12 / 1000000) * (S / 2 ^ p * (999989 / 1000000)) =
        2 ^ p * (S / 2 ^ p) * ((1 + 12 / 1000000) * (999989 / 1000000)) by ring, ← e]
    rw [c] at a
    have d := mul_le_mul_of_nonneg_left (show (1 + 1 / 2 ^ 22 : ℚ) ≤ (1 + 12 / 1000000) * (999989 / 1000000) by norm_num) hS0.le
    linarith
  have down : 2 ^ p * (1 + 87 / 10000000) ≤ (hi - lo) / valueOf prec := by
    rw [le_div_iff₀ hP]
    have a := mul_le_mul_of_nonneg_left h2 (show (0 : ℚ) ≤ 2 ^ p * (1 + 87 / 10000000) by positivity)
    have c : 2 ^ p * (1 + 87 / 10000000) * (S / 2 ^ p * (999991 / 1000000)) = S * ((1 + 87 / 10000000) * (999991 / 1000000)) := by
      rw [show (2 : ℚ) ^ p * (1 + 87 / 10000000) * (S / 2 ^ p * (999991 / 1000000)) =
        2 ^ p * (S / 2 ^ p) * ((1 + 87 / 10000000) * (999991 / 1000000)) by ring, ← e]
    rw [c] at a
    have d := mul_le_mul_of_nonneg_left (show (1 + 87 / 10000000 : ℚ) * (999991 / 1000000) ≤ 1 - 1 / 2 ^ 22 by norm_num) hS0.le
    linarith
  obtain ⟨g1, g2, g3⟩ := Props.float_bits hlog he hlt hlo hhi hf hP (by
    refine le_trans up (le_trans (mul_le_mul_of_nonneg_right hp24 (by norm_num)) (by norm_num)))
  generalize floatPrec (ops lib) data prec = w at *
  rcases Nat.lt_trichotomy w (p + 1) with h | h | h
  · exfalso
    have : (2 : ℚ) ^ w ≤ 2 ^ p := pow_le_pow_right₀ (by norm_num) (by omega)
    generalize (2 : ℚ) ^ w = a at *
    generalize (2 : ℚ) ^ p = c at *
    norm_num at g2
    linarith
  · exact h
  · exfalso
    have g := g3 (by omega)
    have : (2 : ℚ) ^ (p + 1) ≤ 2 ^ (w - 1) := pow_le_pow_right₀ (by norm_num) (by omega)
    rw [pow_succ] at this
    generalize (2 : ℚ) ^ (w - 1) = a at *
    generalize (2 : ℚ) ^ p = c at *
    norm_num at g
    linarith

/-- The range after one cycle, and how far each number moves. -/
theorem float_moved {p : Nat} (hp1 : 1 ≤ p) (hp : p ≤ 24) {data : List (Val b32)} {lo hi N : ℚ} (he : Extent data lo hi) (hlt : lo < hi)
    (hlo : |lo| ≤ N) (hhi : |hi| ≤ N) (hN : N ≤ 2 ^ 120) (hN0 : 1 / 2 ^ 90 ≤ N) :
    (∃ lo' hi', Extent (data.map (floatQ p (rangeOf data).1 (rangeOf data).2)) lo' hi' ∧
      |lo' - lo| ≤ N / 2 ^ 48 ∧ |hi' - hi| ≤ N / 2 ^ 48) ∧
    ∀ x ∈ data, Within ((hi - lo) / (2 ^ p - 1) + N / 2 ^ 19 + 1 / 2 ^ 148) x (floatQ p (rangeOf data).1 (rangeOf data).2 x) := by
  have hlo' := le_trans hlo hN
  have hhi' := le_trans hhi hN
  obtain ⟨m1, m2, v1, v2⟩ := Props.extent_range he hlo' hhi'
  have f1 := he.finite _ m1
  have f2 := he.finite _ m2
  generalize (rangeOf data).1 = mn at *
  generalize (rangeOf data).2 = mx at *
  subst v1 v2
  have e1 := (float_ends hp1 hp f1 f1 f2 hlt hlo hhi hN hN0).2 rfl
  have e2 := (float_ends hp1 hp f2 f1 f2 hlt hlo hhi hN hN0).1 rfl
  refine ⟨⟨_, _, ⟨?_, ⟨_, List.mem_map_of_mem m1, rfl⟩, ⟨_, List.mem_map_of_mem m2, rfl⟩, ?_⟩, e1.2, e2.2⟩, fun x hx => ?_⟩
  · intro y hy
    obtain ⟨x, hx, rfl⟩ := List.mem_map.mp hy
    obtain ⟨a, c⟩ := he.bounds x hx
    exact (floatQ_mono hp1 (by omega) (he.finite x hx) f2 f1 f2 a c (le_refl _) hlt hlo' hhi' (.inl hp)).1
  · intro y hy
    obtain ⟨x, hx, rfl⟩ := List.mem_map.mp hy
    obtain ⟨a, c⟩ := he.bounds x hx
    exact ⟨(floatQ_mono hp1 (by omega) f1 (he.finite x hx) f1 f2 (le_refl _) a c hlt hlo' hhi' (.inl hp)).2.2,
      (floatQ_mono hp1 (by omega) (he.finite x hx) f2 f1 f2 a c (le_refl _) hlt hlo' hhi' (.inl hp)).2.2⟩
  · obtain ⟨a, c⟩ := he.bounds x hx
    exact float_near hp1 hp (he.finite x hx) f1 f2 a c hlt hlo hhi hN

end Tmf.Ieee
