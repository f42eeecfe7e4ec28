import Verif.Lemmas.CoordHigh
import Verif.Lemmas.Collapse
import Verif.Spec.Order
/-
Quantisation keeps the order: codes and decoded numbers are monotone.
-/

set_option exponentiation.threshold 2000

namespace Tmf.Ieee
open Spec

theorem toU64_mono {v w : Val b32} (hv : isFinite v = true) (hw : isFinite w = true) (h0 : 0 ≤ valueOf v)
    (h : valueOf v ≤ valueOf w) (h64 : valueOf w < 2 ^ 64) : toU64 v ≤ toU64 w := by
  obtain ⟨a, -⟩ := toU64_value hv h0 (lt_of_le_of_lt h h64)
  obtain ⟨-, b⟩ := toU64_value hw (le_trans h0 h) h64
  have : (toU64 v : ℚ) < toU64 w + 1 := by linarith
  have : toU64 v < toU64 w + 1 := by exact_mod_cast this
  omega

/-- The code of a number in [0,1] with up to 24 bits. -/
theorem unit_code_low {p : Nat} (hp : p ≤ 24) {q : Val b32} (hq : UnitValue q) :
    isFinite (mul q (ofNat (2 ^ p - 1))) = true ∧
    valueOf (mul q (ofNat (2 ^ p - 1))) = rnd b32 (valueOf q * ((2 ^ p - 1 : Nat) : ℚ)) ∧
    valueOf (mul q (ofNat (2 ^ p - 1))) ≤ ((2 ^ p - 1 : Nat) : ℚ) ∧ toU64 (mul q (ofNat (2 ^ p - 1))) < 2 ^ p := by
  have hP : 0 < b32.prec := by decide
  obtain ⟨q0, q1, q2⟩ := hq
  have hm24 : 2 ^ p - 1 ≤ 2 ^ 24 := by
    have : 2 ^ p ≤ 2 ^ 24 := Nat.pow_le_pow_right (by omega) hp
    omega
  have hm2 : ((2 ^ p - 1 : Nat) : ℚ) ≤ 2 ^ 24 := by exact_mod_cast hm24
  have hm0 : (0 : ℚ) ≤ ((2 ^ p - 1 : Nat) : ℚ) := Nat.cast_nonneg _
  have hmv := ofNat_value hm24
  have hw0 : 0 ≤ valueOf q * valueOf (ofNat (2 ^ p - 1) : Val b32) := by rw [hmv.2]; positivity
  have hwm : valueOf q * valueOf (ofNat (2 ^ p - 1) : Val b32) ≤ valueOf (ofNat (2 ^ p - 1) : Val b32) := by
    rw [hmv.2]; nlinarith
  have hw := mul_value hP q0 hmv.1 (by
    rw [abs_of_nonneg hw0]
    refine le_trans hwm ?_
    rw [hmv.2]
    exact le_trans hm2 (le_trans (by norm_num) maxV32))
  have hwle : valueOf (mul q (ofNat (2 ^ p - 1))) ≤ ((2 ^ p - 1 : Nat) : ℚ) := by
    rw [hw.2, ← hmv.2]
    exact rnd_le_valueOf hP hwm
  have hwnn : 0 ≤ valueOf (mul q (ofNat (2 ^ p - 1))) := by rw [hw.2]; exact rnd_nonneg hw0
  refine ⟨hw.1, by rw [hw.2, hmv.2], hwle, ?_⟩
  obtain ⟨hc1, -⟩ := toU64_value hw.1 hwnn (lt_of_le_of_lt (le_trans hwle hm2) (by norm_num))
  have : toU64 (mul q (ofNat (2 ^ p - 1))) ≤ 2 ^ p - 1 := by exact_mod_cast le_trans hc1 hwle
  have : 1 ≤ 2 ^ p := Nat.one_le_two_pow
  omega

/-- Codes of numbers in [0,1] are monotone; with 25 bits or more, for numbers below 1. -/
theorem unit_code_mono {p : Nat} (hp : p ≤ 31) {q q' : Val b32} (hq : UnitValue q) (hq' : UnitValue q')
    (h : valueOf q ≤ valueOf q') (ht : p ≤ 24 ∨ valueOf q' < 1) :
    toU64 (mul q (ofNat (2 ^ p - 1))) % 2 ^ p ≤ toU64 (mul q' (ofNat (2 ^ p - 1))) % 2 ^ p := by
  rcases Nat.lt_or_ge 24 p with h24 | h24
  · have ht := ht.resolve_left (by omega)
    obtain ⟨c, e, -, -, -, b⟩ := unit_code h24 hp hq
    obtain ⟨c', e', -, -, -, b'⟩ := unit_code h24 hp hq'
    rw [e, e']
    have b := (b (lt_of_le_of_lt h ht)).1
    have b' := (b' ht).2
    have : (2 : ℚ) ^ p * valueOf q ≤ 2 ^ p * valueOf q' := mul_le_mul_of_nonneg_left h (by positivity)
    have : (c : ℚ) < c' + 1 := by linarith
    have : c < c' + 1 := by exact_mod_cast this
    omega
  · obtain ⟨f1, v1, l1, c1⟩ := unit_code_low h24 hq
    obtain ⟨f2, v2, l2, c2⟩ := unit_code_low h24 hq'
    rw [Nat.mod_eq_of_lt c1, Nat.mod_eq_of_lt c2]
    have hm0 : (0 : ℚ) ≤ ((2 ^ p - 1 : Nat) : ℚ) := Nat.cast_nonneg _
    have hm24 : 2 ^ p - 1 ≤ 2 ^ 24 := by
      have : 2 ^ p ≤ 2 ^ 24 := Nat.pow_le_pow_right (by omega) h24
      omega
    have hm2 : ((2 ^ p - 1 : Nat) : ℚ) ≤ 2 ^ 24 := by exact_mod_cast hm24
    refine toU64_mono f1 f2 ?_ ?_ (lt_of_le_of_lt (le_trans l2 hm2) (by norm_num))
    · rw [v1]; exact rnd_nonneg (mul_nonneg hq.2.1 hm0)
    · rw [v1, v2]; exact rnd_mono (by decide) (mul_le_mul_of_nonneg_right h hm0)

/-- The quotient of two numbers from 0 to a positive one is monotone. -/
theorem quotient_mono {t t' size : Val b32} (ht : isFinite t = true) (ht' : isFinite t' = true) (hs : isFinite size = true)
    (h0 : 0 ≤ valueOf t) (h : valueOf t ≤ valueOf t') (hspos : 0 < valueOf size) (hts : valueOf t' ≤ valueOf size) :
    UnitValue (div t size) ∧ UnitValue (div t' size) ∧ valueOf (div t size) ≤ valueOf (div t' size) := by
  have hP : 0 < b32.prec := by decide
  have hmx1 : (1 : ℚ) ≤ maxV b32 := le_trans (by norm_num) maxV32
  have hone := ofNat_value (c := 1) (by norm_num)
  have key : ∀ r : Val b32, isFinite r = true → 0 ≤ valueOf r → valueOf r ≤ valueOf size →
      UnitValue (div r size) ∧ valueOf (div r size) = rnd b32 (valueOf r / valueOf size) := by
    intro r hr hr0 hr1
    have hq1 : valueOf r / valueOf size ≤ 1 := (div_le_one hspos).mpr hr1
    have hq0 : 0 ≤ valueOf r / valueOf size := div_nonneg hr0 hspos.le
    have hq := div_value hP hr hs hspos.ne' (by rw [abs_of_nonneg hq0]; linarith)
    refine ⟨⟨hq.1, by rw [hq.2]; exact rnd_nonneg hq0, ?_⟩, hq.2⟩
    rw [hq.2, ← Nat.cast_one (R := ℚ), ← hone.2]
    exact rnd_le_valueOf hP (by rw [hone.2, Nat.cast_one]; exact hq1)
  obtain ⟨u, e⟩ := key t ht h0 (le_trans h hts)
  obtain ⟨u', e'⟩ := key t' ht' (le_trans h0 h) hts
  refine ⟨u, u', ?_⟩
  rw [e, e']
  exact rnd_mono hP (div_le_div_of_nonneg_right h hspos.le)

/-- The fraction a code stands for. -/
theorem fraction_mono {f : Fmt} (hP : 0 < f.prec) (hmax : (2 : ℚ) ^ 64 ≤ maxV f) {p c c' : Nat} (hp1 : 1 ≤ p) (hp : p ≤ 31)
    (h : c ≤ c') (hc' : c' ≤ 2 ^ p - 1) :
    isFinite (div (ofNat c) (ofNat (2 ^ p - 1)) : Val f) = true ∧ isFinite (div (ofNat c') (ofNat (2 ^ p - 1)) : Val f) = true ∧
    0 ≤ valueOf (div (ofNat c) (ofNat (2 ^ p - 1)) : Val f) ∧
    valueOf (div (ofNat c) (ofNat (2 ^ p - 1)) : Val f) ≤ valueOf (div (ofNat c') (ofNat (2 ^ p - 1)) : Val f) ∧
    valueOf (div (ofNat c') (ofNat (2 ^ p - 1)) : Val f) ≤ 1 := by
  have hpow : 2 ^ p ≤ 2 ^ 31 := Nat.pow_le_pow_right (by omega) hp
  have h2 : 2 ^ 1 ≤ 2 ^ p := Nat.pow_le_pow_right (by omega) hp1
  have big : ∀ n : Nat, n ≤ 2 ^ p - 1 → (n : ℚ) ≤ maxV f := by
    intro n hn
    have : (n : ℚ) ≤ 2 ^ 31 := by exact_mod_cast (show n ≤ 2 ^ 31 by omega)
    linarith [show (2 : ℚ) ^ 31 ≤ 2 ^ 64 by norm_num]
  obtain ⟨cf, cv⟩ := ofNat_rounds hP (f := f) (big c (by omega))
  obtain ⟨cf', cv'⟩ := ofNat_rounds hP (f := f) (big c' hc')
  obtain ⟨mf, mv⟩ := ofNat_rounds hP (f := f) (big _ (le_refl _))
  have mpos : 0 < valueOf (ofNat (2 ^ p - 1) : Val f) := by
    rw [mv]
    have : (1 : ℚ) ≤ ((2 ^ p - 1 : Nat) : ℚ) := by exact_mod_cast (show 1 ≤ 2 ^ p - 1 by omega)
    have := rnd_mono hP (f := f) this
    have e := rnd_pow hP (f := f) 0
    rw [pow_zero] at e
    linarith
  have key : ∀ n : Nat, n ≤ 2 ^ p - 1 → isFinite (div (ofNat n) (ofNat (2 ^ p - 1)) : Val f) = true ∧
      valueOf (div (ofNat n) (ofNat (2 ^ p - 1)) : Val f) = rnd f (rnd f n / valueOf (ofNat (2 ^ p - 1) : Val f)) ∧
      0 ≤ rnd f n / valueOf (ofNat (2 ^ p - 1) : Val f) ∧ rnd f n / valueOf (ofNat (2 ^ p - 1) : Val f) ≤ 1 := by
    intro n hn
    obtain ⟨nf, nv⟩ := ofNat_rounds hP (f := f) (big n hn)
    have q0 : 0 ≤ rnd f n / valueOf (ofNat (2 ^ p - 1) : Val f) := div_nonneg (rnd_nonneg (Nat.cast_nonneg _)) mpos.le
    have q1 : rnd f n / valueOf (ofNat (2 ^ p - 1) : Val f) ≤ 1 := by
      rw [div_le_one mpos, mv]
      exact rnd_mono hP (by exact_mod_cast hn)
    have hq := div_value hP nf mf mpos.ne' (by
      rw [nv, abs_of_nonneg q0]; linarith [show (1 : ℚ) ≤ 2 ^ 64 by norm_num])
    exact ⟨hq.1, by rw [hq.2, nv], q0, q1⟩
  obtain ⟨f1, v1, p1, -⟩ := key c (by omega)
  obtain ⟨f2, v2, -, o2⟩ := key c' hc'
  refine ⟨f1, f2, by rw [v1]; exact rnd_nonneg p1, ?_, ?_⟩
  · rw [v1, v2]
    exact rnd_mono hP (div_le_div_of_nonneg_right (rnd_mono hP (by exact_mod_cast h)) mpos.le)
  · rw [v2]
    have := rnd_mono hP (f := f) o2
    have e := rnd_pow hP (f := f) 0
    rw [pow_zero] at e
    linarith

/-- Decoding a code in a range is monotone. -/
theorem decode_mono {f : Fmt} (hP : 0 < f.prec) (hmax : (2 : ℚ) ^ 127 ≤ maxV f) {p c c' : Nat} (hp1 : 1 ≤ p) (hp : p ≤ 31)
    (h : c ≤ c') (hc' : c' ≤ 2 ^ p - 1) {mn mx : Val f} (hmn : isFinite mn = true) (hmx : isFinite mx = true)
    (hle : valueOf mn ≤ valueOf mx) (hM1 : |valueOf mn| ≤ 2 ^ 120) (hM2 : |valueOf mx| ≤ 2 ^ 120) :
    isFinite (add (mul (div (ofNat c) (ofNat (2 ^ p - 1))) (sub mx mn)) mn : Val f) = true ∧
    isFinite (add (mul (div (ofNat c') (ofNat (2 ^ p - 1))) (sub mx mn)) mn : Val f) = true ∧
    valueOf (add (mul (div (ofNat c) (ofNat (2 ^ p - 1))) (sub mx mn)) mn : Val f) ≤
      valueOf (add (mul (div (ofNat c') (ofNat (2 ^ p - 1))) (sub mx mn)) mn : Val f) ∧
    |valueOf (add (mul (div (ofNat c) (ofNat (2 ^ p - 1))) (sub mx mn)) mn : Val f)| ≤ 2 ^ 122 ∧
    |valueOf (add (mul (div (ofNat c') (ofNat (2 ^ p - 1))) (sub mx mn)) mn : Val f)| ≤ 2 ^ 122 := by
  obtain ⟨f1, f2, q0, qle, q1⟩ := fraction_mono hP (le_trans (by norm_num) hmax) hp1 hp h hc'
  have a1 := abs_le.mp hM1
  have a2 := abs_le.mp hM2
  have hS0 : 0 ≤ valueOf mx - valueOf mn := by linarith
  have hS1 : valueOf mx - valueOf mn ≤ 2 ^ 121 := by linarith [show (2 : ℚ) ^ 120 + 2 ^ 120 = 2 ^ 121 by norm_num]
  have hsp := sub_value hP hmx hmn (by
    rw [abs_of_nonneg hS0]; exact le_trans hS1 (le_trans (by norm_num) hmax))
  have s0 : 0 ≤ valueOf (sub mx mn) := by rw [hsp.2]; exact rnd_nonneg hS0
  have s1 : valueOf (sub mx mn) ≤ 2 ^ 121 := by
    rw [hsp.2, ← rnd_pow hP (f := f)]; exact rnd_mono hP hS1
  have key : ∀ q : Val f, isFinite q = true → 0 ≤ valueOf q → valueOf q ≤ 1 →
      isFinite (add (mul q (sub mx mn)) mn) = true ∧
      valueOf (add (mul q (sub mx mn)) mn) = rnd f (rnd f (valueOf q * valueOf (sub mx mn)) + valueOf mn) ∧
      |valueOf (add (mul q (sub mx mn)) mn)| ≤ 2 ^ 122 := by
    intro q qf h0 h1
    have w0 : 0 ≤ valueOf q * valueOf (sub mx mn) := mul_nonneg h0 s0
    have w1 : valueOf q * valueOf (sub mx mn) ≤ 2 ^ 121 := le_trans (mul_le_of_le_one_left s0 h1) s1
    have hw := mul_value hP qf hsp.1 (by
      rw [abs_of_nonneg w0]; exact le_trans w1 (le_trans (by norm_num) hmax))
    have r0 : 0 ≤ rnd f (valueOf q * valueOf (sub mx mn)) := rnd_nonneg w0
    have r1 : rnd f (valueOf q * valueOf (sub mx mn)) ≤ 2 ^ 121 := by
      rw [← rnd_pow hP (f := f)]; exact rnd_mono hP w1
    have hb : |rnd f (valueOf q * valueOf (sub mx mn)) + valueOf mn| ≤ 2 ^ 122 := by
      rw [abs_le]
      constructor <;> linarith [show (2 : ℚ) ^ 120 + 2 ^ 121 ≤ 2 ^ 122 by norm_num, show (2 : ℚ) ^ 120 ≤ 2 ^ 122 by norm_num]
    have ha := add_value hP hw.1 hmn (by
      rw [hw.2]; exact le_trans hb (le_trans (by norm_num) hmax))
    rw [hw.2] at ha
    refine ⟨ha.1, ha.2, ?_⟩
    rw [ha.2]
    have hb := abs_le.mp hb
    have e := rnd_pow hP (f := f) 122
    rw [abs_le]
    constructor
    · have := rnd_mono hP (f := f) hb.1
      rw [rnd_neg hP, e] at this
      exact this
    · have := rnd_mono hP (f := f) hb.2
      rw [e] at this
      exact this
  obtain ⟨g1, v1, b1⟩ := key _ f1 q0 (le_trans qle q1)
  obtain ⟨g2, v2, b2⟩ := key _ f2 (le_trans q0 qle) q1
  refine ⟨g1, g2, ?_, b1, b2⟩
  rw [v1, v2]
  have := rnd_mono hP (f := f) (mul_le_mul_of_nonneg_right qle s0)
  exact rnd_mono hP (by linarith)

/-! ### The quantisers -/

theorem unitQ_mono {p : Nat} (hp1 : 1 ≤ p) (hp : p ≤ 31) {x y : Val b32} (hx : UnitValue x) (hy : UnitValue y)
    (h : valueOf x ≤ valueOf y) (ht : p ≤ 24 ∨ valueOf y < 1) :
    isFinite (unitQ p x) = true ∧ isFinite (unitQ p y) = true ∧ valueOf (unitQ p x) ≤ valueOf (unitQ p y) := by
  have hc := unit_code_mono hp hx hy h ht
  have h2 : 1 ≤ 2 ^ p := Nat.one_le_two_pow
  obtain ⟨a, b, -, c, -⟩ := fraction_mono (f := b32) (by decide) max32_64 hp1 hp hc
    (Nat.le_sub_one_of_lt (Nat.mod_lt _ (by omega)))
  exact ⟨a, b, c⟩

theorem channel_mono (lib : Libm) {p : Nat} (hp1 : 1 ≤ p) (hp : p ≤ 31) {x y : Val b32} (hx : UnitValue x) (hy : UnitValue y)
    (h : valueOf x ≤ valueOf y) (ht : p ≤ 24 ∨ valueOf y < 1) :
    isFinite (quantChannel (ops lib) p x) = true ∧ isFinite (quantChannel (ops lib) p y) = true ∧
    valueOf (quantChannel (ops lib) p x) ≤ valueOf (quantChannel (ops lib) p y) := by
  have hc := unit_code_mono hp hx hy h ht
  have h2 : 1 ≤ 2 ^ p := Nat.one_le_two_pow
  obtain ⟨a, b, z, c, o⟩ := fraction_mono (f := b64) (by decide) max64_64 hp1 hp hc
    (Nat.le_sub_one_of_lt (Nat.mod_lt _ (by omega)))
  have big : (1 : ℚ) ≤ maxV b32 := le_trans (by norm_num) maxV32
  rw [quantChannel, quantChannel, channelOfCode, channelOfCode, ops_ofD lib, ops_dDiv lib, ops_dOfNat lib, ops_toU64 lib,
    ops_mul lib, ops_ofNat lib]
  have u := convert_value (g := b32) (by decide) a (by rw [abs_of_nonneg z]; linarith)
  have v := convert_value (g := b32) (by decide) b (by rw [abs_of_nonneg (le_trans z c)]; linarith)
  refine ⟨u.1, v.1, ?_⟩
  rw [u.2, v.2]
  exact rnd_mono (by decide) c

/-- One coordinate of a vertex; with 25 bits or more, the larger one must be below the upper end of a box
that is not narrower than a millionth. -/
theorem coordQ_mono {p : Nat} (hp1 : 1 ≤ p) (hp : p ≤ 31) {x y mn mx : Val b32} (hx : isFinite x = true) (hy : isFinite y = true)
    (hmn : isFinite mn = true) (hmx : isFinite mx = true) (h0 : valueOf mn ≤ valueOf x) (h : valueOf x ≤ valueOf y)
    (h1 : valueOf y ≤ valueOf mx) (hM1 : |valueOf mn| ≤ 2 ^ 120) (hM2 : |valueOf mx| ≤ 2 ^ 120)
    (ht : p ≤ 24 ∨ (1 / 999999 ≤ valueOf mx - valueOf mn ∧
      valueOf y - valueOf mn ≤ (1 - 1 / 2 ^ 21) * (valueOf mx - valueOf mn))) :
    isFinite (coordQ p mn mx x) = true ∧ isFinite (coordQ p mn mx y) = true ∧
    valueOf (coordQ p mn mx x) ≤ valueOf (coordQ p mn mx y) := by
  have hP : 0 < b32.prec := by decide
  have a1 := abs_le.mp hM1
  have a2 := abs_le.mp hM2
  have hS0 : 0 ≤ valueOf mx - valueOf mn := by linarith
  have hS127 : valueOf mx - valueOf mn ≤ 2 ^ 127 := by linarith [show (2 : ℚ) ^ 120 + 2 ^ 120 ≤ 2 ^ 127 by norm_num]
  have hspan := sub_value (f := b32) hP hmx hmn (by rw [abs_of_nonneg hS0]; exact le_trans hS127 maxV32)
  obtain ⟨heps, heps0, heps1⟩ := eps_value
  have hszv := max_value hspan.1 heps
  have hszf : isFinite (sizeOf mn mx) = true := hszv.1
  have hsz : valueOf (sizeOf mn mx) = Max.max (valueOf (sub mx mn)) (valueOf (lit 1 6 : Val b32)) := hszv.2
  have hspos : 0 < valueOf (sizeOf mn mx) := by rw [hsz]; exact lt_max_of_lt_right heps0
  have sx := sub_value (f := b32) hP hx hmn (by
    rw [abs_of_nonneg (by linarith)]; exact le_trans (by linarith) (le_trans hS127 maxV32))
  have sy := sub_value (f := b32) hP hy hmn (by
    rw [abs_of_nonneg (by linarith)]; exact le_trans (by linarith) (le_trans hS127 maxV32))
  obtain ⟨u, u', hq⟩ := quotient_mono sx.1 sy.1 hszf (by rw [sx.2]; exact rnd_nonneg (by linarith))
    (by rw [sx.2, sy.2]; exact rnd_mono hP (by linarith)) hspos
    (by rw [hsz]; refine le_max_of_le_left ?_; rw [sy.2, hspan.2]; exact rnd_mono hP (by linarith))
  have hc := unit_code_mono hp u u' hq (ht.imp id fun ⟨hw, he⟩ => by
    have hge := valueOf_le_rnd hP (x := (lit 1 6 : Val b32)) (v := valueOf mx - valueOf mn) (by linarith)
    rw [← hspan.2] at hge
    have hSpos : 0 < valueOf mx - valueOf mn := lt_of_lt_of_le (by norm_num) hw
    obtain ⟨-, hqe⟩ := quotient_value hy hmn hszf hSpos hS127 (le_trans h0 h) (by linarith)
      (by rw [hsz, max_eq_left hge, hspan.2]) (span_error (by linarith))
    have hF : (valueOf y - valueOf mn) / (valueOf mx - valueOf mn) ≤ 1 - 1 / 2 ^ 21 := by
      rw [div_le_iff₀ hSpos]; exact he
    linarith [(abs_le.mp hqe).2, show (6 : ℚ) / 2 ^ 24 < 1 / 2 ^ 21 by norm_num])
  have h2 : 1 ≤ 2 ^ p := Nat.one_le_two_pow
  obtain ⟨a, b, c, -, -⟩ := decode_mono (f := b32) hP maxV32 hp1 hp hc (Nat.le_sub_one_of_lt (Nat.mod_lt _ (by omega)))
    hmn hmx (by linarith) hM1 hM2
  exact ⟨a, b, c⟩

/-- One number of a float array. -/
theorem floatQ_mono {p : Nat} (hp1 : 1 ≤ p) (hp : p ≤ 31) {x y mn mx : Val b32} (hx : isFinite x = true) (hy : isFinite y = true)
    (hmn : isFinite mn = true) (hmx : isFinite mx = true) (h0 : valueOf mn ≤ valueOf x) (h : valueOf x ≤ valueOf y)
    (h1 : valueOf y ≤ valueOf mx) (hlt : valueOf mn < valueOf mx) (hM1 : |valueOf mn| ≤ 2 ^ 120) (hM2 : |valueOf mx| ≤ 2 ^ 120)
    (ht : p ≤ 24 ∨ valueOf y - valueOf mn ≤ (1 - 1 / 2 ^ 21) * (valueOf mx - valueOf mn)) :
    isFinite (floatQ p mn mx x) = true ∧ isFinite (floatQ p mn mx y) = true ∧
    valueOf (floatQ p mn mx x) ≤ valueOf (floatQ p mn mx y) := by
  have hP : 0 < b32.prec := by decide
  have a1 := abs_le.mp hM1
  have a2 := abs_le.mp hM2
  have hS0 : 0 < valueOf mx - valueOf mn := by linarith
  have hS127 : valueOf mx - valueOf mn ≤ 2 ^ 127 := by linarith [show (2 : ℚ) ^ 120 + 2 ^ 120 ≤ 2 ^ 127 by norm_num]
  have hspan := sub_value (f := b32) hP hmx hmn (by rw [abs_of_nonneg hS0.le]; exact le_trans hS127 maxV32)
  have sx := sub_value (f := b32) hP hx hmn (by
    rw [abs_of_nonneg (by linarith)]; exact le_trans (by linarith) (le_trans hS127 maxV32))
  have sy := sub_value (f := b32) hP hy hmn (by
    rw [abs_of_nonneg (by linarith)]; exact le_trans (by linarith) (le_trans hS127 maxV32))
  have hspos : 0 < valueOf (sub mx mn) := by
    rw [hspan.2]
    have := abs_le.mp (span_error hlt.le)
    linarith [this.1, show (1 : ℚ) / 2 ^ 24 < 1 by norm_num, mul_lt_of_lt_one_left hS0 (show (1 : ℚ) / 2 ^ 24 < 1 by norm_num)]
  obtain ⟨u, u', hq⟩ := quotient_mono sx.1 sy.1 hspan.1 (by rw [sx.2]; exact rnd_nonneg (by linarith))
    (by rw [sx.2, sy.2]; exact rnd_mono hP (by linarith)) hspos
    (by rw [sy.2, hspan.2]; exact rnd_mono hP (by linarith))
  have hc := unit_code_mono hp u u' hq (ht.imp id fun he => by
    obtain ⟨-, hqe⟩ := quotient_value hy hmn hspan.1 hS0 hS127 (le_trans h0 h) (by linarith) hspan.2 (span_error hlt.le)
    have hF : (valueOf y - valueOf mn) / (valueOf mx - valueOf mn) ≤ 1 - 1 / 2 ^ 21 := by
      rw [div_le_iff₀ hS0]; exact he
    linarith [(abs_le.mp hqe).2, show (6 : ℚ) / 2 ^ 24 < 1 / 2 ^ 21 by norm_num])
  have h2 : 1 ≤ 2 ^ p := Nat.one_le_two_pow
  have wn := widen_value hmn
  have wx := widen_value hmx
  obtain ⟨a, b, c, d, e⟩ := decode_mono (f := b64) (by decide) (le_trans (by norm_num) maxV64) hp1 hp hc
    (Nat.le_sub_one_of_lt (Nat.mod_lt _ (by omega))) wn.1 wx.1 (by rw [wn.2, wx.2]; exact hlt.le)
    (by rw [wn.2]; exact hM1) (by rw [wx.2]; exact hM2)
  have big : (2 : ℚ) ^ 122 ≤ maxV b32 := le_trans (by norm_num) maxV32
  have v := convert_value (g := b32) hP a (le_trans d big)
  have w := convert_value (g := b32) hP b (le_trans e big)
  refine ⟨v.1, w.1, ?_⟩
  rw [floatQ, floatQ, v.2, w.2]
  exact rnd_mono hP c

/-! ### Arrays -/

theorem keepsOrder_map {α : Type} {sel : α → Val b32} {ok : α → Prop} {l : List α} {g : α → α}
    (h : ∀ x ∈ l, ∀ y ∈ l, ok x → ok y → valueOf (sel x) ≤ valueOf (sel y) →
      isFinite (sel (g x)) = true ∧ isFinite (sel (g y)) = true ∧ valueOf (sel (g x)) ≤ valueOf (sel (g y))) :
    KeepsOrder sel ok l (l.map g) where
  length := by rw [List.length_map]
  finite := by
    intro i x x' hx hx' ho
    rw [List.getElem?_map, hx] at hx'
    cases hx'
    have hm := List.mem_of_getElem? hx
    exact (h x hm x hm ho ho (le_refl _)).1
  order := by
    intro i j x x' y y' hx hx' hy hy' hox hoy hle
    rw [List.getElem?_map, hx] at hx'
    rw [List.getElem?_map, hy] at hy'
    cases hx'
    cases hy'
    exact (h x (List.mem_of_getElem? hx) y (List.mem_of_getElem? hy) hox hoy hle).2.2

end Tmf.Ieee
