import Verif.Model.FastTrig
import Verif.Lemmas.TrigTaylor
import Verif.Lemmas.NormalAngle
import Verif.Lemmas.LibmWitness
/-
The approximation of the sine of the feature `fast_trig`: how near it is.
-/

set_option exponentiation.threshold 2000

namespace Tmf.Ieee
open Spec PolyBound

/-! ### The polynomial, in real numbers -/

def fastP : List ℚ := [0, 9996919862959676 / 10 ^ 16, 0, -1652891139701474 / 10 ^ 16, 0, 73524681968701 / 10 ^ 16]

def topQ : ℚ := 13176795 / 2 ^ 23

theorem fast_above : good (addP [332 / 10 ^ 6 - 1 / 10 ^ 9] (addP sinP (scaleP (-1) fastP))) 20 0 topQ = true := by decide +kernel
theorem fast_below : good (addP [332 / 10 ^ 6 - 1 / 10 ^ 9] (addP fastP (scaleP (-1) sinP))) 20 0 topQ = true := by decide +kernel
theorem fast_one : good (addP [1 + 1 / 2 ^ 26] (scaleP (-1) fastP)) 20 0 topQ = true := by decide +kernel
theorem fast_end_above :
    good (addP (addP [1 / 10 ^ 8] (scaleP (1 / 1200) cosP)) (addP sinP (scaleP (-1) fastP))) 20 0 topQ = true := by decide +kernel
theorem fast_end_below :
    good (addP (addP [1 / 10 ^ 8] (scaleP (1 / 1200) cosP)) (addP fastP (scaleP (-1) sinP))) 20 0 topQ = true := by decide +kernel

theorem fastP_near {t : ℝ} (h0 : 0 ≤ t) (h1 : t ≤ topQ) :
    |eval fastP t - Real.sin t| ≤ 332 / 10 ^ 6 ∧ eval fastP t ≤ 1 + 1 / 2 ^ 26 ∧
      |eval fastP t - Real.sin t| ≤ 1 / 1200 * |Real.cos t| + 12 / 10 ^ 9 := by
  have h0' : ((0 : ℚ) : ℝ) ≤ t := by push_cast; exact h0
  have ht : t ≤ 8 / 5 := le_trans h1 (by rw [topQ]; norm_num)
  obtain ⟨tc, ts⟩ := taylor h0 ht
  have a1 := good_sound fast_above h0' h1
  have a2 := good_sound fast_below h0' h1
  have a3 := good_sound fast_one h0' h1
  have a4 := good_sound fast_end_above h0' h1
  have a5 := good_sound fast_end_below h0' h1
  have hc := le_abs_self (Real.cos t)
  simp only [eval_addP, eval_scaleP] at a1 a2 a3 a4 a5
  generalize eval fastP t = P at *
  generalize eval sinP t = S at *
  generalize eval cosP t = C at *
  generalize Real.sin t = s at *
  generalize Real.cos t = c at *
  simp only [eval] at a1 a2 a3 a4 a5
  push_cast at a1 a2 a3 a4 a5
  rw [abs_le] at tc ts
  obtain ⟨b1, b2⟩ := tc
  obtain ⟨b3, b4⟩ := ts
  norm_num at *
  refine ⟨?_, ?_, ?_⟩
  · rw [abs_le]; constructor <;> linarith
  · linarith
  · rw [abs_le]; constructor <;> linarith

/-! ### Rounded arithmetic near real arithmetic -/

theorem small_le_max64 {v : ℚ} (h : |v| ≤ 2 ^ 60) : |v| ≤ maxV b64 := le_trans h (le_trans (by norm_num) maxV64)

/-- A finite value within `e` of `v`. -/
def Near64 (x : Val b64) (v e : ℚ) : Prop := isFinite x = true ∧ |valueOf x - v| ≤ e

theorem rnd64_small {v : ℚ} (h : |v| ≤ 15) : |rnd b64 v - v| ≤ 1 / 2 ^ 49 := by
  refine le_trans (rnd64_error v) ?_
  have h1 : (1 : ℚ) / 2 ^ 1075 ≤ 1 / 2 ^ 53 :=
    one_div_le_one_div_of_le (by norm_num) (pow_le_pow_right₀ (by norm_num) (by norm_num))
  have h2 : (1 : ℚ) / 2 ^ 53 * |v| ≤ 1 / 2 ^ 53 * 15 := mul_le_mul_of_nonneg_left h (by norm_num)
  generalize (1 : ℚ) / 2 ^ 1075 = w at *
  norm_num at *
  linarith

theorem near_mul {x y : Val b64} {a b d e : ℚ} (hx : Near64 x a d) (hy : Near64 y b e) (ha : |a| ≤ 3) (hb : |b| ≤ 3)
    (hd : d ≤ 1 / 2) (he : e ≤ 1 / 2) : Near64 (mul x y) (a * b) (4 * d + 3 * e + 1 / 2 ^ 49) := by
  obtain ⟨xf, xn⟩ := hx
  obtain ⟨yf, yn⟩ := hy
  have bx : |valueOf x| ≤ 7 / 2 := by
    have := abs_sub_abs_le_abs_sub (valueOf x) a
    linarith
  have by' : |valueOf y| ≤ 7 / 2 := by
    have := abs_sub_abs_le_abs_sub (valueOf y) b
    linarith
  have hm : |valueOf x * valueOf y| ≤ 15 := by
    rw [abs_mul]
    exact le_trans (mul_le_mul bx by' (abs_nonneg _) (by norm_num)) (by norm_num)
  obtain ⟨mf, mv⟩ := mul_value (f := b64) (by decide) xf yf (small_le_max64 (le_trans hm (by norm_num)))
  refine ⟨mf, ?_⟩
  rw [mv]
  have h1 := rnd64_small hm
  have h2 : |valueOf x * valueOf y - a * b| ≤ 4 * d + 3 * e := by
    have e1 : valueOf x * valueOf y - a * b = (valueOf x - a) * valueOf y + a * (valueOf y - b) := by ring
    rw [e1]
    refine le_trans (abs_add_le _ _) ?_
    rw [abs_mul, abs_mul]
    have := mul_le_mul xn (le_trans by' (show (7 / 2 : ℚ) ≤ 4 by norm_num)) (abs_nonneg _) (le_trans (abs_nonneg _) xn)
    have := mul_le_mul ha yn (abs_nonneg _) (by norm_num)
    linarith
  have := abs_sub_le (rnd b64 (valueOf x * valueOf y)) (valueOf x * valueOf y) (a * b)
  linarith

theorem near_add {x y : Val b64} {a b d e : ℚ} (hx : Near64 x a d) (hy : Near64 y b e) (hab : |a + b| ≤ 14)
    (hd : d ≤ 1 / 2) (he : e ≤ 1 / 2) : Near64 (add x y) (a + b) (d + e + 1 / 2 ^ 49) := by
  obtain ⟨xf, xn⟩ := hx
  obtain ⟨yf, yn⟩ := hy
  have h2 : |valueOf x + valueOf y - (a + b)| ≤ d + e := by
    have e1 : valueOf x + valueOf y - (a + b) = (valueOf x - a) + (valueOf y - b) := by ring
    rw [e1]
    exact le_trans (abs_add_le _ _) (add_le_add xn yn)
  have hm : |valueOf x + valueOf y| ≤ 15 := by
    have := abs_sub_abs_le_abs_sub (valueOf x + valueOf y) (a + b)
    linarith
  obtain ⟨mf, mv⟩ := add_value (f := b64) (by decide) xf yf (small_le_max64 (le_trans hm (by norm_num)))
  refine ⟨mf, ?_⟩
  rw [mv]
  have h1 := rnd64_small hm
  have := abs_sub_le (rnd b64 (valueOf x + valueOf y)) (valueOf x + valueOf y) (a + b)
  linarith

theorem near_sub {x y : Val b64} {a b d e : ℚ} (hx : Near64 x a d) (hy : Near64 y b e) (hab : |a - b| ≤ 14)
    (hd : d ≤ 1 / 2) (he : e ≤ 1 / 2) : Near64 (sub x y) (a - b) (d + e + 1 / 2 ^ 49) := by
  have hn := neg_value y
  have h := near_add (y := neg y) (b := -b) hx (e := e) ⟨by rw [hn.1]; exact hy.1, by
    rw [hn.2, ← neg_sub', abs_neg]; exact hy.2⟩ (by rwa [← sub_eq_add_neg]) hd he
  rw [← sub_eq_add_neg] at h
  exact h

theorem near_lit (m k : Nat) {v : ℚ} (hv : v = m / 10 ^ k) (h : |v| ≤ 15) : Near64 (lit m k) v (1 / 2 ^ 49) := by
  have h' := rounded_value (f := b64) (by decide) false (num := m * 2 ^ b64.scale) (den := 10 ^ k) (v := v) (by positivity) (by
    rw [hv]
    simp only [sgn, Bool.false_eq_true, if_false, one_mul]
    push_cast
    have := (units_pos b64).ne'
    field_simp) (small_le_max64 (le_trans h (by norm_num)))
  refine ⟨h'.1, ?_⟩
  rw [show (lit m k : Val b64) = rounded false (m * 2 ^ b64.scale) (10 ^ k) from rfl, h'.2]
  exact rnd64_small h

theorem Near64.mono {x : Val b64} {v d e : ℚ} (h : Near64 x v d) (hde : d ≤ e) : Near64 x v e := ⟨h.1, le_trans h.2 hde⟩

/-- The polynomial over the rationals. -/
def fastQ (t : ℚ) : ℚ := t * ((73524681968701 / 10 ^ 16 * (t * t) - 1652891139701474 / 10 ^ 16) * (t * t) + 9996919862959676 / 10 ^ 16)

theorem fastQ_cast (t : ℚ) : ((fastQ t : ℚ) : ℝ) = eval fastP t := by
  simp only [fastQ, fastP, eval]
  push_cast
  ring

theorem fsinPoly_value {x : Val b64} (hx : isFinite x = true) (h0 : 0 ≤ valueOf x) (h1 : valueOf x ≤ topQ) :
    Near64 (fsinPoly x) (fastQ (valueOf x)) (1 / 2 ^ 39) ∧ 0 ≤ valueOf (fsinPoly x) := by
  have ht : valueOf x ≤ 1571 / 1000 := le_trans h1 (by rw [topQ]; norm_num)
  have hq0 : 0 ≤ valueOf x * valueOf x := mul_self_nonneg _
  have hq1 : valueOf x * valueOf x ≤ 5 / 2 := by nlinarith
  have nx : Near64 x (valueOf x) 0 := ⟨hx, by simp⟩
  have ny := near_mul nx nx (by rw [abs_of_nonneg h0]; linarith) (by rw [abs_of_nonneg h0]; linarith) (by norm_num) (by norm_num)
  have l1 := near_lit 73524681968701 16 (v := 73524681968701 / 10 ^ 16) (by norm_num) (by rw [abs_of_pos (by norm_num)]; norm_num)
  have l2 := near_lit 1652891139701474 16 (v := 1652891139701474 / 10 ^ 16) (by norm_num) (by rw [abs_of_pos (by norm_num)]; norm_num)
  have l3 := near_lit 9996919862959676 16 (v := 9996919862959676 / 10 ^ 16) (by norm_num) (by rw [abs_of_pos (by norm_num)]; norm_num)
  have hy3 : |valueOf x * valueOf x| ≤ 3 := by rw [abs_of_nonneg hq0]; linarith
  have m1 := (near_mul l1 ny (by rw [abs_of_pos (by norm_num)]; norm_num) hy3 (by norm_num) (by norm_num)).mono
    (show _ ≤ (1 : ℚ) / 2 ^ 46 by norm_num)
  have r1 : |73524681968701 / 10 ^ 16 * (valueOf x * valueOf x) - 1652891139701474 / 10 ^ 16| ≤ 1 / 5 := by
    generalize valueOf x * valueOf x = q at *
    rw [abs_le]
    norm_num
    constructor <;> linarith
  have d1 := (near_sub m1 l2 (le_trans r1 (by norm_num)) (by norm_num) (by norm_num)).mono (show _ ≤ (1 : ℚ) / 2 ^ 45 by norm_num)
  have m2 := (near_mul d1 ny (le_trans r1 (by norm_num)) hy3 (by norm_num) (by norm_num)).mono (show _ ≤ (1 : ℚ) / 2 ^ 42 by norm_num)
  have r2 : |(73524681968701 / 10 ^ 16 * (valueOf x * valueOf x) - 1652891139701474 / 10 ^ 16) * (valueOf x * valueOf x)| ≤ 1 / 2 := by
    rw [abs_mul]
    refine le_trans (mul_le_mul r1 (show |valueOf x * valueOf x| ≤ 5 / 2 by rw [abs_of_nonneg hq0]; exact hq1) (abs_nonneg _) (by norm_num)) ?_
    norm_num
  have r3 : (1 : ℚ) / 4 ≤ (73524681968701 / 10 ^ 16 * (valueOf x * valueOf x) - 1652891139701474 / 10 ^ 16) * (valueOf x * valueOf x) +
      9996919862959676 / 10 ^ 16 ∧
      (73524681968701 / 10 ^ 16 * (valueOf x * valueOf x) - 1652891139701474 / 10 ^ 16) * (valueOf x * valueOf x) +
      9996919862959676 / 10 ^ 16 ≤ 2 := by
    rw [abs_le] at r2
    generalize (73524681968701 / 10 ^ 16 * (valueOf x * valueOf x) - 1652891139701474 / 10 ^ 16) * (valueOf x * valueOf x) = w at *
    norm_num
    constructor <;> linarith [r2.1, r2.2]
  have z1 := (near_add m2 l3 (by rw [abs_of_nonneg (le_trans (by norm_num) r3.1)]; exact le_trans r3.2 (by norm_num)) (by norm_num)
    (by norm_num)).mono (show _ ≤ (1 : ℚ) / 2 ^ 41 by norm_num)
  have res := near_mul nx z1 (by rw [abs_of_nonneg h0]; linarith) (by
    rw [abs_of_nonneg (le_trans (by norm_num) r3.1)]; exact le_trans r3.2 (by norm_num)) (by norm_num) (by norm_num)
  refine ⟨res.mono (by norm_num), ?_⟩
  have zpos : 0 ≤ valueOf (add (mul (sub (mul (lit 73524681968701 16) (mul x x)) (lit 1652891139701474 16)) (mul x x))
      (lit 9996919862959676 16) : Val b64) := by
    have h := z1.2
    rw [abs_le] at h
    have h1 := h.1
    have h2 := r3.1
    norm_num at h1 h2 ⊢
    linarith
  have zle : valueOf (add (mul (sub (mul (lit 73524681968701 16) (mul x x)) (lit 1652891139701474 16)) (mul x x))
      (lit 9996919862959676 16) : Val b64) ≤ 3 := by
    have h := z1.2
    rw [abs_le] at h
    have h1 := h.2
    have h2 := r3.2
    norm_num at h1 h2 ⊢
    linarith
  rw [fsinPoly]
  have hm := mul_value (f := b64) (by decide) hx z1.1 (small_le_max64 (by
    rw [abs_of_nonneg (mul_nonneg h0 zpos)]
    exact le_trans (mul_le_mul ht zle zpos (by norm_num)) (by norm_num)))
  rw [hm.2]
  exact rnd_nonneg (mul_nonneg h0 zpos)

/-! ### The reduction of the argument -/

theorem value_inj {f : Fmt} {x y : Val f} (hx : isFinite x = true) (hy : isFinite y = true) (h : valueOf x = valueOf y)
    (h0 : 0 < valueOf x) : x = y := by
  obtain ⟨s, n, hn, rfl⟩ := finite_cases hx
  obtain ⟨t, m, hm, rfl⟩ := finite_cases hy
  have hS := units_pos f
  have hpos : ∀ {s n} {hn : f.Rep n}, 0 < valueOf (.fin s n hn : Val f) → s = false := by
    intro s n hn hv
    cases s
    · rfl
    · exfalso
      rw [valueOf_fin] at hv
      simp only [sgn, if_true] at hv
      have : (0 : ℚ) ≤ (n : ℚ) / 2 ^ f.scale := by positivity
      linarith
  have h1 := hpos h0
  have h2 := hpos (h ▸ h0)
  subst h1 h2
  rw [valueOf_fin, valueOf_fin] at h
  simp only [sgn, Bool.false_eq_true, if_false, one_mul] at h
  have h3 : (n : ℚ) = m := by
    rw [div_left_inj' hS.ne'] at h
    exact h
  have h4 : n = m := by exact_mod_cast h3
  subst h4
  rfl

def bigV : Val b64 := lit 6755399441055744 0
def halfD : Val b64 := lit 5 1

theorem bigV_fin : bigV = .fin false (6755399441055744 * 2 ^ 1074) (by decide +kernel) := by decide +kernel
theorem halfD_fin : halfD = .fin false (2 ^ 1073) (by decide +kernel) := by decide +kernel
theorem big_half : add bigV halfD = bigV := by decide +kernel
theorem big_bits : lowI32 bigV = 0 := by decide +kernel

theorem bigV_value : isFinite bigV = true ∧ valueOf bigV = 6755399441055744 := by
  rw [bigV_fin]
  refine ⟨rfl, ?_⟩
  rw [valueOf_fin, show b64.scale = 1074 from rfl]
  simp only [sgn, Bool.false_eq_true, if_false, one_mul]
  norm_num

theorem halfD_value : isFinite halfD = true ∧ valueOf halfD = 1 / 2 := by
  rw [halfD_fin]
  refine ⟨rfl, ?_⟩
  rw [valueOf_fin, show b64.scale = 1074 from rfl]
  simp only [sgn, Bool.false_eq_true, if_false, one_mul]
  norm_num

/-- Below a quarter turn nothing is taken away. -/
theorem fsinTurns_zero {x : Val b64} (hx : isFinite x = true) (h0 : 0 ≤ valueOf x) (h1 : valueOf x ≤ 13176794 / 2 ^ 23) :
    fsinTurns x = 0 := by
  have lv := rounded_value (f := b64) (by decide) false (num := 3183098861837907 * 2 ^ b64.scale) (den := 10 ^ 16)
    (v := 3183098861837907 / 10 ^ 16) (by positivity) (by
      simp only [sgn, Bool.false_eq_true, if_false, one_mul]
      push_cast
      have := (units_pos b64).ne'
      field_simp
      norm_num) (small_le_max64 (by rw [abs_of_pos (by norm_num)]; norm_num))
  have le : (lit 3183098861837907 16 : Val b64) = rounded false (3183098861837907 * 2 ^ b64.scale) (10 ^ 16) := rfl
  rw [← le] at lv
  obtain ⟨lf, lv⟩ := lv
  have l0 : 0 ≤ valueOf (lit 3183098861837907 16 : Val b64) := by rw [lv]; exact rnd_nonneg (by norm_num)
  have l1 : valueOf (lit 3183098861837907 16 : Val b64) ≤ 3183098861837907 / 10 ^ 16 + 1 / 2 ^ 49 := by
    have h := rnd64_small (v := 3183098861837907 / 10 ^ 16) (by rw [abs_of_pos (by norm_num)]; norm_num)
    rw [← lv, abs_le] at h
    linarith [h.2]
  have hp0 := mul_nonneg h0 l0
  have hp1 : valueOf x * valueOf (lit 3183098861837907 16 : Val b64) ≤ 1 / 2 :=
    le_trans (mul_le_mul h1 l1 l0 (by norm_num)) (by norm_num)
  obtain ⟨wf, wv⟩ := mul_value (f := b64) (by decide) hx lf (small_le_max64 (by
    rw [abs_of_nonneg hp0]; exact le_trans hp1 (by norm_num)))
  have w0 : 0 ≤ valueOf (mul x (lit 3183098861837907 16)) := by rw [wv]; exact rnd_nonneg hp0
  have w1 : valueOf (mul x (lit 3183098861837907 16)) ≤ valueOf halfD := by
    rw [wv]; exact rnd_le_valueOf (by decide) (by rw [halfD_value.2]; exact hp1)
  obtain ⟨bf, bv⟩ := bigV_value
  obtain ⟨hf, hv⟩ := halfD_value
  have hs := add_value (f := b64) (by decide) wf bf (small_le_max64 (by
    rw [abs_of_nonneg (by rw [bv]; linarith)]
    rw [hv] at w1
    rw [bv]
    exact le_trans (add_le_add w1 le_rfl) (by norm_num)))
  have hh := add_value (f := b64) (by decide) bf hf (small_le_max64 (by rw [bv, hv, abs_of_pos (by norm_num)]; norm_num))
  rw [big_half] at hh
  have e : valueOf (add (mul x (lit 3183098861837907 16)) bigV) = valueOf bigV := by
    rw [hs.2]
    refine le_antisymm ?_ ?_
    · conv_rhs => rw [hh.2]
      exact rnd_mono (by decide) (by linarith)
    · exact valueOf_le_rnd (by decide) (by linarith)
  have key : add (mul x (lit 3183098861837907 16)) bigV = bigV := value_inj hs.1 bf e (by rw [e, bv]; norm_num)
  rw [fsinTurns, show (lit 6755399441055744 0 : Val b64) = bigV from rfl, key, big_bits]

theorem ofI32_zero : isFinite (ofI32 0) = true ∧ valueOf (ofI32 0) = 0 := by
  have h := ofNat_value64 (c := 0) (by norm_num)
  rw [ofI32, if_neg (by decide)]
  simpa using h

theorem piD_finite : isFinite piD = true := by decide +kernel

theorem zero_times {x : Val b64} (hx : isFinite x = true) : isFinite (mul (ofI32 0) x) = true ∧ valueOf (mul (ofI32 0) x) = 0 := by
  obtain ⟨zf, zv⟩ := ofI32_zero
  have h := mul_value (f := b64) (by decide) zf hx (small_le_max64 (by rw [zv, zero_mul, abs_zero]; norm_num))
  rw [zv, zero_mul, rnd_zero (by decide)] at h
  exact h

theorem minus_zero {x z : Val b64} (hx : isFinite x = true) (hz : isFinite z = true) (h : valueOf z = 0) :
    isFinite (sub x z) = true ∧ valueOf (sub x z) = valueOf x := by
  have h' := sub_value (f := b64) (by decide) hx hz (by rw [h, sub_zero]; exact abs_valueOf_le x)
  rw [h, sub_zero, rnd_valueOf (by decide)] at h'
  exact h'

/-- The approximation below a quarter turn. -/
theorem fsin_value {x : Val b64} (hx : isFinite x = true) (h0 : 0 ≤ valueOf x) (h1 : valueOf x ≤ 13176794 / 2 ^ 23) :
    Near64 (fsin x) (fastQ (valueOf x)) (1 / 2 ^ 39) ∧ 0 ≤ valueOf (fsin x) := by
  have ht := fsinTurns_zero hx h0 h1
  obtain ⟨pf, pv⟩ := zero_times piD_finite
  obtain ⟨sf, sv⟩ := minus_zero hx pf pv
  have hp := fsinPoly_value (x := sub x (mul (ofI32 0) piD)) sf (by rw [sv]; exact h0) (by
    rw [sv]; exact le_trans h1 (by rw [topQ]; norm_num))
  rw [sv] at hp
  obtain ⟨qf, qv⟩ := zero_times hp.1.1
  obtain ⟨rf, rv⟩ := minus_zero hp.1.1 qf qv
  have e : fsin x = sub (fsinPoly (sub x (mul (ofI32 0) piD))) (mul (ofI32 0) (fsinPoly (sub x (mul (ofI32 0) piD)))) := by
    rw [fsin]
    rw [ht]
    rfl
  rw [e]
  refine ⟨⟨rf, ?_⟩, ?_⟩
  · rw [rv]; exact hp.1.2
  · rw [rv]; exact hp.2

theorem fastSin_top : fastSin halfPi32 = oneV := by decide +kernel

/-- The f32 below `halfPi32`. -/
theorem below_halfPi {a : Val b32} (ha : isFinite a = true) (h0 : 0 ≤ valueOf a) (h1 : valueOf a < valueOf halfPi32) :
    valueOf a ≤ 13176794 / 2 ^ 23 := by
  by_contra hc
  push Not at hc
  rw [halfPi_value.2] at h1
  obtain ⟨s, n, hn, rfl⟩ := finite_cases ha
  have hv : valueOf (.fin s n hn : Val b32) = (n : ℚ) / 2 ^ 149 := by
    have h := abs_valueOf_fin s n hn
    rw [abs_of_nonneg h0] at h
    exact h
  rw [hv] at hc h1
  rw [div_lt_div_iff₀ (by positivity) (by positivity)] at hc h1
  have g1 : 13176794 * 2 ^ 149 < n * 2 ^ 23 := by exact_mod_cast hc
  have g2 : n * 2 ^ 23 < 13176795 * 2 ^ 149 := by exact_mod_cast h1
  obtain ⟨m, e, hm, rfl⟩ := ((rep_iff b32 (by decide)).mp hn).1
  have hm' : m < 2 ^ 24 := hm
  have he : 126 ≤ e := by
    by_contra hlt
    have : 2 ^ e ≤ 2 ^ 125 := Nat.pow_le_pow_right (by norm_num) (by omega)
    have := Nat.mul_le_mul hm'.le this
    norm_num at *
    omega
  obtain ⟨k, rfl⟩ := Nat.exists_eq_add_of_le he
  rw [pow_add] at g1 g2
  generalize 2 ^ k = w at *
  have e1 : m * (2 ^ 126 * w) * 2 ^ 23 = m * w * 2 ^ 149 := by ring
  rw [e1] at g1 g2
  have g3 : 13176794 < m * w := Nat.lt_of_mul_lt_mul_right g1
  have g4 : m * w < 13176795 := Nat.lt_of_mul_lt_mul_right g2
  omega

theorem one_tiny : add oneV (.fin false (2 ^ 124) (by decide +kernel)) = oneV := by decide +kernel

theorem rnd_one_up {v : ℚ} (h : v ≤ 1 + 1 / 2 ^ 25) : rnd b32 v ≤ 1 := by
  have ov : isFinite oneV = true ∧ valueOf oneV = 1 := by
    refine ⟨rfl, ?_⟩
    rw [oneV, valueOf_fin, show b32.scale = 149 from rfl]
    simp only [sgn, Bool.false_eq_true, if_false, one_mul]
    norm_num
  have tv : valueOf (.fin false (2 ^ 124) (by decide +kernel) : Val b32) = 1 / 2 ^ 25 := by
    rw [valueOf_fin, show b32.scale = 149 from rfl]
    simp only [sgn, Bool.false_eq_true, if_false, one_mul]
    norm_num
  have ha := add_value (f := b32) (x := oneV) (y := .fin false (2 ^ 124) (by decide +kernel)) (by decide) ov.1 rfl (small_le_max (by
    rw [ov.2, tv, abs_of_pos (by norm_num)]; norm_num))
  rw [one_tiny, ov.2, tv] at ha
  rw [ha.2]
  exact rnd_mono (by decide) h

/-- The sine the decoder uses with the feature: between 0 and 1, and near the sine. -/
theorem fastSin_value {a : Val b32} (ha : isFinite a = true) (h0 : 0 ≤ valueOf a) (h1 : valueOf a ≤ valueOf halfPi32) :
    UnitValue (fastSin a) ∧ |realOf (fastSin a) - Real.sin (realOf a)| ≤ 333 / 10 ^ 6 ∧
      |realOf (fastSin a) - Real.sin (realOf a)| ≤ 1 / 1200 * |Real.cos (realOf a)| + 75 / 10 ^ 9 := by
  rcases eq_or_lt_of_le h1 with he | hlt
  · have e : a = halfPi32 := value_inj ha halfPi_value.1 he (by rw [he, halfPi_value.2]; norm_num)
    subst e
    rw [fastSin_top, realOf_oneV]
    obtain ⟨p1, p2⟩ := halfPi_above
    have hs : Real.sin (realOf halfPi32) = Real.cos (realOf halfPi32 - Real.pi / 2) := by rw [Real.cos_sub_pi_div_two]
    have hc := Real.one_sub_sq_div_two_le_cos (x := realOf halfPi32 - Real.pi / 2)
    have hsq : (realOf halfPi32 - Real.pi / 2) ^ 2 ≤ (1 / 2 ^ 24) ^ 2 := pow_le_pow_left₀ (by linarith) p2.le 2
    have hup := Real.sin_le_one (realOf halfPi32)
    have hd : |1 - Real.sin (realOf halfPi32)| ≤ 1 / 2 ^ 40 := by
      rw [abs_of_nonneg (by linarith), hs]
      norm_num at hsq ⊢
      linarith
    refine ⟨⟨rfl, ?_, ?_⟩, le_trans hd (by norm_num), le_trans hd ?_⟩
    · rw [oneV, valueOf_fin, show b32.scale = 149 from rfl]
      simp only [sgn, Bool.false_eq_true, if_false, one_mul]
      norm_num
    · rw [oneV, valueOf_fin, show b32.scale = 149 from rfl]
      simp only [sgn, Bool.false_eq_true, if_false, one_mul]
      norm_num
    · have := abs_nonneg (Real.cos (realOf halfPi32))
      norm_num
      linarith
  · have hb := below_halfPi ha h0 hlt
    obtain ⟨wf, wv⟩ := widen_value ha
    obtain ⟨⟨ff, fn⟩, f0⟩ := fsin_value (x := convert a) wf (by rw [wv]; exact h0) (by rw [wv]; exact hb)
    rw [wv] at fn
    have hr0 : 0 ≤ realOf a := by rw [realOf]; exact_mod_cast h0
    have hr1 : realOf a ≤ topQ := by
      rw [realOf, topQ]
      exact_mod_cast le_trans hb (by norm_num)
    obtain ⟨n1, n2, n3⟩ := fastP_near hr0 hr1
    have fnr : |((valueOf (fsin (convert a)) : ℚ) : ℝ) - eval fastP (realOf a)| ≤ 1 / 2 ^ 39 := by
      rw [realOf, ← fastQ_cast]
      have h := (Rat.cast_le (K := ℝ)).mpr fn
      push_cast at h
      exact h
    have fle : valueOf (fsin (convert a)) ≤ 1 + 1 / 2 ^ 25 := by
      have h : ((valueOf (fsin (convert a)) : ℚ) : ℝ) ≤ ((1 + 1 / 2 ^ 25 : ℚ) : ℝ) := by
        push_cast
        rw [abs_le] at fnr
        have := fnr.2
        norm_num at this n2 ⊢
        linarith
      exact Rat.cast_le.mp h
    have cv := convert_value (g := b32) (by decide) ff (small_le_max (by
      rw [abs_of_nonneg f0]; exact le_trans fle (by norm_num)))
    have re := rnd32_error (valueOf (fsin (convert a)))
    rw [← cv.2, abs_of_nonneg f0] at re
    have re' : |valueOf (fastSin a) - valueOf (fsin (convert a))| ≤ 61 / 10 ^ 9 := by
      refine le_trans re ?_
      have : 1 / 2 ^ 24 * valueOf (fsin (convert a)) ≤ 1 / 2 ^ 24 * (1 + 1 / 2 ^ 25) := mul_le_mul_of_nonneg_left fle (by norm_num)
      norm_num at this ⊢
      linarith
    have rer : |realOf (fastSin a) - ((valueOf (fsin (convert a)) : ℚ) : ℝ)| ≤ 61 / 10 ^ 9 := by
      have h := (Rat.cast_le (K := ℝ)).mpr re'
      push_cast at h
      exact h
    refine ⟨⟨cv.1, ?_, ?_⟩, ?_, ?_⟩
    · rw [fastSin, cv.2]; exact rnd_nonneg f0
    · rw [fastSin, cv.2]; exact rnd_one_up fle
    · have t1 := abs_sub_le (realOf (fastSin a)) ((valueOf (fsin (convert a)) : ℚ) : ℝ) (eval fastP (realOf a))
      have t2 := abs_sub_le (realOf (fastSin a)) (eval fastP (realOf a)) (Real.sin (realOf a))
      norm_num at *
      linarith
    · have t1 := abs_sub_le (realOf (fastSin a)) ((valueOf (fsin (convert a)) : ℚ) : ℝ) (eval fastP (realOf a))
      have t2 := abs_sub_le (realOf (fastSin a)) (eval fastP (realOf a)) (Real.sin (realOf a))
      generalize |Real.cos (realOf a)| = C at *
      norm_num at *
      linarith

theorem cos_low {a : Val b32} (h0 : 0 ≤ valueOf a) (h1 : valueOf a ≤ valueOf halfPi32) :
    -(1 / 2 ^ 23) ≤ Real.cos (realOf a) := by
  rw [← Real.sin_pi_div_two_sub]
  have hle : realOf a ≤ realOf halfPi32 := by rw [realOf, realOf]; exact_mod_cast h1
  have hr0 : (0 : ℝ) ≤ realOf a := by rw [realOf]; exact_mod_cast h0
  obtain ⟨p1, p2⟩ := halfPi_above
  have hs := Real.abs_sin_le_abs (x := Real.pi / 2 - realOf a)
  rcases le_or_gt 0 (Real.pi / 2 - realOf a) with h | h
  · have := Real.sin_nonneg_of_nonneg_of_le_pi h (by linarith [Real.pi_pos])
    norm_num
    linarith
  · rw [abs_of_neg h] at hs
    have := neg_abs_le (Real.sin (Real.pi / 2 - realOf a))
    norm_num at *
    linarith

/-- The step from sines to cosines. -/
theorem cosine_near {x y s c : ℝ} (hy : 0 ≤ y) (hx0 : 0 ≤ x) (hx1 : x ≤ 1) (hs0 : |s| ≤ 1) (hsc : s ^ 2 + c ^ 2 = 1)
    (hxy : |y ^ 2 + x ^ 2 - 1| ≤ 1 / 2 ^ 21) (h : |x - s| ≤ 1 / 1200 * |c| + 75 / 10 ^ 9) : |y - (|c|)| ≤ 1 / 405 := by
  have hc := abs_nonneg c
  have hcc : |c| ^ 2 = c ^ 2 := sq_abs c
  have hxs : |x + s| ≤ 2 := le_trans (abs_add_le _ _) (by rw [abs_of_nonneg hx0]; linarith)
  have hprod : |x ^ 2 - s ^ 2| ≤ 2 * (1 / 1200 * |c| + 75 / 10 ^ 9) := by
    rw [sq_sub_sq, abs_mul]
    refine le_trans (mul_le_mul hxs h (abs_nonneg _) (by norm_num)) le_rfl
  have hd : |y ^ 2 - (|c|) ^ 2| ≤ 1 / 600 * |c| + (1 / 1260) ^ 2 := by
    have e : y ^ 2 - |c| ^ 2 = (y ^ 2 + x ^ 2 - 1) - (x ^ 2 - s ^ 2) := by rw [hcc]; linarith
    rw [e]
    refine le_trans (abs_sub _ _) ?_
    norm_num at *
    linarith
  generalize |c| = C at *
  rw [sq_sub_sq, abs_mul, abs_of_nonneg (by linarith)] at hd
  by_contra hcon
  push Not at hcon
  have hsum : |y - C| ≤ y + C := by
    rw [abs_le]; constructor <;> linarith
  generalize |y - C| = d at *
  have hM : C ≤ y + C := by linarith
  generalize y + C = M at *
  have h1 : 1 / 405 * M ≤ M * d := by nlinarith
  have h2 : 1 / 405 ≤ M := by linarith
  norm_num at *
  linarith

/-- The cosine the decoder uses with the feature. -/
theorem fastCos_value {a : Val b32} (ha : isFinite a = true) (h0 : 0 ≤ valueOf a) (h1 : valueOf a ≤ valueOf halfPi32) :
    isFinite (fastCos a) = true ∧ 0 ≤ valueOf (fastCos a) ∧
      |valueOf (fastCos a) ^ 2 + valueOf (fastSin a) ^ 2 - 1| ≤ 1 / 2 ^ 21 ∧
      |realOf (fastCos a) - Real.cos (realOf a)| ≤ 1 / 404 := by
  obtain ⟨su, -, se⟩ := fastSin_value ha h0 h1
  obtain ⟨cf, c0, ce⟩ := magQ_value su
  refine ⟨cf, c0, ce, ?_⟩
  have cer : |realOf (fastCos a) ^ 2 + realOf (fastSin a) ^ 2 - 1| ≤ 1 / 2 ^ 21 := by
    have h := (Rat.cast_le (K := ℝ)).mpr ce
    push_cast at h
    exact h
  have hmain := cosine_near (y := realOf (fastCos a)) (x := realOf (fastSin a)) (s := Real.sin (realOf a)) (c := Real.cos (realOf a))
    (by rw [realOf]; exact_mod_cast c0) (by rw [realOf]; exact_mod_cast su.2.1) (by rw [realOf]; exact_mod_cast su.2.2)
    (Real.abs_sin_le_one _) (Real.sin_sq_add_cos_sq _) cer se
  have hlow : -(1 / 2 ^ 23) ≤ Real.cos (realOf a) := cos_low h0 h1
  have habs : |(|Real.cos (realOf a)| - Real.cos (realOf a))| ≤ 2 / 2 ^ 23 := by
    rcases le_or_gt 0 (Real.cos (realOf a)) with h | h
    · rw [abs_of_nonneg h, sub_self, abs_zero]; norm_num
    · rw [abs_of_neg h, abs_of_pos (by linarith)]
      norm_num at hlow ⊢
      linarith
  have t := abs_sub_le (realOf (fastCos a)) |Real.cos (realOf a)| (Real.cos (realOf a))
  norm_num at *
  linarith

end Tmf.Ieee
