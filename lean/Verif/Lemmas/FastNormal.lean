import Verif.Spec.FastTrig
import Verif.Lemmas.FastTrig
import Verif.Lemmas.NormalDecode
/-
Normals decoded with the approximated sine.
-/

set_option exponentiation.threshold 2000

namespace Tmf.Ieee
open Spec Geometry

/-- The two components before their signs are restored. -/
theorem fast_components {t z : Val b32} (ht : isFinite t = true) (t0 : 0 ≤ valueOf t)
    (t1 : valueOf t ≤ valueOf halfPi32) (hz : UnitValue z) :
    (isFinite (mul (fastSin t) (magQ z)) = true ∧ isFinite (mul (fastCos t) (magQ z)) = true) ∧
    (0 ≤ valueOf (mul (fastSin t) (magQ z)) ∧ 0 ≤ valueOf (mul (fastCos t) (magQ z))) ∧
    |valueOf (mul (fastSin t) (magQ z)) - valueOf (fastSin t) * valueOf (magQ z)| ≤ 1 / 2 ^ 23 ∧
    |valueOf (mul (fastCos t) (magQ z)) - valueOf (fastCos t) * valueOf (magQ z)| ≤ 1 / 2 ^ 23 := by
  obtain ⟨⟨sf, s0, s1⟩, -, -⟩ := fastSin_value ht t0 t1
  obtain ⟨cf, c0, ce, -⟩ := fastCos_value ht t0 t1
  obtain ⟨gf, g0, ge⟩ := magQ_value hz
  have bS : |valueOf (fastSin t)| ≤ 9 / 8 := by rw [abs_of_nonneg s0]; linarith
  have bC : |valueOf (fastCos t)| ≤ 9 / 8 := by
    rw [abs_of_nonneg c0]
    rw [abs_le] at ce
    have h1 := ce.2
    norm_num at h1
    nlinarith [sq_nonneg (valueOf (fastSin t))]
  have bg : |valueOf (magQ z)| ≤ 9 / 8 := by
    rw [abs_of_nonneg g0]
    rw [abs_le] at ge
    have h1 := ge.2
    norm_num at h1
    nlinarith [sq_nonneg (valueOf z)]
  obtain ⟨xf, xv, xe⟩ := component_value sf gf bS bg
  obtain ⟨yf, yv, ye⟩ := component_value cf gf bC bg
  refine ⟨⟨xf, yf⟩, ⟨?_, ?_⟩, xe, ye⟩
  · rw [xv]; exact rnd_nonneg (mul_nonneg s0 g0)
  · rw [yv]; exact rnd_nonneg (mul_nonneg c0 g0)

theorem fast_unit_real {S C g z x y : ℚ} (h1 : |C ^ 2 + S ^ 2 - 1| ≤ 1 / 2 ^ 21) (h2 : |g ^ 2 + z ^ 2 - 1| ≤ 1 / 2 ^ 21)
    (hx : |x - S * g| ≤ 1 / 2 ^ 23) (hy : |y - C * g| ≤ 1 / 2 ^ 23) : |x ^ 2 + y ^ 2 + z ^ 2 - 1| ≤ 1 / 2 ^ 18 := by
  have hg : g ^ 2 ≤ 101 / 100 := by
    rw [abs_le] at h2
    have := h2.2
    norm_num at this
    nlinarith [sq_nonneg z]
  have bound : ∀ {A v : ℚ}, A ^ 2 ≤ 101 / 100 → |v - A * g| ≤ 1 / 2 ^ 23 → |v ^ 2 - A ^ 2 * g ^ 2| ≤ 3 / 2 ^ 23 := by
    intro A v hA hv
    have hAg : |A * g| ≤ 101 / 100 := by
      refine abs_le_of_sq_le_sq ?_ (by norm_num)
      rw [mul_pow]
      exact le_trans (mul_le_mul hA hg (sq_nonneg _) (by norm_num)) (by norm_num)
    have e : v ^ 2 - A ^ 2 * g ^ 2 = (v - A * g) * (2 * (A * g) + (v - A * g)) := by ring
    rw [e, abs_mul]
    have h3 : |2 * (A * g) + (v - A * g)| ≤ 5 / 2 := by
      refine le_trans (abs_add_le _ _) ?_
      rw [abs_mul, abs_of_pos (show (0 : ℚ) < 2 by norm_num)]
      norm_num at hv
      linarith
    exact le_trans (mul_le_mul hv h3 (abs_nonneg _) (by norm_num)) (by norm_num)
  have hS : S ^ 2 ≤ 101 / 100 := by
    rw [abs_le] at h1
    have := h1.2
    norm_num at this
    nlinarith [sq_nonneg C]
  have hC : C ^ 2 ≤ 101 / 100 := by
    rw [abs_le] at h1
    have := h1.2
    norm_num at this
    nlinarith [sq_nonneg S]
  have k1 := bound hS hx
  have k2 := bound hC hy
  have k3 : |(C ^ 2 + S ^ 2 - 1) * g ^ 2| ≤ 1 / 2 ^ 21 * (101 / 100) := by
    rw [abs_mul, abs_of_nonneg (sq_nonneg g)]
    exact mul_le_mul h1 hg (sq_nonneg _) (by norm_num)
  have e : x ^ 2 + y ^ 2 + z ^ 2 - 1 = (x ^ 2 - S ^ 2 * g ^ 2) + (y ^ 2 - C ^ 2 * g ^ 2) + (C ^ 2 + S ^ 2 - 1) * g ^ 2 +
      (g ^ 2 + z ^ 2 - 1) := by ring
  rw [e]
  generalize x ^ 2 - S ^ 2 * g ^ 2 = a at *
  generalize y ^ 2 - C ^ 2 * g ^ 2 = b at *
  generalize (C ^ 2 + S ^ 2 - 1) * g ^ 2 = c at *
  generalize g ^ 2 + z ^ 2 - 1 = d at *
  rw [abs_le] at *
  have a1 := k1.1
  have a2 := k1.2
  have a3 := k2.1
  have a4 := k2.2
  have a5 := k3.1
  have a6 := k3.2
  have a7 := h2.1
  have a8 := h2.2
  norm_num at *
  constructor <;> linarith

theorem fast_unit {t z : Val b32} (ht : isFinite t = true) (t0 : 0 ≤ valueOf t) (t1 : valueOf t ≤ valueOf halfPi32)
    (hz : UnitValue z) :
    |valueOf (mul (fastSin t) (magQ z)) ^ 2 + valueOf (mul (fastCos t) (magQ z)) ^ 2 + valueOf z ^ 2 - 1| ≤ 1 / 2 ^ 18 := by
  obtain ⟨-, -, xe, ye⟩ := fast_components ht t0 t1 hz
  obtain ⟨-, -, ce, -⟩ := fastCos_value ht t0 t1
  obtain ⟨-, -, ge⟩ := magQ_value hz
  exact fast_unit_real ce ge xe ye

/-- How far the components are from those computed with an accurate sine and cosine. -/
theorem fast_apart {lib : Libm} (hlib : AccurateLibm lib) {t z : Val b32} (ht : isFinite t = true) (t0 : 0 ≤ valueOf t)
    (t1 : valueOf t ≤ valueOf halfPi32) (hz : UnitValue z) :
    (realOf (mul (fastSin t) (magQ z)) - realOf (mul (lib.sin t) (magQ z))) ^ 2 +
      (realOf (mul (fastCos t) (magQ z)) - realOf (mul (lib.cos t) (magQ z))) ^ 2 ≤ (1 / 384) ^ 2 := by
  obtain ⟨-, -, xe, ye⟩ := fast_components ht t0 t1 hz
  obtain ⟨-, -, sn, cn, xe', ye'⟩ := decoded_value hlib ht t0 t1 hz
  obtain ⟨-, sF, -⟩ := fastSin_value ht t0 t1
  obtain ⟨-, -, -, cF⟩ := fastCos_value ht t0 t1
  obtain ⟨-, g0, ge⟩ := magQ_value hz
  have g1 : |realOf (magQ z)| ≤ 1 + 1 / 2 ^ 21 := by
    have : valueOf (magQ z) ≤ 1 + 1 / 2 ^ 21 := by
      rw [abs_le] at ge
      have h1 := ge.2
      by_contra hc
      push Not at hc
      norm_num at h1 hc
      nlinarith [sq_nonneg (valueOf z)]
    rw [realOf, abs_of_nonneg (by exact_mod_cast g0)]
    have h := (Rat.cast_le (K := ℝ)).mpr this
    push_cast at h
    exact h
  have up : ∀ {a b c : Val b32}, |valueOf a - valueOf b * valueOf c| ≤ 1 / 2 ^ 23 →
      |realOf a - realOf b * realOf c| ≤ 1 / 2 ^ 23 := by
    intro a b c h
    have h' := (Rat.cast_le (K := ℝ)).mpr h
    push_cast at h'
    exact h'
  have xr := up xe
  have yr := up ye
  have key : ∀ {S S' s g x x' e : ℝ}, |g| ≤ 1 + 1 / 2 ^ 21 → |S - s| ≤ e → |S' - s| ≤ 1 / 2 ^ 22 → |x - S * g| ≤ 1 / 2 ^ 23 →
      |x' - S' * g| ≤ 1 / 2 ^ 22 → e ≤ 1 / 200 → |x - x'| ≤ e + 1 / 2 ^ 20 := by
    intro S S' s g x x' e hg h1 h2 h3 h4 he
    have hss : |S - S'| ≤ e + 1 / 2 ^ 22 := by
      have := abs_sub_le S s S'
      rw [abs_sub_comm s S'] at this
      linarith
    have hd : |S * g - S' * g| ≤ (e + 1 / 2 ^ 22) * (1 + 1 / 2 ^ 21) := by
      rw [← sub_mul, abs_mul]
      exact mul_le_mul hss hg (abs_nonneg _) (le_trans (abs_nonneg _) hss)
    have t1 := abs_sub_le x (S * g) x'
    have t2 := abs_sub_le (S * g) (S' * g) x'
    rw [abs_sub_comm (S' * g) x'] at t2
    norm_num at *
    linarith
  have kx := key g1 sF sn xr xe' (by norm_num)
  have ky := key g1 cF cn yr ye' (by norm_num)
  have h1 : (realOf (mul (fastSin t) (magQ z)) - realOf (mul (lib.sin t) (magQ z))) ^ 2 ≤ (333 / 10 ^ 6 + 1 / 2 ^ 20) ^ 2 := by
    rw [← sq_abs]; exact pow_le_pow_left₀ (abs_nonneg _) kx 2
  have h2 : (realOf (mul (fastCos t) (magQ z)) - realOf (mul (lib.cos t) (magQ z))) ^ 2 ≤ (1 / 404 + 1 / 2 ^ 20) ^ 2 := by
    rw [← sq_abs]; exact pow_le_pow_left₀ (abs_nonneg _) ky 2
  refine le_trans (add_le_add h1 h2) (by norm_num)

theorem setSign_diff (s : Bool) (x y : Val b32) : (realOf (setSign s x) - realOf (setSign s y)) ^ 2 = (realOf x - realOf y) ^ 2 := by
  rw [realOf, realOf, (setSign_value s x).2, (setSign_value s y).2, realOf, realOf]
  cases s
  · simp
  · simp only [if_true]; push_cast; ring

theorem chord_setSign (a b c : Bool) (x y z x' y' : Val b32) :
    chord (setSign a x, setSign b y, setSign c z) (setSign a x', setSign b y', setSign c z) =
      √((realOf x - realOf x') ^ 2 + (realOf y - realOf y') ^ 2) := by
  rw [chord, length3]
  dsimp only
  rw [setSign_diff, setSign_diff, sub_self]
  congr 1
  ring

theorem fromEncoding_eq (lib : Libm) {p : Nat} (hp1 : 1 ≤ p) (c : NormalCode) : normalFromEncoding (ops lib) p c =
      (setSign c.sx (mul (lib.sin (mul (div (ofNat c.asine) (ofNat (2 ^ p - 1))) halfPi32)) (magQ (div (ofNat c.z) (ofNat (2 ^ p - 1))))),
       setSign c.sy (mul (lib.cos (mul (div (ofNat c.asine) (ofNat (2 ^ p - 1))) halfPi32)) (magQ (div (ofNat c.z) (ofNat (2 ^ p - 1))))),
       setSign c.sz (div (ofNat c.z) (ofNat (2 ^ p - 1)))) := by
  rw [normalFromEncoding, if_neg (by omega), withSign_eq lib, FloatOps.one]
  dsimp only
  rw [halfPi_eq]
  rfl

theorem fast_encoding_unit (lib : Libm) {p : Nat} (hp1 : 1 ≤ p) (hp : p < 64) {c : NormalCode}
    (ha : c.asine < 2 ^ p) (hz : c.z < 2 ^ p) : UnitDecoded (normalFromEncoding (ops (fastLibm lib)) p c) := by
  have qu := code_unit hp1 hp hz
  obtain ⟨tf, t0, t1, -⟩ := angle_value (code_unit hp1 hp ha)
  rw [fromEncoding_eq _ hp1]
  have hu := fast_unit tf t0 t1 qu
  obtain ⟨⟨xf, yf⟩, -, -, -⟩ := fast_components tf t0 t1 qu
  refine ⟨⟨?_, ?_, ?_⟩, ?_⟩
  · rw [(setSign_value _ _).1]; exact xf
  · rw [(setSign_value _ _).1]; exact yf
  · rw [(setSign_value _ _).1]; exact qu.1
  · rw [AlmostUnit]
    dsimp only
    rw [setSign_sq, setSign_sq, setSign_sq]
    exact hu

theorem ops_litF (lib : Libm) : (ops lib).lit = lit := rfl

theorem fast_encoding_near {lib : Libm} (hlib : AccurateLibm lib) {p : Nat} (hp : p < 64) {c : NormalCode}
    (ha : c.asine < 2 ^ p) (hz : c.z < 2 ^ p) :
    FastNear (normalFromEncoding (ops (fastLibm lib)) p c) (normalFromEncoding (ops lib) p c) := by
  rcases Nat.eq_zero_or_pos p with h0 | hp1
  · subst h0
    have e : normalFromEncoding (ops (fastLibm lib)) 0 c = normalFromEncoding (ops lib) 0 c := by
      rw [normalFromEncoding, normalFromEncoding, if_pos rfl, if_pos rfl, FloatOps.one, FloatOps.one, FloatOps.negOne,
        FloatOps.negOne, ops_litF, ops_negOp]
    rw [e]
    refine ⟨rfl, ?_⟩
    rw [chord, length3, sub_self, sub_self, sub_self]
    norm_num
  · have qu := code_unit hp1 hp hz
    obtain ⟨tf, t0, t1, -⟩ := angle_value (code_unit hp1 hp ha)
    rw [fromEncoding_eq _ hp1, fromEncoding_eq _ hp1]
    refine ⟨rfl, ?_⟩
    rw [chord_setSign]
    have h := fast_apart hlib tf t0 t1 qu
    refine le_trans (Real.sqrt_le_sqrt h) ?_
    rw [Real.sqrt_sq (by norm_num)]

theorem normal_kept_fast {lib : Libm} (hlib : AccurateLibm lib) {p : Nat} (hp1 : 1 ≤ p) (hp : p ≤ 30) {n : Vec3 (Val b32)}
    (hn : UnitNormal n) (hoff : 25 ≤ p → OffAxes n) : KeptFast p n (quantNormal (ops (fastLibm lib)) p n) := by
  have hk := normal_kept_wide hlib hp1 (by omega) hn hoff
  obtain ⟨⟨hx, hy, hz⟩, -, -⟩ := hn
  have qu := unitQ_unit hp1 (by omega) (abs n.2.2)
  obtain ⟨tf, t0, t1⟩ := angleQ_value lib hp1 (by omega) n
  have ea : angleQ (fastLibm lib) p n = angleQ lib p n := rfl
  rw [quantNormal_eq lib hp1] at hk
  rw [quantNormal_eq _ hp1, ea]
  have hu := fast_unit tf t0 t1 qu
  have hd := fast_apart hlib tf t0 t1 qu
  obtain ⟨⟨xf, yf⟩, ⟨x0, y0⟩, -, -⟩ := fast_components tf t0 t1 qu
  have es : (fastLibm lib).sin = fastSin := rfl
  have ec : (fastLibm lib).cos = fastCos := rfl
  rw [es, ec]
  obtain ⟨-, sx, qx, -⟩ := sign_restored (x := n.1) (v := mul (fastSin (angleQ lib p n)) (magQ (unitQ p (abs n.2.2)))) hx
  obtain ⟨-, sy, qy, -⟩ := sign_restored (x := n.2.1) (v := mul (fastCos (angleQ lib p n)) (magQ (unitQ p (abs n.2.2)))) hy
  obtain ⟨-, -, qz, -⟩ := sign_restored (x := n.2.2) (v := unitQ p (abs n.2.2)) hz
  have hc := chord_setSign (lt n.1 (lit 0 0)) (lt n.2.1 (lit 0 0)) (lt n.2.2 (lit 0 0))
    (mul (lib.sin (angleQ lib p n)) (magQ (unitQ p (abs n.2.2)))) (mul (lib.cos (angleQ lib p n)) (magQ (unitQ p (abs n.2.2))))
    (unitQ p (abs n.2.2)) (mul (fastSin (angleQ lib p n)) (magQ (unitQ p (abs n.2.2))))
    (mul (fastCos (angleQ lib p n)) (magQ (unitQ p (abs n.2.2))))
  have hle : chord (setSign (lt n.1 (lit 0 0)) (mul (lib.sin (angleQ lib p n)) (magQ (unitQ p (abs n.2.2)))),
       setSign (lt n.2.1 (lit 0 0)) (mul (lib.cos (angleQ lib p n)) (magQ (unitQ p (abs n.2.2)))),
       setSign (lt n.2.2 (lit 0 0)) (unitQ p (abs n.2.2)))
      (setSign (lt n.1 (lit 0 0)) (mul (fastSin (angleQ lib p n)) (magQ (unitQ p (abs n.2.2)))),
       setSign (lt n.2.1 (lit 0 0)) (mul (fastCos (angleQ lib p n)) (magQ (unitQ p (abs n.2.2)))),
       setSign (lt n.2.2 (lit 0 0)) (unitQ p (abs n.2.2))) ≤ 1 / 384 := by
    rw [hc]
    refine le_trans (Real.sqrt_le_sqrt (y := (1 / 384) ^ 2) ?_) ?_
    · refine le_trans (le_of_eq ?_) hd
      ring
    · rw [Real.sqrt_sq (by norm_num)]
  have tri : ∀ a b c : Vec3 (Val b32), chord a c ≤ chord a b + chord b c := by
    intro a b c
    rw [chord, chord, chord]
    have h := length3_add (realOf a.1 - realOf b.1) (realOf a.2.1 - realOf b.2.1) (realOf a.2.2 - realOf b.2.2)
      (realOf b.1 - realOf c.1) (realOf b.2.1 - realOf c.2.1) (realOf b.2.2 - realOf c.2.2)
    simpa only [sub_add_sub_cancel] using h
  refine ⟨⟨?_, ?_, ?_⟩, ?_, sx x0, sy y0, hk.side_z, hk.height, ?_, ?_⟩
  · rw [(setSign_value _ _).1]; exact xf
  · rw [(setSign_value _ _).1]; exact yf
  · rw [(setSign_value _ _).1]; exact qu.1
  · rw [AlmostUnit]
    dsimp only
    rw [qx, qy, qz]
    exact hu
  · exact le_trans (tri _ _ _) (add_le_add hk.near hle)
  · intro h
    exact le_trans (tri _ _ _) (add_le_add (hk.near_equator h) hle)

end Tmf.Ieee
