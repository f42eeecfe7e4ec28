import Verif.Lemmas.SqrtValue
import Verif.Lemmas.NormalReal
import Verif.Lemmas.VertexRange
import Verif.Spec.Edges
/-
The distance of two points in f32.
-/

set_option exponentiation.threshold 2000

namespace Tmf.Ieee
open Spec

/-- The distance, without the platform's functions. -/
def distV (a c : Vec3 (Val b32)) : Val b32 :=
  sqrt (add (add (mul (sub a.1 c.1) (sub a.1 c.1)) (mul (sub a.2.1 c.2.1) (sub a.2.1 c.2.1)))
    (mul (sub a.2.2 c.2.2) (sub a.2.2 c.2.2)))

theorem sub_near {x y : Val b32} (hx : isFinite x = true) (hy : isFinite y = true) (bx : |valueOf x| ≤ 2 ^ 58)
    (by' : |valueOf y| ≤ 2 ^ 58) :
    isFinite (sub x y) = true ∧ |valueOf (sub x y)| ≤ 2 ^ 60 ∧
    |valueOf (sub x y) ^ 2 - (valueOf x - valueOf y) ^ 2| ≤ 3 / 2 ^ 24 * (valueOf x - valueOf y) ^ 2 := by
  have hd : |valueOf x - valueOf y| ≤ 2 ^ 59 := by
    refine le_trans (abs_sub _ _) ?_
    linarith [show (2 : ℚ) ^ 59 = 2 ^ 58 + 2 ^ 58 by norm_num]
  obtain ⟨hf, hv⟩ := sub_value (f := b32) (by decide) hx hy (le_trans hd (le_trans (by norm_num) maxV32))
  have he := rnd32_error_add x (neg y)
  rw [(neg_value y).2, ← sub_eq_add_neg, ← hv] at he
  refine ⟨hf, ?_, ?_⟩
  · have : |valueOf (sub x y)| ≤ |valueOf (sub x y) - (valueOf x - valueOf y)| + |valueOf x - valueOf y| := by
      have := abs_add_le (valueOf (sub x y) - (valueOf x - valueOf y)) (valueOf x - valueOf y)
      rwa [sub_add_cancel] at this
    norm_num at *
    linarith
  · generalize valueOf (sub x y) = d at *
    generalize valueOf x - valueOf y = D at *
    have e : d ^ 2 - D ^ 2 = (d - D) * ((d - D) + 2 * D) := by ring
    rw [e, abs_mul]
    have h1 : |d - D + 2 * D| ≤ 1 / 2 ^ 24 * |D| + 2 * |D| := by
      refine le_trans (abs_add_le _ _) ?_
      rw [abs_mul, abs_two]; linarith
    refine le_trans (mul_le_mul he h1 (abs_nonneg _) (by positivity)) ?_
    rw [← sq_abs D]
    have := sq_nonneg |D|
    generalize |D| = c at *
    norm_num
    nlinarith

theorem sumsq_nonneg {x y z : Val b32} (hx : isFinite x = true) (hy : isFinite y = true) (hz : isFinite z = true)
    (bx : |valueOf x| ≤ 2 ^ 60) (by' : |valueOf y| ≤ 2 ^ 60) (bz : |valueOf z| ≤ 2 ^ 60) :
    0 ≤ valueOf (add (add (mul x x) (mul y y)) (mul z z)) := by
  have hP : 0 < b32.prec := by decide
  have hmax := maxV32
  have one : ∀ {v : Val b32}, isFinite v = true → |valueOf v| ≤ 2 ^ 60 → isFinite (mul v v) = true ∧
      0 ≤ valueOf (mul v v) ∧ valueOf (mul v v) ≤ 2 ^ 121 := by
    intro v hv hb
    have h1 : valueOf v * valueOf v ≤ 2 ^ 120 := by
      rw [← abs_mul_abs_self]
      calc |valueOf v| * |valueOf v| ≤ 2 ^ 60 * 2 ^ 60 := mul_le_mul hb hb (abs_nonneg _) (by norm_num)
        _ = 2 ^ 120 := by norm_num
    have h2 := mul_self_nonneg (valueOf v)
    have hm := mul_value hP hv hv (by rw [abs_of_nonneg h2]; exact le_trans h1 (le_trans (by norm_num) hmax))
    refine ⟨hm.1, by rw [hm.2]; exact rnd_nonneg h2, ?_⟩
    have := rnd32_error (valueOf v * valueOf v)
    rw [hm.2]
    rw [abs_of_nonneg h2, abs_le] at this
    have h3 := this.2
    norm_num at *
    linarith
  obtain ⟨fx, nx, ex⟩ := one hx bx
  obtain ⟨fy, ny, ey⟩ := one hy by'
  obtain ⟨fz, nz, ez⟩ := one hz bz
  have s1 := add_value hP fx fy (by
    rw [abs_of_nonneg (by linarith)]
    refine le_trans ?_ hmax
    norm_num at *
    linarith)
  have n1 : 0 ≤ valueOf (add (mul x x) (mul y y)) := by rw [s1.2]; exact rnd_nonneg (by linarith)
  have e1 := rnd32_error_add (mul x x) (mul y y)
  rw [← s1.2, abs_of_nonneg (a := valueOf (mul x x) + valueOf (mul y y)) (by linarith), abs_le] at e1
  have s2 := add_value hP s1.1 fz (by
    rw [abs_of_nonneg (by linarith)]
    refine le_trans ?_ hmax
    have := e1.2
    norm_num at *
    linarith)
  rw [s2.2]
  exact rnd_nonneg (by linarith)

theorem distV_sq {a c : Vec3 (Val b32)} (ha : Bounded a) (hc : Bounded c) :
    isFinite (distV a c) = true ∧ 0 ≤ valueOf (distV a c) ∧
    |valueOf (distV a c) ^ 2 - ((valueOf a.1 - valueOf c.1) ^ 2 + (valueOf a.2.1 - valueOf c.2.1) ^ 2 + (valueOf a.2.2 - valueOf c.2.2) ^ 2)| ≤
      1 / 2 ^ 20 * ((valueOf a.1 - valueOf c.1) ^ 2 + (valueOf a.2.1 - valueOf c.2.1) ^ 2 + (valueOf a.2.2 - valueOf c.2.2) ^ 2) + 1 / 2 ^ 146 := by
  obtain ⟨⟨fa1, fa2, fa3⟩, ba1, ba2, ba3⟩ := ha
  obtain ⟨⟨fc1, fc2, fc3⟩, bc1, bc2, bc3⟩ := hc
  obtain ⟨f1, b1, e1⟩ := sub_near fa1 fc1 ba1 bc1
  obtain ⟨f2, b2, e2⟩ := sub_near fa2 fc2 ba2 bc2
  obtain ⟨f3, b3, e3⟩ := sub_near fa3 fc3 ba3 bc3
  obtain ⟨hS, eS⟩ := sumsq_value f1 f2 f3 b1 b2 b3
  have hS0 := sumsq_nonneg f1 f2 f3 b1 b2 b3
  have hroot : isFinite (distV a c) = true ∧ 0 ≤ valueOf (distV a c) ∧
      |valueOf (distV a c) ^ 2 - valueOf (add (add (mul (sub a.1 c.1) (sub a.1 c.1)) (mul (sub a.2.1 c.2.1) (sub a.2.1 c.2.1)))
        (mul (sub a.2.2 c.2.2) (sub a.2.2 c.2.2)))| ≤
      3 / 2 ^ 24 * valueOf (add (add (mul (sub a.1 c.1) (sub a.1 c.1)) (mul (sub a.2.1 c.2.1) (sub a.2.1 c.2.1)))
        (mul (sub a.2.2 c.2.2) (sub a.2.2 c.2.2))) := by
    rw [distV]
    rcases hS0.eq_or_lt with h | h
    · generalize add (add (mul (sub a.1 c.1) (sub a.1 c.1)) (mul (sub a.2.1 c.2.1) (sub a.2.1 c.2.1)))
        (mul (sub a.2.2 c.2.2) (sub a.2.2 c.2.2)) = S at *
      obtain ⟨s, n, hn, rfl⟩ := finite_cases hS
      have hn0 : n = 0 := by
        have := abs_valueOf_fin s n hn
        rw [← h, abs_zero, eq_comm, div_eq_zero_iff] at this
        rcases this with h | h
        · exact_mod_cast h
        · exact absurd h (units_pos _).ne'
      subst hn0
      have : sqrt (.fin s 0 hn : Val b32) = .fin s 0 hn := by rw [sqrt, if_pos rfl]
      rw [this, ← h]
      exact ⟨rfl, le_refl _, by norm_num⟩
    · obtain ⟨h1, h2, h3⟩ := sqrt_value hS h
      exact ⟨h1, h2.le, h3⟩
  obtain ⟨hf, h0, hr⟩ := hroot
  refine ⟨hf, h0, ?_⟩
  clear hf h0 hS hS0 f1 f2 f3 b1 b2 b3
  have q1 := sq_nonneg (valueOf a.1 - valueOf c.1)
  have q2 := sq_nonneg (valueOf a.2.1 - valueOf c.2.1)
  have q3 := sq_nonneg (valueOf a.2.2 - valueOf c.2.2)
  generalize (valueOf a.1 - valueOf c.1) ^ 2 = D1 at *
  generalize (valueOf a.2.1 - valueOf c.2.1) ^ 2 = D2 at *
  generalize (valueOf a.2.2 - valueOf c.2.2) ^ 2 = D3 at *
  generalize valueOf (add (add (mul (sub a.1 c.1) (sub a.1 c.1)) (mul (sub a.2.1 c.2.1) (sub a.2.1 c.2.1)))
        (mul (sub a.2.2 c.2.2) (sub a.2.2 c.2.2))) = S at *
  generalize valueOf (sub a.1 c.1) ^ 2 = d1 at *
  generalize valueOf (sub a.2.1 c.2.1) ^ 2 = d2 at *
  generalize valueOf (sub a.2.2 c.2.2) ^ 2 = d3 at *
  generalize valueOf (distV a c) ^ 2 = E at *
  rw [abs_le] at *
  obtain ⟨_, _⟩ := e1
  obtain ⟨_, _⟩ := e2
  obtain ⟨_, _⟩ := e3
  obtain ⟨_, _⟩ := eS
  obtain ⟨_, _⟩ := hr
  norm_num at *
  constructor <;> linarith

/-- A root from a square. -/
theorem root_of_sq {e L ε δ : ℝ} (he : 0 ≤ e) (hL : 0 ≤ L) (hε : 0 ≤ ε) (hε1 : ε ≤ 1) (hδ : 0 ≤ δ)
    (h : |e ^ 2 - L ^ 2| ≤ ε * L ^ 2 + δ ^ 2) : |e - L| ≤ ε * L + δ := by
  rw [abs_le] at h ⊢
  constructor
  · by_contra hc
    push Not at hc
    have h1 : e + δ < (1 - ε) * L := by linarith
    have h2 : (e + δ) ^ 2 < ((1 - ε) * L) ^ 2 := by
      have h0 : 0 ≤ e + δ := by linarith
      nlinarith
    have h3 : (1 - ε) ^ 2 * L ^ 2 ≤ (1 - ε) * L ^ 2 := by
      refine mul_le_mul_of_nonneg_right ?_ (sq_nonneg L)
      nlinarith
    have h4 : 0 ≤ 2 * e * δ := by positivity
    nlinarith [h.1]
  · have h1 : e ^ 2 ≤ (L + ε * L + δ) ^ 2 := by
      have : 0 ≤ ε * L ^ 2 := by positivity
      have : 0 ≤ ε ^ 2 * L ^ 2 := by positivity
      have : 0 ≤ 2 * L * δ := by positivity
      have : 0 ≤ 2 * (ε * L) * δ := by positivity
      nlinarith [h.2]
    have h0 : 0 ≤ L + ε * L + δ := by positivity
    have := abs_le_of_sq_le_sq h1 h0
    linarith [le_abs_self e]

/-- The computed distance is the distance, up to rounding. -/
theorem distV_near {a c : Vec3 (Val b32)} (ha : Bounded a) (hc : Bounded c) :
    isFinite (distV a c) = true ∧ 0 ≤ valueOf (distV a c) ∧ |realOf (distV a c) - chord a c| ≤ 1 / 2 ^ 20 * chord a c + 1 / 2 ^ 73 := by
  obtain ⟨h1, h2, h3⟩ := distV_sq ha hc
  refine ⟨h1, h2, ?_⟩
  have hL : (chord a c) ^ 2 = (realOf a.1 - realOf c.1) ^ 2 + (realOf a.2.1 - realOf c.2.1) ^ 2 + (realOf a.2.2 - realOf c.2.2) ^ 2 := by
    rw [chord, length3, Real.sq_sqrt (by positivity)]
  refine root_of_sq (by rw [realOf]; exact_mod_cast h2) (Real.sqrt_nonneg _) (by norm_num) (by norm_num) (by norm_num) ?_
  rw [hL]
  have h4 := (Rat.cast_le (K := ℝ)).mpr h3
  simp only [realOf]
  push_cast at h4 ⊢
  refine le_trans h4 (le_of_eq ?_)
  norm_num

end Tmf.Ieee
