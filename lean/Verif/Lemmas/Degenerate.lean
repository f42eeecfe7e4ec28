import Verif.Spec.Degenerate
import Verif.Lemmas.Distance
import Verif.Lemmas.VertexWidth
import Verif.Lemmas.Log2
/-
Edges of no length.
-/

set_option exponentiation.threshold 2000

namespace Tmf.Ieee
open Spec

theorem mul_self_sign {x : Val b32} (h : isFinite x = true) : isSignNegative (mul x x) = false := by
  obtain ⟨s, n, hn, rfl⟩ := finite_cases h
  show isSignNegative (rounded (s != s) (n * n) (2 ^ b32.scale)) = false
  rw [bne_self_eq_false]
  exact rounded_sign _ _ _

theorem add_sign {x y : Val b32} (hx : isFinite x = true) (hy : isFinite y = true) (sx : isSignNegative x = false) (sy : isSignNegative y = false) :
    isSignNegative (add x y) = false := by
  obtain ⟨s, n, hn, rfl⟩ := finite_cases hx
  obtain ⟨t, m, hm, rfl⟩ := finite_cases hy
  cases (sx : s = false)
  cases (sy : t = false)
  have hd : decide (signed false n + signed false m < 0) = false := by
    rw [decide_eq_false_iff_not]
    simp only [signed, Bool.false_eq_true, if_false]
    omega
  simp only [add, hd, Bool.and_self]
  split <;> exact rounded_sign _ _ _

theorem zero_cases {x : Val b32} (h : isFinite x = true) (hv : valueOf x = 0) (hs : isSignNegative x = false) : ∃ h, x = .fin false 0 h := by
  obtain ⟨s, n, hn, rfl⟩ := finite_cases h
  cases (hs : s = false)
  rw [valueOf_fin] at hv
  have : n = 0 := by
    have hS := units_pos b32
    simp only [sgn, Bool.false_eq_true, if_false] at hv
    rw [one_mul] at hv
    rcases div_eq_zero_iff.mp hv with h | h
    · exact_mod_cast h
    · exact absurd h (ne_of_gt (by positivity))
  subst this
  exact ⟨hn, rfl⟩

theorem rnd_tiny {v : ℚ} (h0 : 0 ≤ v) (h : v ≤ 1 / 2 ^ 150) : rnd b32 v = 0 := by
  have hx : b32.Rep (2 ^ 74) := by decide +kernel
  have hz : b32.Rep 0 := by decide +kernel
  have hm := (mul_value (f := b32) (x := .fin false (2 ^ 74) hx) (y := .fin false (2 ^ 74) hx) (by decide) rfl rfl
    (le_trans (by rw [valueOf_fin, show b32.scale = 149 from rfl]; norm_num [sgn]) maxV32)).2
  have he : mul (.fin false (2 ^ 74) (by decide +kernel)) (.fin false (2 ^ 74) (by decide +kernel)) = (.fin false 0 (by decide +kernel) : Val b32) := by
    decide +kernel
  have hv : valueOf (.fin false 0 hz : Val b32) = 0 := by rw [valueOf_fin]; simp
  rw [he, hv, valueOf_fin, show b32.scale = 149 from rfl] at hm
  have e : (sgn false * (((2 ^ 74 : Nat) : ℚ) / 2 ^ 149)) * (sgn false * (((2 ^ 74 : Nat) : ℚ) / 2 ^ 149)) = 1 / 2 ^ 150 := by norm_num [sgn]
  have hm' : rnd b32 (1 / 2 ^ 150) = 0 := by
    rw [← e]
    exact hm.symm
  refine le_antisymm ?_ (rnd_nonneg h0)
  rw [← hm']
  exact rnd_mono (by decide) h

theorem sub_tiny {x y : Val b32} (hx : isFinite x = true) (hy : isFinite y = true) (h : |valueOf x - valueOf y| ≤ 1 / 2 ^ 75) :
    isFinite (sub x y) = true ∧ isFinite (mul (sub x y) (sub x y)) = true ∧ valueOf (mul (sub x y) (sub x y)) = 0 := by
  obtain ⟨hf, hv⟩ := sub_value (f := b32) (by decide) hx hy (le_trans h (le_trans (by norm_num) maxV32))
  have hr : b32.Rep (2 ^ 74) := by decide +kernel
  have hp : valueOf (.fin false (2 ^ 74) hr : Val b32) = 1 / 2 ^ 75 := by
    rw [valueOf_fin, show b32.scale = 149 from rfl]
    norm_num [sgn]
  have hn : valueOf (.fin true (2 ^ 74) hr : Val b32) = -(1 / 2 ^ 75) := by
    rw [valueOf_fin, show b32.scale = 149 from rfl]
    norm_num [sgn]
  have h1 := rnd_le_valueOf (f := b32) (by decide) (le_trans (abs_le.mp h).2 hp.ge)
  have h2 := valueOf_le_rnd (f := b32) (by decide) (le_trans hn.le (abs_le.mp h).1)
  rw [hp, ← hv] at h1
  rw [hn, ← hv] at h2
  have hb : |valueOf (sub x y)| ≤ 1 / 2 ^ 75 := abs_le.mpr ⟨h2, h1⟩
  have hs : valueOf (sub x y) * valueOf (sub x y) ≤ 1 / 2 ^ 150 := by
    rw [← abs_mul_abs_self]
    refine le_trans (mul_le_mul hb hb (abs_nonneg _) (by norm_num)) ?_
    norm_num
  obtain ⟨mf, mv⟩ := mul_value (f := b32) (by decide) hf hf (le_trans ((abs_mul_self (valueOf (sub x y))).trans_le hs) (le_trans (show (1 : ℚ) / 2 ^ 150 ≤ 2 ^ 127 by norm_num) maxV32))
  exact ⟨hf, mf, by rw [mv, rnd_tiny (mul_self_nonneg _) hs]⟩

theorem add_zeros {x y : Val b32} (hx : isFinite x = true) (hy : isFinite y = true) (vx : valueOf x = 0) (vy : valueOf y = 0) :
    isFinite (add x y) = true ∧ valueOf (add x y) = 0 := by
  obtain ⟨h1, h2⟩ := add_value (f := b32) (by decide) hx hy (le_trans (by rw [vx, vy]; norm_num) maxV32)
  exact ⟨h1, by rw [h2, vx, vy, add_zero, rnd_zero (by decide)]⟩

/-- The distance of two vertices in one place. -/
theorem dist_together {a c : Vec3 (Val b32)} (ha : Bounded a) (hc : Bounded c) (h : Together a c) : valueOf (distV a c) = 0 := by
  obtain ⟨-, f1, v1⟩ := sub_tiny ha.1.1 hc.1.1 h.1
  obtain ⟨-, f2, v2⟩ := sub_tiny ha.1.2.1 hc.1.2.1 h.2.1
  obtain ⟨-, f3, v3⟩ := sub_tiny ha.1.2.2 hc.1.2.2 h.2.2
  obtain ⟨g1, w1⟩ := add_zeros f1 f2 v1 v2
  obtain ⟨g2, w2⟩ := add_zeros g1 f3 w1 v3
  rw [distV]
  generalize add (add (mul (sub a.1 c.1) (sub a.1 c.1)) (mul (sub a.2.1 c.2.1) (sub a.2.1 c.2.1)))
    (mul (sub a.2.2 c.2.2) (sub a.2.2 c.2.2)) = x at *
  obtain ⟨s, n, hn, rfl⟩ := finite_cases g2
  rw [valueOf_fin] at w2
  have h0 : n = 0 := by
    have hS := units_pos b32
    rcases mul_eq_zero.mp w2 with e | e
    · cases s <;> norm_num [sgn] at e
    rcases div_eq_zero_iff.mp e with h | h
    · exact_mod_cast h
    · exact absurd h (ne_of_gt (by positivity))
  subst h0
  rw [show sqrt (.fin s 0 hn : Val b32) = .fin s 0 hn from rfl, valueOf_fin]
  simp

/-- Distances are not `-0`. -/
theorem dist_sign {a c : Vec3 (Val b32)} (ha : Bounded a) (hc : Bounded c) : isSignNegative (distV a c) = false := by
  obtain ⟨s1, b1, -⟩ := sub_near ha.1.1 hc.1.1 ha.2.1 hc.2.1
  obtain ⟨s2, b2, -⟩ := sub_near ha.1.2.1 hc.1.2.1 ha.2.2.1 hc.2.2.1
  obtain ⟨s3, b3, -⟩ := sub_near ha.1.2.2 hc.1.2.2 ha.2.2.2 hc.2.2.2
  have key : ∀ x : Val b32, isSignNegative x = false → isSignNegative (sqrt x) = false := by
    intro x hx
    cases x with
    | nan => rfl
    | inf s => cases (hx : s = false); rfl
    | fin s n h =>
      cases (hx : s = false)
      rw [sqrt]
      split
      · rfl
      · rw [if_neg Bool.false_ne_true]
        exact rounded_sign _ _ _
  refine key _ ?_
  have hmul : ∀ {x : Val b32}, isFinite x = true → |valueOf x| ≤ 2 ^ 60 → isFinite (mul x x) = true ∧ |valueOf (mul x x)| ≤ 2 ^ 121 := by
    intro x hx hb
    have hs : valueOf x * valueOf x ≤ 2 ^ 120 := by
      rw [← abs_mul_abs_self]
      refine le_trans (mul_le_mul hb hb (abs_nonneg _) (by norm_num)) ?_
      norm_num
    obtain ⟨f, v⟩ := mul_value (f := b32) (by decide) hx hx (le_trans ((abs_mul_self (valueOf x)).trans_le hs) (le_trans (show (2 : ℚ) ^ 120 ≤ 2 ^ 127 by norm_num) maxV32))
    refine ⟨f, ?_⟩
    have he := rnd32_error (valueOf x * valueOf x)
    rw [v]
    have h0 := mul_self_nonneg (valueOf x)
    rw [abs_of_nonneg h0] at he
    have := abs_le.mp he
    rw [abs_le]
    norm_num at *
    constructor <;> linarith
  obtain ⟨m1, c1⟩ := hmul s1 b1
  obtain ⟨m2, c2⟩ := hmul s2 b2
  obtain ⟨m3, c3⟩ := hmul s3 b3
  have hsum : |valueOf (mul (sub a.1 c.1) (sub a.1 c.1)) + valueOf (mul (sub a.2.1 c.2.1) (sub a.2.1 c.2.1))| ≤ 2 ^ 122 :=
    le_trans (abs_add_le _ _) (le_trans (add_le_add c1 c2) (by norm_num))
  have hadd := (add_value (f := b32) (by decide) m1 m2 (le_trans hsum (le_trans (by norm_num) maxV32))).1
  exact add_sign hadd m3 (add_sign m1 m2 (mul_self_sign s1) (mul_self_sign s2)) (mul_self_sign s3)

/-- No length asks for 255 bits. -/
theorem width_zero {lib : Libm} (hlog : AccurateLog2 lib) {size pr : Val b32} {h0 : b32.Rep 0} (hs : isFinite size = true) (s0 : 0 < valueOf size)
    (hp : isFinite pr = true) (p0 : 0 < valueOf pr) :
    bitsFor lib (div (lit 1 0) (mul (div (.fin false 0 h0) size) pr)) = 255 := by
  have pos : ∀ {x : Val b32}, isFinite x = true → 0 < valueOf x → ∃ n h, n ≠ 0 ∧ x = .fin false n h := by
    intro x hx h
    obtain ⟨s, n, hn, rfl⟩ := finite_cases hx
    rw [valueOf_fin] at h
    cases s with
    | true =>
      have : (0 : ℚ) ≤ (n : ℚ) / 2 ^ b32.scale := by positivity
      norm_num [sgn] at h
      linarith
    | false =>
      refine ⟨n, hn, ?_, rfl⟩
      rintro rfl
      simp at h
  obtain ⟨n, hn, n0, rfl⟩ := pos hs s0
  obtain ⟨m, hm, m0, rfl⟩ := pos hp p0
  have hz : ∀ d : Nat, (rounded false 0 d : Val b32) = .fin false 0 h0 := by
    intro d
    have hr : b32.round 0 d = 0 := by
      rw [Fmt.round, roundHalfEven]
      simp
    rw [rounded, hr, pack, dif_pos h0]
  have h1 : div (.fin false 0 h0) (.fin false n hn) = (.fin false 0 h0 : Val b32) := by
    show (if n = 0 then _ else rounded (false != false) (0 * 2 ^ b32.scale) n) = _
    rw [if_neg n0, Nat.zero_mul]
    exact hz n
  have h2 : mul (.fin false 0 h0) (.fin false m hm) = (.fin false 0 h0 : Val b32) := by
    show rounded (false != false) (0 * m) (2 ^ b32.scale) = _
    rw [Nat.zero_mul]
    exact hz _
  have h3 : div (lit 1 0) (.fin false 0 (by decide +kernel)) = (.inf false : Val b32) := by decide +kernel
  rw [h1, h2, h3]
  show ceilU8 (lib.log2 (.inf false)) = 255
  rw [hlog.infinite]
  rfl

end Tmf.Ieee
