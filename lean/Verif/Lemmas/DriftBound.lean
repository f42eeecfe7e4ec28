import Verif.Lemmas.DefaultNormal
import Verif.Spec.Drift
/-
What a second cycle does to a normal.
-/

namespace Tmf.Ieee
open Spec Geometry

/-- A direction whose height is kept exactly turns by one step of the angle, and rounding errors. -/
theorem turn_only {X Y Z R A t S C m x y h : ℝ} (hR : 0 ≤ R) (hm : 0 ≤ m) (h1 : |R ^ 2 + Z ^ 2 - 1| ≤ 1 / 2 ^ 18)
    (h2 : |m ^ 2 + Z ^ 2 - 1| ≤ 1 / 2 ^ 21) (hh0 : 0 ≤ h) (hh1 : h ≤ 1)
    (hA : (X - R * Real.sin A) ^ 2 + (Y - R * Real.cos A) ^ 2 ≤ (101 / 100000) ^ 2)
    (ht : |t - A| ≤ 1.5708 * h + 1 / 2 ^ 21)
    (hS : |S - Real.sin t| ≤ 1 / 2 ^ 22) (hC : |C - Real.cos t| ≤ 1 / 2 ^ 22)
    (hx : |x - S * m| ≤ 1 / 2 ^ 22) (hy : |y - C * m| ≤ 1 / 2 ^ 22) :
    length3 (X - x) (Y - y) (Z - Z) ≤ 1.5708 * h + 1 / 2 ^ 8 := by
  rw [abs_le] at h1 h2
  have hmle : m ^ 2 ≤ 1 + 1 / 2 ^ 21 := by nlinarith
  have hRle : R ^ 2 ≤ 1 + 1 / 2 ^ 18 := by nlinarith
  have hm2 : m ≤ 2 := by nlinarith
  have hL := leave_circle (Z := Z) (z := Z) hm hm2 hA hS hC hx hy
  have hd : |R ^ 2 - m ^ 2| ≤ 1 / 2 ^ 18 + 1 / 2 ^ 21 := by
    rw [abs_le]
    constructor <;> linarith [h1.1, h1.2, h2.1, h2.2]
  have hRm : R * m ≤ 1 + 1 / 2 ^ 18 := by nlinarith [sq_nonneg (R - m)]
  have hRm0 : 0 ≤ R * m := mul_nonneg hR hm
  obtain ⟨T, hT⟩ : ∃ T, T = 1.5708 * h + 1 / 2 ^ 21 := ⟨_, rfl⟩
  have hT0 : 0 ≤ T := by rw [hT]; positivity
  have hat : length3 (R * Real.sin A - m * Real.sin t) (R * Real.cos A - m * Real.cos t) (Z - Z) ≤ T + 21 / 10000 + 1 / 10 ^ 5 := by
    refine length3_le (by positivity) ?_
    rw [two_steps (Real.sin_sq_add_cos_sq A) (Real.sin_sq_add_cos_sq t), sub_self]
    have a1 : (A - t) ^ 2 ≤ T ^ 2 := by
      rw [← sq_abs, abs_sub_comm, hT]
      exact pow_le_pow_left₀ (abs_nonneg _) ht 2
    have a2 : R * m * ((Real.sin A - Real.sin t) ^ 2 + (Real.cos A - Real.cos t) ^ 2) ≤ (1 + 1 / 2 ^ 18) * T ^ 2 :=
      mul_le_mul hRm ((circle_le A t).trans a1) (by positivity) (by norm_num)
    have a3 := (sq_sub_le hR hm).trans hd
    have hT2 : T ≤ 1.6 := by rw [hT]; norm_num at *; linarith
    have a4 : 1 / 2 ^ 18 * T ^ 2 ≤ 2 * T * (1 / 10 ^ 5) := by
      have : T ^ 2 ≤ 1.6 * T := by nlinarith
      norm_num at *
      linarith
    have e : (T + 21 / 10000 + 1 / 10 ^ 5) ^ 2 = T ^ 2 + 2 * T * (1 / 10 ^ 5) + 2 * T * (21 / 10000) + (21 / 10000 + 1 / 10 ^ 5) ^ 2 := by ring
    have a5 : 0 ≤ 2 * T * (21 / 10000) := by positivity
    rw [e]
    have a6 : (1 : ℝ) / 2 ^ 18 + 1 / 2 ^ 21 ≤ (21 / 10000 + 1 / 10 ^ 5) ^ 2 := by norm_num
    linarith
  have a7 : (1 : ℝ) / 2 ^ 21 + 21 / 10000 + 1 / 10 ^ 5 + 101 / 100000 + 1 / 2 ^ 18 ≤ 1 / 2 ^ 8 := by norm_num
  linarith

/-- What every loaded normal is. -/
structure LoadedNormal (n : Vec3 (Val b32)) : Prop where
  finite : isFinite n.1 = true ∧ isFinite n.2.1 = true ∧ isFinite n.2.2 = true
  unit : AlmostUnit (1 / 2 ^ 18) n
  z_le : |valueOf n.2.2| ≤ 1

theorem abs_setSign_pos {s : Bool} {n : Nat} (h : b32.Rep n) : abs (setSign s (.fin false n h)) = .fin false n h := by
  cases s <;> rfl

theorem setSign_again {s : Bool} {n : Nat} (h : b32.Rep n) :
    valueOf (setSign (lt (setSign s (.fin false n h)) (lit 0 0 : Val b32)) (.fin false n h)) = valueOf (setSign s (.fin false n h)) := by
  have h0 : (lit 0 0 : Val b32) = .fin false 0 (by decide) := by decide +kernel
  rw [h0]
  cases s
  · rfl
  · rcases Nat.eq_zero_or_pos n with rfl | hn
    · rfl
    · have : lt (setSign true (.fin false n h)) (.fin false 0 (by decide) : Val b32) = true := by
        show decide (signed true n < signed false 0) = true
        rw [decide_eq_true_iff]
        simp only [signed, if_true, Bool.false_eq_true, if_false]
        omega
      rw [this]

theorem unitQ_again {p : Nat} (hp1 : 1 ≤ p) (hp : p ≤ 24) (x : Val b32) :
    ∃ n h, unitQ p x = .fin false n h ∧ unitQ p (unitQ p x) = unitQ p x := by
  have e : unitQ p x = .fin false (unitDec p x) (dec_rep hp1 hp (mod_le_mask p _)) := by
    rw [unitQ, div_code hp1 hp (mod_le_mask p _)]; rfl
  refine ⟨_, _, e, ?_⟩
  rw [e, unitQ, div_code hp1 hp (mod_le_mask p _)]
  exact fin_congr (unitDec_idem hp1 hp x) _ _

/-- A second cycle keeps the height. -/
theorem height_again {lib : Libm} {p : Nat} (hp1 : 1 ≤ p) (hp : p ≤ 24) (n : Vec3 (Val b32)) :
    valueOf (quantNormal (ops lib) p (quantNormal (ops lib) p n)).2.2 = valueOf (quantNormal (ops lib) p n).2.2 := by
  obtain ⟨m, h, e1, e2⟩ := unitQ_again hp1 hp (abs n.2.2)
  rw [quantNormal_eq lib hp1, quantNormal_eq lib hp1]
  dsimp only
  rw [e1, abs_setSign_pos, ← e1, e2, e1, setSign_again]

/-- A second cycle turns a normal by at most one step of the angle, rounding errors apart. -/
theorem near_again {lib : Libm} (hlib : AccurateLibm lib) {p : Nat} (hp1 : 1 ≤ p) (hp : p ≤ 24) {n : Vec3 (Val b32)}
    (hw : LoadedNormal (quantNormal (ops lib) p n)) :
    chord (quantNormal (ops lib) p n) (quantNormal (ops lib) p (quantNormal (ops lib) p n)) ≤ 1.5708 * codeStep p + 1 / 2 ^ 8 := by
  obtain ⟨j, h, e1, e2⟩ := unitQ_again hp1 hp (abs n.2.2)
  have ez : abs (quantNormal (ops lib) p n).2.2 = unitQ p (abs n.2.2) := by
    rw [quantNormal_eq lib hp1]
    dsimp only
    rw [e1, abs_setSign_pos]
  obtain ⟨X, Y, Z, R, A, t, S, C, m, x, y, z, hd, hZe, hze, hR0, hm0, hu1, hu2, hq0, hzZ, hZ1, hstep, hA, htA, sn, cn, xe, ye⟩ :=
    normal_parts hlib (p := p) hp1 (by omega) hw.finite (by norm_num) hw.unit (.inl hw.z_le) (by omega)
  push_cast at hu1
  have hzz : z = Z := by
    rw [hze, hZe, ez, e2, ← ez, realOf, (abs_fin_value hw.finite.2.2).2, realOf]
    push_cast
    rfl
  rw [hd]
  subst hzz
  have hs := codeStep_bounds hp1
  exact turn_only hR0 hm0 hu1 hu2 hs.1.le hs.2 hA htA sn cn xe ye

/-- What is loaded from a file that was saved from a loaded normal is a loaded normal. -/
theorem loaded_again {lib : Libm} (hlib : AccurateLibm lib) {p : Nat} (hp1 : 1 ≤ p) (hp : p ≤ 24) {n : Vec3 (Val b32)}
    (hf : isFinite n.1 = true ∧ isFinite n.2.1 = true ∧ isFinite n.2.2 = true) (hu : AlmostUnit (1 / 400) n) (hz : |valueOf n.2.2| ≤ 1) :
    LoadedNormal (quantNormal (ops lib) p n) := by
  have h := normal_kept_long hlib hp1 (by omega) hf hu (.inl hz) (by omega)
  exact ⟨h.finite, h.unit, h.height.1.trans hz⟩

theorem chord_trans (u v w : Vec3 (Val b32)) : chord u w ≤ chord u v + chord v w := by
  have := length3_add (realOf u.1 - realOf v.1) (realOf u.2.1 - realOf v.2.1) (realOf u.2.2 - realOf v.2.2)
    (realOf v.1 - realOf w.1) (realOf v.2.1 - realOf w.2.1) (realOf v.2.2 - realOf w.2.2)
  simp only [sub_add_sub_cancel] at this
  exact this

/-- `k` further cycles. -/
theorem cycles_near {lib : Libm} (hlib : AccurateLibm lib) {p : Nat} (hp1 : 1 ≤ p) (hp : p ≤ 24) : ∀ (k : Nat) (n : Vec3 (Val b32)),
    LoadedNormal (quantNormal (ops lib) p n) →
    valueOf ((quantNormal (ops lib) p)^[k] (quantNormal (ops lib) p n)).2.2 = valueOf (quantNormal (ops lib) p n).2.2 ∧
    chord (quantNormal (ops lib) p n) ((quantNormal (ops lib) p)^[k] (quantNormal (ops lib) p n)) ≤ k * (1.5708 * codeStep p + 1 / 2 ^ 8)
  | 0, n, _ => by
    refine ⟨rfl, ?_⟩
    rw [Function.iterate_zero, id, chord, sub_self, sub_self, sub_self, length3]
    simp
  | k + 1, n, hw => by
    have hw2 : LoadedNormal (quantNormal (ops lib) p (quantNormal (ops lib) p n)) :=
      loaded_again hlib hp1 hp hw.finite (hw.unit.trans (by norm_num)) hw.z_le
    obtain ⟨h1, h2⟩ := cycles_near hlib hp1 hp k _ hw2
    rw [Function.iterate_succ_apply]
    refine ⟨h1.trans (height_again hp1 hp n), ?_⟩
    have h3 := near_again hlib hp1 hp hw
    have h4 := chord_trans (quantNormal (ops lib) p n) (quantNormal (ops lib) p (quantNormal (ops lib) p n))
      ((quantNormal (ops lib) p)^[k] (quantNormal (ops lib) p (quantNormal (ops lib) p n)))
    push_cast
    linarith

end Tmf.Ieee
