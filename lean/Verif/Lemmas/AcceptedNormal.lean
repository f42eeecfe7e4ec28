import Verif.Spec.Accepted
import Verif.Lemmas.AcceptedReal
import Verif.Lemmas.NormalAngle
import Verif.Lemmas.NormalizeRange
/-
Normals whose length is within 0.001 of 1.
-/

set_option exponentiation.threshold 2000

namespace Tmf.Ieee
open Spec Geometry

/-- With at most 9 bits, a height that is a little above 1 gets the largest code. -/
theorem unitQ_above {p : Nat} (hp1 : 1 ≤ p) (hp : p ≤ 9) {x : Val b32} (hf : isFinite x = true) (h1 : 1 ≤ valueOf x)
    (h2 : valueOf x ≤ 1 + 1 / 800) : StepBelow p x (unitQ p x) := by
  have hP : 0 < b32.prec := by decide
  have e1 : (2 : ℕ) ^ p ≤ 512 := by
    have := Nat.pow_le_pow_right (n := 2) (by decide) hp
    simpa using this
  have e2 : 2 ≤ 2 ^ p := by
    have := Nat.pow_le_pow_right (n := 2) (by decide) hp1
    simpa using this
  obtain ⟨mf, mv⟩ := ofNat_value (c := 2 ^ p - 1) (by omega)
  obtain ⟨M, hM⟩ : ∃ M, M = 2 ^ p - 1 := ⟨_, rfl⟩
  have hMq : ((2 : ℚ) ^ p - 1) = M := by
    rw [hM, Nat.cast_sub (by omega)]
    push_cast
    rfl
  have hM1 : (1 : ℚ) ≤ M := by exact_mod_cast (by omega : 1 ≤ M)
  have hM2 : (M : ℚ) ≤ 511 := by exact_mod_cast (by omega : M ≤ 511)
  rw [← hM] at mf mv
  have hprod : valueOf x * M ≤ M + 3 / 4 := by nlinarith
  have hge : (M : ℚ) ≤ valueOf x * M := by nlinarith
  obtain ⟨wf, wv⟩ := mul_value hP hf mf (by
    rw [mv, abs_of_nonneg (by nlinarith)]
    exact le_trans hprod (le_trans (by norm_num; linarith) maxV32))
  rw [mv] at wv
  have w1 : (M : ℚ) ≤ valueOf (mul x (ofNat M)) := by
    rw [wv, ← mv]
    exact valueOf_le_rnd hP (by rw [mv]; exact hge)
  have w2 : valueOf (mul x (ofNat M)) < M + 1 := by
    have h := rnd32_error (valueOf x * M)
    rw [← wv, abs_of_nonneg (a := valueOf x * M) (by nlinarith), abs_le] at h
    have := h.2
    norm_num at this
    linarith
  obtain ⟨c1, c2⟩ := toU64_value wf (by linarith) (by linarith [show (512 : ℚ) < 2 ^ 64 by norm_num])
  have hc : toU64 (mul x (ofNat M)) = M := by
    have a1 : ((toU64 (mul x (ofNat M)) : ℕ) : ℚ) < ((M + 1 : ℕ) : ℚ) := by push_cast; linarith
    have a2 : ((M : ℕ) : ℚ) < ((toU64 (mul x (ofNat M)) + 1 : ℕ) : ℚ) := by push_cast; linarith
    have := Nat.cast_lt.mp a1
    have := Nat.cast_lt.mp a2
    omega
  have e3 : unitQ p x = div (ofNat M) (ofNat M) := by
    rw [unitQ, ← hM, hc, Nat.mod_eq_of_lt (by omega)]
  have hdd : (M : ℚ) / M = 1 := div_self (by linarith)
  obtain ⟨df, dv⟩ := div_value hP mf mf (by rw [mv]; linarith) (by rw [mv, hdd, abs_one]; exact le_trans (by norm_num) maxV32)
  rw [mv, hdd] at dv
  have hone : rnd b32 1 = 1 := by
    have := rnd_valueOf hP (lit 1 0 : Val b32)
    rwa [lit_one.2] at this
  rw [e3]
  refine ⟨df, by rw [dv, hone]; exact h1, ?_⟩
  rw [dv, hone, hMq]
  have : (1 : ℚ) / 800 < 1 / M := by
    rw [div_lt_div_iff₀ (by norm_num) (by linarith)]
    linarith
  linarith

/-- The numbers that appear when a normal of squared length `1 ± ε` is encoded and decoded: its distances `X`, `Y`, `Z` from the
coordinate planes, `R` from the axis, its angle `A` around it, and the decoded ones. -/
theorem normal_parts {lib : Libm} (hlib : AccurateLibm lib) {p : Nat} (hp1 : 1 ≤ p) (hp : p ≤ 31) {n : Vec3 (Val b32)}
    (hf : isFinite n.1 = true ∧ isFinite n.2.1 = true ∧ isFinite n.2.2 = true) {ε : ℚ} (hε : ε ≤ 1 / 400) (hu : AlmostUnit ε n)
    (hz0 : |valueOf n.2.2| ≤ 1 ∨ p ≤ 9) (hoff : 25 ≤ p → OffAxes n) :
    ∃ X Y Z R A t S C m x y z : ℝ, chord n (quantNormal (ops lib) p n) = length3 (X - x) (Y - y) (Z - z) ∧ Z = |realOf n.2.2| ∧
      z = realOf (unitQ p (abs n.2.2)) ∧ 0 ≤ R ∧ 0 ≤ m ∧ |R ^ 2 + Z ^ 2 - 1| ≤ (ε : ℝ) ∧ |m ^ 2 + z ^ 2 - 1| ≤ 1 / 2 ^ 21 ∧ 0 ≤ z ∧ z ≤ Z ∧ Z ≤ 1 + 1 / 800 ∧
      Z - z ≤ codeStep p ∧ (X - R * Real.sin A) ^ 2 + (Y - R * Real.cos A) ^ 2 ≤ (101 / 100000) ^ 2 ∧
      |t - A| ≤ 1.5708 * codeStep p + 1 / 2 ^ 21 ∧ |S - Real.sin t| ≤ 1 / 2 ^ 22 ∧ |C - Real.cos t| ≤ 1 / 2 ^ 22 ∧
      |x - S * m| ≤ 1 / 2 ^ 22 ∧ |y - C * m| ≤ 1 / 2 ^ 22 := by
  obtain ⟨hx, hy, hz⟩ := hf
  have huε := (Rat.cast_le (K := ℝ)).mpr hu
  push_cast at huε
  replace hu : AlmostUnit (1 / 400) n := hu.trans hε
  have hz1 : |valueOf n.2.2| ≤ 1 + 1 / 800 := by
    rw [AlmostUnit, abs_le] at hu
    refine abs_le_of_sq_le_sq ?_ (by norm_num)
    have := hu.2
    have := sq_nonneg (valueOf n.1)
    have := sq_nonneg (valueOf n.2.1)
    norm_num at *
    linarith
  obtain ⟨fz, vz⟩ := abs_fin_value hz
  have hoff' : p ≤ 24 ∨ OffAxes n := (Nat.lt_or_ge 24 p).symm.imp_right hoff
  obtain ⟨-, zs1, zs2⟩ : StepBelow p (abs n.2.2) (unitQ p (abs n.2.2)) := by
    rcases le_or_gt |valueOf n.2.2| 1 with h1 | h1
    · exact unitQ_stepBelow hp1 hp ⟨fz, by rw [vz]; exact abs_nonneg _, by rw [vz]; exact h1⟩
        (hoff'.imp_right fun h => by rw [vz]; exact h.z)
    · exact unitQ_above hp1 (hz0.resolve_left (not_le.mpr h1)) fz (by rw [vz]; exact h1.le) (by rw [vz]; exact hz1)
  have qu := unitQ_unit hp1 (by omega) (abs n.2.2)
  obtain ⟨tf, t0, t1⟩ := angleQ_value lib hp1 (by omega) n
  obtain ⟨⟨xf, yf⟩, ⟨x0, y0⟩, sn, cn, xe, ye⟩ := decoded_value hlib tf t0 t1 qu
  obtain ⟨gf, g0, ge⟩ := magQ_value qu
  have ger : |realOf (magQ (unitQ p (abs n.2.2))) ^ 2 + realOf (unitQ p (abs n.2.2)) ^ 2 - 1| ≤ 1 / 2 ^ 21 := by
    have h := (Rat.cast_le (K := ℝ)).mpr ge
    push_cast at h
    exact h
  have g0r : 0 ≤ realOf (magQ (unitQ p (abs n.2.2))) := by rw [realOf]; exact_mod_cast g0
  rw [quantNormal_eq lib hp1]
  obtain ⟨dx, sx, qx, -⟩ := sign_restored (x := n.1) (v := mul (lib.sin (angleQ lib p n)) (magQ (unitQ p (abs n.2.2)))) hx
  obtain ⟨dy, sy, qy, ay⟩ := sign_restored (x := n.2.1) (v := mul (lib.cos (angleQ lib p n)) (magQ (unitQ p (abs n.2.2)))) hy
  obtain ⟨dz, sz, qz, az⟩ := sign_restored (x := n.2.2) (v := unitQ p (abs n.2.2)) hz
  have q0 := qu.2.1
  -- the exact vector
  rw [AlmostUnit] at hu
  have hur := (Rat.cast_le (K := ℝ)).mpr hu
  push_cast at hur
  have hur' : |(|realOf n.1| ^ 2 + |realOf n.2.1| ^ 2) + |realOf n.2.2| ^ 2 - 1| ≤ 1 / 400 := by
    rw [sq_abs, sq_abs, sq_abs]; exact hur
  have hue : |(|realOf n.1| ^ 2 + |realOf n.2.1| ^ 2) + |realOf n.2.2| ^ 2 - 1| ≤ (ε : ℝ) := by
    rw [sq_abs, sq_abs, sq_abs]; exact huε
  have hQle : valueOf n.1 ^ 2 + valueOf n.2.1 ^ 2 ≤ 81 / 64 := by
    rw [abs_le] at hu
    have := hu.2
    norm_num at this
    linarith [sq_nonneg (valueOf n.2.2)]
  have bx : |valueOf n.1| ≤ 9 / 8 := by
    refine abs_le_of_sq_le_sq ?_ (by norm_num)
    linarith [sq_nonneg (valueOf n.2.1)]
  have by' : |valueOf n.2.1| ≤ 9 / 8 := by
    refine abs_le_of_sq_le_sq ?_ (by norm_num)
    linarith [sq_nonneg (valueOf n.1)]
  obtain ⟨X, hX⟩ : ∃ X, X = |realOf n.1| := ⟨_, rfl⟩
  obtain ⟨Y, hY⟩ : ∃ Y, Y = |realOf n.2.1| := ⟨_, rfl⟩
  have hX0 : 0 ≤ X := by rw [hX]; exact abs_nonneg _
  have hY0 : 0 ≤ Y := by rw [hY]; exact abs_nonneg _
  obtain ⟨R, hR⟩ : ∃ R, R = √(X ^ 2 + Y ^ 2) := ⟨_, rfl⟩
  have hR0 : 0 ≤ R := by rw [hR]; exact Real.sqrt_nonneg _
  have hRR : R ^ 2 = X ^ 2 + Y ^ 2 := by rw [hR]; exact Real.sq_sqrt (by positivity)
  rw [← hX, ← hY, ← hRR] at hur' hue
  have hang : ∃ A : ℝ, (X - R * Real.sin A) ^ 2 + (Y - R * Real.cos A) ^ 2 ≤ (101 / 100000) ^ 2 ∧
      |realOf (angleQ lib p n) - A| ≤ 1.5708 * codeStep p + 1 / 2 ^ 21 := by
    rcases le_or_gt (1 / 2 ^ 40) (valueOf n.1 ^ 2 + valueOf n.2.1 ^ 2) with hQ | hQ
    · have hRpos : 0 < R := by
        have h := (Rat.cast_le (K := ℝ)).mpr hQ
        push_cast at h
        have h2 : (1 : ℝ) / 2 ^ 40 ≤ R ^ 2 := by rw [hRR, hX, hY, sq_abs, sq_abs]; exact h
        rcases eq_or_lt_of_le hR0 with h3 | h3
        · rw [← h3] at h2; norm_num at h2
        · exact h3
      obtain ⟨q, hq0, hq1, hq, ht⟩ := angleQ_near hlib hp1 hp (hoff'.imp_right (·.x)) hx hy bx by' hQ hX hY hRpos hRR
      refine ⟨_, around_axis_long hX0 hY0 hR0 hRR ?_ hq0 hq1 hq, ht⟩
      rw [abs_le] at hur'
      linarith [hur'.2, sq_nonneg |realOf n.2.2|]
    · refine ⟨realOf (angleQ lib p n), le_trans (near_axis hRR ?_) (by norm_num), ?_⟩
      · have h := (Rat.cast_lt (K := ℝ)).mpr hQ
        push_cast at h
        rw [hRR, hX, hY, sq_abs, sq_abs]
        exact h.le
      · rw [sub_self, abs_zero]
        have := (codeStep_bounds hp1).1
        positivity
  obtain ⟨A, hA, htA⟩ := hang
  have hzZ : realOf (unitQ p (abs n.2.2)) ≤ |realOf n.2.2| := by
    rw [vz] at zs1
    have h := (Rat.cast_le (K := ℝ)).mpr zs1
    push_cast at h
    exact h
  have hZ1 : |realOf n.2.2| ≤ 1 + 1 / 800 := by
    have h := (Rat.cast_le (K := ℝ)).mpr hz1
    push_cast at h
    exact h
  have hstep : |realOf n.2.2| - realOf (unitQ p (abs n.2.2)) ≤ codeStep p := by
    rw [vz] at zs2
    have h := (Rat.cast_lt (K := ℝ)).mpr zs2
    rw [codeStep_cast] at h
    push_cast at h
    exact h.le
  have q0r : 0 ≤ realOf (unitQ p (abs n.2.2)) := by rw [realOf]; exact_mod_cast q0
  have hdist : length3 (X - realOf (mul (lib.sin (angleQ lib p n)) (magQ (unitQ p (abs n.2.2)))))
      (Y - realOf (mul (lib.cos (angleQ lib p n)) (magQ (unitQ p (abs n.2.2))))) (|realOf n.2.2| - realOf (unitQ p (abs n.2.2))) =
      chord n (setSign (lt n.1 (lit 0 0)) (mul (lib.sin (angleQ lib p n)) (magQ (unitQ p (abs n.2.2)))),
       setSign (lt n.2.1 (lit 0 0)) (mul (lib.cos (angleQ lib p n)) (magQ (unitQ p (abs n.2.2)))),
       setSign (lt n.2.2 (lit 0 0)) (unitQ p (abs n.2.2))) := by
    rw [chord, length3, length3]
    dsimp only
    rw [dx, dy, dz, hX, hY]
  exact ⟨_, _, _, _, _, _, _, _, _, _, _, _, hdist.symm, rfl, rfl, hR0, g0r, hue, ger, q0r, hzZ, hZ1, hstep, hA, htA, sn, cn, xe, ye⟩

/-- What the encoding leaves of a normal whose squared length is `1 ± 1/400`. -/
theorem normal_kept_long {lib : Libm} (hlib : AccurateLibm lib) {p : Nat} (hp1 : 1 ≤ p) (hp : p ≤ 31) {n : Vec3 (Val b32)}
    (hf : isFinite n.1 = true ∧ isFinite n.2.1 = true ∧ isFinite n.2.2 = true) (hu : AlmostUnit (1 / 400) n)
    (hz0 : |valueOf n.2.2| ≤ 1 ∨ p ≤ 9) (hoff : 25 ≤ p → OffAxes n) : KeptAccepted p n (quantNormal (ops lib) p n) := by
  obtain ⟨X, Y, Z, R, A, t, S, C, m, x, y, z, hd, hZe, -, hR0, hm0, hu1, hu2, hq0, hzZ, hZ1, hstep, hA, htA, sn', cn', xe', ye'⟩ :=
    normal_parts hlib hp1 hp hf le_rfl hu hz0 hoff
  push_cast at hu1
  obtain ⟨hx, hy, hz⟩ := hf
  have hz1 : |valueOf n.2.2| ≤ 1 + 1 / 800 := by
    rw [AlmostUnit, abs_le] at hu
    refine abs_le_of_sq_le_sq ?_ (by norm_num)
    have := hu.2
    have := sq_nonneg (valueOf n.1)
    have := sq_nonneg (valueOf n.2.1)
    norm_num at *
    linarith
  obtain ⟨fz, vz⟩ := abs_fin_value hz
  have hoff' : p ≤ 24 ∨ OffAxes n := (Nat.lt_or_ge 24 p).symm.imp_right hoff
  obtain ⟨-, zs1, zs2⟩ : StepBelow p (abs n.2.2) (unitQ p (abs n.2.2)) := by
    rcases le_or_gt |valueOf n.2.2| 1 with h1 | h1
    · exact unitQ_stepBelow hp1 hp ⟨fz, by rw [vz]; exact abs_nonneg _, by rw [vz]; exact h1⟩
        (hoff'.imp_right fun h => by rw [vz]; exact h.z)
    · exact unitQ_above hp1 (hz0.resolve_left (not_le.mpr h1)) fz (by rw [vz]; exact h1.le) (by rw [vz]; exact hz1)
  have qu := unitQ_unit hp1 (by omega) (abs n.2.2)
  obtain ⟨tf, t0, t1⟩ := angleQ_value lib hp1 (by omega) n
  obtain ⟨⟨xf, yf⟩, ⟨x0, y0⟩, sn, cn, xe, ye⟩ := decoded_value hlib tf t0 t1 qu
  obtain ⟨gf, g0, ge⟩ := magQ_value qu
  have ger : |realOf (magQ (unitQ p (abs n.2.2))) ^ 2 + realOf (unitQ p (abs n.2.2)) ^ 2 - 1| ≤ 1 / 2 ^ 21 := by
    have h := (Rat.cast_le (K := ℝ)).mpr ge
    push_cast at h
    exact h
  have g0r : 0 ≤ realOf (magQ (unitQ p (abs n.2.2))) := by rw [realOf]; exact_mod_cast g0
  rw [quantNormal_eq lib hp1]
  obtain ⟨dx, sx, qx, -⟩ := sign_restored (x := n.1) (v := mul (lib.sin (angleQ lib p n)) (magQ (unitQ p (abs n.2.2)))) hx
  obtain ⟨dy, sy, qy, ay⟩ := sign_restored (x := n.2.1) (v := mul (lib.cos (angleQ lib p n)) (magQ (unitQ p (abs n.2.2)))) hy
  obtain ⟨dz, sz, qz, az⟩ := sign_restored (x := n.2.2) (v := unitQ p (abs n.2.2)) hz
  have q0 := qu.2.1
  rw [quantNormal_eq lib hp1] at hd
  have hmain := direction_near_long hR0 hm0 hu1 (le_trans hu2 (by norm_num)) hq0 hzZ hZ1 hstep (codeStep_bounds hp1).1.le
    (codeStep_bounds hp1).2 hA htA sn' cn' xe' ye'
  rw [← hd] at hmain
  refine ⟨⟨?_, ?_, ?_⟩, ?_, sx x0, ?_, sz q0, ?_, hmain.1, ?_⟩
  · rw [(setSign_value _ _).1]; exact xf
  · rw [(setSign_value _ _).1]; exact yf
  · rw [(setSign_value _ _).1]; exact qu.1
  · rw [AlmostUnit]
    dsimp only
    rw [qx, qy, qz]
    have h := decoded_unit g0r ger sn cn xe ye
    have h' : ((|valueOf (mul (lib.sin (angleQ lib p n)) (magQ (unitQ p (abs n.2.2)))) ^ 2 +
        valueOf (mul (lib.cos (angleQ lib p n)) (magQ (unitQ p (abs n.2.2)))) ^ 2 +
        valueOf (unitQ p (abs n.2.2)) ^ 2 - 1| : ℚ) : ℝ) ≤ ((1 / 2 ^ 18 : ℚ) : ℝ) := by
      push_cast
      exact h
    exact Rat.cast_le.mp h'
  · rcases y0 with h | h
    · exact .inl (sy h)
    · exact .inr (by dsimp only; rw [ay]; exact h)
  · dsimp only
    rw [az, abs_of_nonneg q0, ← vz]
    exact ⟨zs1, zs2⟩
  · intro hZ2
    refine hmain.2 ?_
    rw [hZe, sq_abs, realOf]
    have h := (Rat.cast_le (K := ℝ)).mpr hZ2
    push_cast at h
    exact h

end Tmf.Ieee
