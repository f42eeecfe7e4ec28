import Verif.Lemmas.AcceptedNormal

/-! # Seven bits and the normals away from the poles -/

namespace Tmf.Ieee

open Tmf.Spec Tmf.Geometry

/-- A parabola between 1/3 and 1, under a line. -/
theorem low_line {u q D DU QU DV DZ : ℝ} (hu0 : 1 / 3 ≤ u) (hu1 : u ≤ 1) (e2 : DV + DU = D) (hD : D ≤ 62002 / 10 ^ 9)
    (hdZ : DZ ≤ 65 / 10000) (hqu : QU ≤ DV + 2 * DZ / 2 ^ 20 + 1 / 2 ^ 40 + 3 / 2 ^ 20) (e : q = QU + DU + 1531 / 10 ^ 7 * u ^ 2 +
      66 / 10000 * (1531 / 10 ^ 7) * u) : q ≤ 26 / 10 ^ 5 * u := by
  have hc : u ^ 2 ≤ 4 / 3 * u - 1 / 3 := by nlinarith
  generalize u ^ 2 = U at *
  norm_num at *
  linarith

/-- The distance from the axis and the height, below latitude arcsin √(2/3), for steps of at most 1/127. -/
theorem low_sum {R Z m z h K : ℝ} (hR : 0 ≤ R) (hm : 0 ≤ m) (h1 : |R ^ 2 + Z ^ 2 - 1| ≤ 1 / 2 ^ 20)
    (h2 : |m ^ 2 + z ^ 2 - 1| ≤ 1 / 2 ^ 20) (hz : 0 ≤ z) (hzZ : z ≤ Z) (hZ : Z ^ 2 ≤ 2 / 3) (hh : Z - z ≤ h) (hh1 : h ≤ 1 / 127)
    (hK0 : 0 ≤ K) (hK : K ≤ 1531 / 10 ^ 7) : (R - m) ^ 2 + (Z - z) ^ 2 + R * m * K ≤ 26 / 10 ^ 5 := by
  obtain ⟨d, hd⟩ : ∃ d, d = Z - z := ⟨_, rfl⟩
  have hd0 : 0 ≤ d := by rw [hd]; linarith
  have hd1 : d ≤ 1 / 127 := by rw [hd]; linarith
  have hzd : z = Z - d := by rw [hd]; ring
  have hZ0 : 0 ≤ Z := hz.trans hzZ
  have hZ1 : Z ≤ 817 / 1000 := by nlinarith
  rw [← hd]
  subst hzd
  rw [abs_le] at h1 h2
  obtain ⟨u, hu⟩ : ∃ u, u = 1 - Z ^ 2 := ⟨_, rfl⟩
  have hu0 : 1 / 3 ≤ u := by rw [hu]; linarith
  have hu1 : u ≤ 1 := by rw [hu]; nlinarith
  have hdZ0 : 0 ≤ d * Z := mul_nonneg hd0 hZ0
  have hdZ : d * Z ≤ 65 / 10000 := by
    have := mul_le_mul hd1 hZ1 hZ0 (by norm_num)
    norm_num at *
    linarith
  have hD : d ^ 2 ≤ 62002 / 10 ^ 9 := by
    have := pow_le_pow_left₀ hd0 hd1 2
    norm_num at *
    linarith
  have hdd : d ^ 2 ≤ 2 * (d * Z) := by nlinarith
  -- the squares
  have r1 : R ^ 2 ≤ u + 1 / 2 ^ 20 := by rw [hu]; linarith [h1.2]
  have r2 : u - 1 / 2 ^ 20 ≤ R ^ 2 := by rw [hu]; linarith [h1.1]
  have ez : (Z - d) ^ 2 = Z ^ 2 - 2 * (d * Z) + d ^ 2 := by ring
  have m1 : m ^ 2 ≤ u + 2 * (d * Z) + 1 / 2 ^ 20 := by rw [hu]; linarith [h2.2, sq_nonneg d]
  have m2 : u - 1 / 2 ^ 20 ≤ m ^ 2 := by rw [hu]; linarith [h2.1]
  have hRm : R * m ≤ u + 66 / 10000 := by
    have := sq_nonneg (R - m)
    norm_num at *
    linarith
  have hdiff : |R ^ 2 - m ^ 2| ≤ 2 * (d * Z) + 2 / 2 ^ 20 := by
    rw [abs_le]
    constructor <;> linarith [h1.1, h1.2, h2.1, h2.2, sq_nonneg d]
  have hRm0 : 0 ≤ R * m := mul_nonneg hR hm
  have hlow : u - 1 / 2 ^ 20 ≤ R * m := by
    have hv : 0 ≤ u - 1 / 2 ^ 20 := by norm_num at *; linarith
    have := mul_le_mul r2 m2 hv (sq_nonneg R)
    rw [← mul_pow, ← sq] at this
    exact (pow_le_pow_iff_left₀ hv hRm0 (by norm_num)).mp this
  have hsum : 4 * (u - 1 / 2 ^ 20) ≤ (R + m) ^ 2 := by
    have : (R + m) ^ 2 = R ^ 2 + m ^ 2 + 2 * (R * m) := by ring
    linarith
  have hprod : (R - m) ^ 2 * (R + m) ^ 2 ≤ (2 * (d * Z) + 2 / 2 ^ 20) ^ 2 := by
    have e : (R - m) ^ 2 * (R + m) ^ 2 = |R ^ 2 - m ^ 2| ^ 2 := by rw [sq_abs]; ring
    rw [e]
    exact pow_le_pow_left₀ (abs_nonneg _) hdiff 2
  obtain ⟨q, hq⟩ : ∃ q, q = (R - m) ^ 2 := ⟨_, rfl⟩
  have hq0 : 0 ≤ q := by rw [hq]; exact sq_nonneg _
  have hq1 : q ≤ 3 := by
    have e : (R - m) ^ 2 = R ^ 2 + m ^ 2 - 2 * (R * m) := by ring
    rw [hq, e]
    norm_num at *
    linarith
  rw [← hq] at hprod ⊢
  have hqu : q * u ≤ d ^ 2 * (1 - u) + 2 * (d * Z) / 2 ^ 20 + 1 / 2 ^ 40 + 3 / 2 ^ 20 := by
    have a1 := mul_le_mul_of_nonneg_left hsum hq0
    have e : (2 * (d * Z) + 2 / 2 ^ 20) ^ 2 = 4 * (d ^ 2 * (1 - u) + 2 * (d * Z) / 2 ^ 20 + 1 / 2 ^ 40) := by rw [hu]; ring
    rw [e] at hprod
    have e2 : q * (4 * (u - 1 / 2 ^ 20)) = 4 * (q * u) - 4 / 2 ^ 20 * q := by ring
    rw [e2] at a1
    norm_num at *
    linarith
  have hRK : R * m * K ≤ (u + 66 / 10000) * (1531 / 10 ^ 7) :=
    mul_le_mul hRm hK hK0 (by linarith)
  have hgoal : (q + d ^ 2 + (u + 66 / 10000) * (1531 / 10 ^ 7)) * u ≤ 26 / 10 ^ 5 * u := by
    have e : (q + d ^ 2 + (u + 66 / 10000) * (1531 / 10 ^ 7)) * u = q * u + d ^ 2 * u + 1531 / 10 ^ 7 * u ^ 2 +
      66 / 10000 * (1531 / 10 ^ 7) * u := by ring
    exact low_line hu0 hu1 (by ring : d ^ 2 * (1 - u) + d ^ 2 * u = d ^ 2) hD hdZ hqu e
  have := le_of_mul_le_mul_right hgoal (by linarith : 0 < u)
  linarith

/-- The rounding errors of the coordinates, apart from those of the angle and of the height. -/
theorem leave_circle {X Y Z R A t S C m x y z : ℝ} (hm : 0 ≤ m) (hm2 : m ≤ 2)
    (hA : (X - R * Real.sin A) ^ 2 + (Y - R * Real.cos A) ^ 2 ≤ (101 / 100000) ^ 2)
    (hS : |S - Real.sin t| ≤ 1 / 2 ^ 22) (hC : |C - Real.cos t| ≤ 1 / 2 ^ 22)
    (hx : |x - S * m| ≤ 1 / 2 ^ 22) (hy : |y - C * m| ≤ 1 / 2 ^ 22) :
    length3 (X - x) (Y - y) (Z - z) ≤
      length3 (R * Real.sin A - m * Real.sin t) (R * Real.cos A - m * Real.cos t) (Z - z) + 101 / 100000 + 1 / 2 ^ 18 := by
  have a1 := length3_add (R * Real.sin A - m * Real.sin t) (R * Real.cos A - m * Real.cos t) (Z - z)
    (X - R * Real.sin A) (Y - R * Real.cos A) 0
  have a2 := length3_add (R * Real.sin A - m * Real.sin t + (X - R * Real.sin A))
    (R * Real.cos A - m * Real.cos t + (Y - R * Real.cos A)) (Z - z + 0) (m * Real.sin t - x) (m * Real.cos t - y) 0
  have e1 : R * Real.sin A - m * Real.sin t + (X - R * Real.sin A) + (m * Real.sin t - x) = X - x := by ring
  have e2 : R * Real.cos A - m * Real.cos t + (Y - R * Real.cos A) + (m * Real.cos t - y) = Y - y := by ring
  have e3 : Z - z + 0 + 0 = Z - z := by ring
  rw [e1, e2, e3] at a2
  have b1 : length3 (X - R * Real.sin A) (Y - R * Real.cos A) 0 ≤ 101 / 100000 :=
    length3_le (by norm_num) (by linarith)
  have b2 : length3 (m * Real.sin t - x) (m * Real.cos t - y) 0 ≤ 1 / 2 ^ 18 := by
    refine length3_le (by norm_num) ?_
    have c1 := pow_le_pow_left₀ (abs_nonneg _) (component_error hm hm2 hS hx) 2
    have c2 := pow_le_pow_left₀ (abs_nonneg _) (component_error hm hm2 hC hy) 2
    rw [sq_abs] at c1 c2
    have : (2 * ((1 : ℝ) / 2 ^ 22) + 1 / 2 ^ 22) ^ 2 + (2 * (1 / 2 ^ 22) + 1 / 2 ^ 22) ^ 2 ≤ (1 / 2 ^ 18) ^ 2 := by norm_num
    linarith
  linarith

/-- Away from the poles a normal stored with steps of at most 1/127 comes back less than a degree off. -/
theorem direction_low {X Y Z R A t S C m x y z h : ℝ} (hR : 0 ≤ R) (hm : 0 ≤ m)
    (h1 : |R ^ 2 + Z ^ 2 - 1| ≤ 1 / 2 ^ 20) (h2 : |m ^ 2 + z ^ 2 - 1| ≤ 1 / 2 ^ 20)
    (hz : 0 ≤ z) (hzZ : z ≤ Z) (hZ : Z ^ 2 ≤ 2 / 3) (hh : Z - z ≤ h) (hh1 : h ≤ 1 / 127)
    (hA : (X - R * Real.sin A) ^ 2 + (Y - R * Real.cos A) ^ 2 ≤ (101 / 100000) ^ 2)
    (ht : |t - A| ≤ 1.5708 * h + 1 / 2 ^ 21)
    (hS : |S - Real.sin t| ≤ 1 / 2 ^ 22) (hC : |C - Real.cos t| ≤ 1 / 2 ^ 22)
    (hx : |x - S * m| ≤ 1 / 2 ^ 22) (hy : |y - C * m| ≤ 1 / 2 ^ 22) :
    length3 (X - x) (Y - y) (Z - z) ≤ 1715 / 100000 := by
  have hmle : m ^ 2 ≤ 1 + 1 / 2 ^ 20 := by rw [abs_le] at h2; nlinarith
  have hm2 : m ≤ 2 := by nlinarith
  have hL := leave_circle (Z := Z) (z := z) hm hm2 hA hS hC hx hy
  have hat : length3 (R * Real.sin A - m * Real.sin t) (R * Real.cos A - m * Real.cos t) (Z - z) ≤ 1613 / 100000 := by
    refine length3_le (r := 1613 / 100000) (by norm_num) ?_
    rw [two_steps (Real.sin_sq_add_cos_sq A) (Real.sin_sq_add_cos_sq t)]
    have a2 : (A - t) ^ 2 ≤ 1531 / 10 ^ 7 := by
      rw [← sq_abs, abs_sub_comm]
      have : |t - A| ≤ 12370 / 10 ^ 6 := by norm_num at *; linarith
      refine (pow_le_pow_left₀ (abs_nonneg _) this 2).trans (by norm_num)
    have := low_sum hR hm h1 h2 hz hzZ hZ hh hh1 (by positivity) ((circle_le A t).trans a2)
    have e : (26 / 10 ^ 5 : ℝ) ≤ (1613 / 100000) ^ 2 := by norm_num
    linarith
  norm_num at *
  linarith

/-- Two vectors whose ends are a short way apart enclose a small angle. -/
theorem angle_of_chord {v w : Vec3 (Val b32)} {θ c : ℝ} (hc : chord v w ≤ c)
    (h : c ^ 2 ≤ 2 * (1 - Real.cos θ) * (lengthOf v * lengthOf w)) : AngleAtMost θ v w := by
  have h3 : chord v w ^ 2 ≤ c ^ 2 := pow_le_pow_left₀ (Real.sqrt_nonneg _) hc 2
  have e1 : chord v w ^ 2 = (realOf v.1 - realOf w.1) ^ 2 + (realOf v.2.1 - realOf w.2.1) ^ 2 + (realOf v.2.2 - realOf w.2.2) ^ 2 := by
    rw [chord, length3, Real.sq_sqrt (by positivity)]
  have e2 : lengthOf v ^ 2 = realOf v.1 ^ 2 + realOf v.2.1 ^ 2 + realOf v.2.2 ^ 2 := by
    rw [lengthOf, length3, Real.sq_sqrt (by positivity)]
  have e3 : lengthOf w ^ 2 = realOf w.1 ^ 2 + realOf w.2.1 ^ 2 + realOf w.2.2 ^ 2 := by
    rw [lengthOf, length3, Real.sq_sqrt (by positivity)]
  rw [AngleAtMost, scalar]
  have e4 := sq_nonneg (lengthOf v - lengthOf w)
  nlinarith

/-- The length of a vector that is almost a unit vector. -/
theorem almost_length {v : Vec3 (Val b32)} {ε : ℚ} (h : AlmostUnit ε v) (hε : ε ≤ 1) : 1 - (ε : ℝ) ≤ lengthOf v := by
  have hr := (Rat.cast_le (K := ℝ)).mpr h
  push_cast at hr
  rw [abs_le] at hr
  have hε' : (ε : ℝ) ≤ 1 := by exact_mod_cast hε
  have e2 : lengthOf v ^ 2 = realOf v.1 ^ 2 + realOf v.2.1 ^ 2 + realOf v.2.2 ^ 2 := by
    rw [lengthOf, length3, Real.sq_sqrt (by positivity)]
  have h0 : 0 ≤ lengthOf v := Real.sqrt_nonneg _
  have h1 : 1 - (ε : ℝ) ≤ lengthOf v ^ 2 := by rw [e2]; simp only [realOf]; linarith [hr.1]
  have hε0 : (0 : ℝ) ≤ ε := by exact_mod_cast (abs_nonneg _).trans h
  nlinarith

/-- Seven and a half degrees. -/
theorem cos_degrees : (1 : ℝ) - Real.cos (15 / 2 * (Real.pi / 180)) ≥ 8550 / 10 ^ 6 := by
  have h1 := Real.pi_gt_d6
  have h2 := Real.pi_lt_d6
  have a1 : (130899 / 10 ^ 6 : ℝ) ≤ 15 / 2 * (Real.pi / 180) := by norm_num at *; linarith
  have a2 : 15 / 2 * (Real.pi / 180) ≤ (130900 / 10 ^ 6 : ℝ) := by norm_num at *; linarith
  generalize 15 / 2 * (Real.pi / 180) = x at *
  have hx0 : 0 ≤ x := le_trans (by norm_num) a1
  have hx : |x| ≤ 1 := by rw [abs_of_nonneg hx0]; exact a2.trans (by norm_num)
  have h := (abs_le.mp (Real.cos_bound hx)).2
  rw [abs_of_nonneg hx0] at h
  have b1 := pow_le_pow_left₀ (by norm_num) a1 2
  have b2 := pow_le_pow_left₀ hx0 a2 4
  norm_num at *
  linarith

/-- One degree. -/
theorem cos_degree : (1 : ℝ) - Real.cos (Real.pi / 180) ≥ 1522 / 10 ^ 7 := by
  have h1 := Real.pi_gt_d6
  have h2 := Real.pi_lt_d6
  have hx : |Real.pi / 180| ≤ 1 := by rw [abs_of_nonneg (by positivity)]; linarith
  have h := (abs_le.mp (Real.cos_bound hx)).2
  rw [abs_of_nonneg (by positivity : (0 : ℝ) ≤ Real.pi / 180)] at h
  have a1 : (17453 / 10 ^ 6 : ℝ) ≤ Real.pi / 180 := by norm_num at *; linarith
  have a2 : Real.pi / 180 ≤ (17454 / 10 ^ 6 : ℝ) := by norm_num at *; linarith
  have b1 := pow_le_pow_left₀ (by norm_num) a1 2
  have b2 := pow_le_pow_left₀ (by positivity) a2 4
  norm_num at *
  linarith

/-- Away from the poles a unit normal stored with seven bits or more comes back less than a degree off. -/
theorem normal_low {lib : Libm} (hlib : AccurateLibm lib) {p : Nat} (hp7 : 7 ≤ p) (hp : p ≤ 24) {n : Vec3 (Val b32)}
    (hu : UnitNormal n) (hz : valueOf n.2.2 ^ 2 ≤ 2 / 3) (hw : AlmostUnit (1 / 2 ^ 18) (quantNormal (ops lib) p n)) :
    AngleAtMost (Real.pi / 180) n (quantNormal (ops lib) p n) := by
  obtain ⟨X, Y, Z, R, A, t, S, C, m, x, y, z, hd, hZe, -, hR0, hm0, hu1, hu2, hq0, hzZ, hZ1, hstep, hA, htA, sn, cn, xe, ye⟩ :=
    normal_parts hlib (p := p) (by omega) (by omega) hu.finite (by norm_num) hu.unit (.inl hu.z_le) (by omega)
  push_cast at hu1
  have hs : (codeStep p : ℝ) ≤ 1 / 127 := by
    have h7 : (2 : ℝ) ^ 7 ≤ 2 ^ p := pow_le_pow_right₀ (by norm_num) hp7
    rw [codeStep]
    exact one_div_le_one_div_of_le (by norm_num) (by linarith)
  have hZ2 : Z ^ 2 ≤ 2 / 3 := by
    rw [hZe, sq_abs, realOf]
    have h := (Rat.cast_le (K := ℝ)).mpr hz
    push_cast at h
    exact h
  have hmain := direction_low hR0 hm0 hu1 (le_trans hu2 (by norm_num)) hq0 hzZ hZ2 hstep hs
    hA htA sn cn xe ye
  rw [← hd] at hmain
  refine angle_of_chord hmain ?_
  have l1 := almost_length hu.unit (by norm_num)
  have l2 := almost_length hw (by norm_num)
  push_cast at l1 l2
  have l3 : (99999 / 100000 : ℝ) * (99999 / 100000) ≤ lengthOf n * lengthOf (quantNormal (ops lib) p n) :=
    mul_le_mul (by norm_num at *; linarith) (by norm_num at *; linarith) (by norm_num) (by norm_num at *; linarith)
  have := mul_le_mul (mul_le_mul_of_nonneg_left cos_degree.le (by norm_num : (0 : ℝ) ≤ 2)) l3 (by norm_num)
    (by linarith [cos_degree])
  refine le_trans ?_ this
  norm_num

/-- A unit normal stored with seven bits or more comes back at most seven and a half degrees off. -/
theorem normal_high {p : Nat} (hp7 : 7 ≤ p) {n w : Vec3 (Val b32)} (hu : UnitNormal n) (hk : KeptNormal p n w) :
    AngleAtMost (15 / 2 * (Real.pi / 180)) n w := by
  have hs : (codeStep p : ℝ) ≤ 1 / 127 := by
    have h7 : (2 : ℝ) ^ 7 ≤ 2 ^ p := pow_le_pow_right₀ (by norm_num) hp7
    rw [codeStep]
    exact one_div_le_one_div_of_le (by norm_num) (by linarith)
  have hs0 := (codeStep_bounds (p := p) (by omega)).1.le
  have hc : chord n w ≤ 1302 / 10000 := by
    refine hk.near.trans ?_
    have h1 : √(2 * codeStep p + 5 / 2 * codeStep p ^ 2) ≤ 1262 / 10000 := by
      refine Real.sqrt_le_iff.mpr ⟨by norm_num, ?_⟩
      have := pow_le_pow_left₀ hs0 hs 2
      norm_num at *
      linarith
    norm_num at *
    linarith
  refine angle_of_chord hc ?_
  have l1 := almost_length hu.unit (by norm_num)
  have l2 := almost_length hk.unit (by norm_num)
  push_cast at l1 l2
  have l3 : (99999 / 100000 : ℝ) * (99999 / 100000) ≤ lengthOf n * lengthOf w :=
    mul_le_mul (by norm_num at *; linarith) (by norm_num at *; linarith) (by norm_num) (by norm_num at *; linarith)
  have := mul_le_mul (mul_le_mul_of_nonneg_left cos_degrees.le (by norm_num : (0 : ℝ) ≤ 2)) l3 (by norm_num)
    (by linarith [cos_degrees])
  refine le_trans ?_ this
  norm_num

end Tmf.Ieee
