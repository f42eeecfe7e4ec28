import Verif.Lemmas.SqrtValue
/-
`normalize` at both ends of the range of f32.
-/

set_option exponentiation.threshold 2000

namespace Tmf.Ieee
open Spec

theorem maxV32_eq : maxV b32 = 2 ^ 128 - 2 ^ 104 := by
  rw [maxV, div_eq_iff (units_pos b32).ne', show b32.scale = 149 from rfl, show b32.max = (2 ^ 24 - 1) * 2 ^ 253 from rfl]
  norm_num

/-- A rounded number that is finite has the rounded value. -/
theorem rounded_finite {f : Fmt} (hp : 0 < f.prec) (s : Bool) {num den : Nat} (hd : 0 < den) {v : ℚ}
    (hv : v = sgn s * ((num : ℚ) / den / 2 ^ f.scale)) :
    (rounded s num den : Val f) = .inf s ∨
      (isFinite (rounded s num den : Val f) = true ∧ valueOf (rounded s num den : Val f) = rnd f v) := by
  have hS := units_pos f
  have hnn : (0 : ℚ) ≤ (num : ℚ) / den / 2 ^ f.scale := by positivity
  rw [rounded, pack]
  by_cases h : f.Rep (f.round num den)
  · rw [dif_pos h]
    refine Or.inr ⟨rfl, ?_⟩
    rw [valueOf_fin, hv, rnd_sgn hp, rnd_of_nonneg hnn, rndPos_eq hp hnn (num := num) hd (div_mul_cancel₀ _ hS.ne')]
  · rw [dif_neg h]
    exact Or.inl rfl

/-- Positive infinity, or a finite number that is not negative. -/
def NotBelow {f : Fmt} (x : Val f) : Prop := x = .inf false ∨ (isFinite x = true ∧ 0 ≤ valueOf x)

theorem square_cases {x : Val b32} (hx : isFinite x = true) :
    mul x x = .inf false ∨ (isFinite (mul x x) = true ∧ valueOf (mul x x) = rnd b32 (valueOf x * valueOf x)) := by
  obtain ⟨s, n, hn, rfl⟩ := finite_cases hx
  simp only [mul]
  have := rounded_finite (f := b32) (by decide) (s != s) (num := n * n) (den := 2 ^ b32.scale) (by positivity)
    (v := valueOf (.fin s n hn : Val b32) * valueOf (.fin s n hn : Val b32)) (by
      rw [valueOf_fin, sgn_bne]; push_cast; ring)
  rwa [bne_self_eq_false] at this ⊢

theorem sum_cases {x y : Val b32} (hx : isFinite x = true) (hy : isFinite y = true) (h0 : 0 ≤ valueOf x) (h1 : 0 ≤ valueOf y) :
    add x y = .inf false ∨ (isFinite (add x y) = true ∧ valueOf (add x y) = rnd b32 (valueOf x + valueOf y)) := by
  have e : |valueOf x + valueOf y| = valueOf x + valueOf y := abs_of_nonneg (by linarith)
  by_cases hm : |valueOf x + valueOf y| ≤ maxV b32
  · exact Or.inr (add_value (by decide) hx hy hm)
  · obtain ⟨s, n, hn, rfl⟩ := finite_cases hx
    obtain ⟨t, m, hm', rfl⟩ := finite_cases hy
    have hS := units_pos b32
    have e1 : valueOf (.fin s n hn : Val b32) + valueOf (.fin t m hm' : Val b32) = ((signed s n + signed t m : ℤ) : ℚ) / 2 ^ b32.scale := by
      rw [valueOf, valueOf, ← add_div]; push_cast; rfl
    have hk : 0 < signed s n + signed t m := by
      have h2 : (0 : ℚ) < valueOf (.fin s n hn : Val b32) + valueOf (.fin t m hm' : Val b32) := by
        rw [e] at hm
        push Not at hm
        have := maxV32
        have h3 : (0 : ℚ) < 2 ^ 127 := by norm_num
        linarith
      rw [e1] at h2
      exact_mod_cast (div_pos_iff_of_pos_right hS).mp h2
    rw [e1]
    simp only [add]
    generalize signed s n + signed t m = k at hk ⊢
    rw [if_neg hk.ne', show decide (k < 0) = false from decide_eq_false (not_lt.mpr hk.le)]
    refine rounded_finite (by decide) false (by decide) ?_
    rw [sgn, if_neg (by decide), one_mul, Nat.cast_one, div_one, ← Int.cast_natCast, Int.natAbs_of_nonneg hk.le]

theorem square_near {x : Val b32} (hx : isFinite x = true) : mul x x = .inf false ∨ (isFinite (mul x x) = true ∧
    0 ≤ valueOf (mul x x) ∧ |valueOf (mul x x) - valueOf x ^ 2| ≤ 1 / 2 ^ 24 * valueOf x ^ 2 + 1 / 2 ^ 150) := by
  rcases square_cases hx with h | ⟨h1, h2⟩
  · exact Or.inl h
  · refine Or.inr ⟨h1, by rw [h2]; exact rnd_nonneg (mul_self_nonneg _), ?_⟩
    have := rnd32_error (valueOf x * valueOf x)
    rw [h2, sq]
    rwa [abs_of_nonneg (mul_self_nonneg (valueOf x))] at this

theorem sum_near {x y : Val b32} (hx : isFinite x = true) (hy : isFinite y = true) (h0 : 0 ≤ valueOf x) (h1 : 0 ≤ valueOf y) :
    add x y = .inf false ∨ (isFinite (add x y) = true ∧ 0 ≤ valueOf (add x y) ∧
      |valueOf (add x y) - (valueOf x + valueOf y)| ≤ 1 / 2 ^ 24 * (valueOf x + valueOf y)) := by
  rcases sum_cases hx hy h0 h1 with h | ⟨h2, h3⟩
  · exact Or.inl h
  · refine Or.inr ⟨h2, by rw [h3]; exact rnd_nonneg (by linarith), ?_⟩
    have := rnd32_error_add x y
    rwa [← h3, abs_of_nonneg (a := valueOf x + valueOf y) (by linarith)] at this

/-- The sum of squares: infinite, or near the exact one. -/
theorem sumsq_cases {x y z : Val b32} (hx : isFinite x = true) (hy : isFinite y = true) (hz : isFinite z = true) :
    add (add (mul x x) (mul y y)) (mul z z) = .inf false ∨
    (isFinite (add (add (mul x x) (mul y y)) (mul z z)) = true ∧ 0 ≤ valueOf (add (add (mul x x) (mul y y)) (mul z z)) ∧
    |valueOf (add (add (mul x x) (mul y y)) (mul z z)) - (valueOf x ^ 2 + valueOf y ^ 2 + valueOf z ^ 2)| ≤
      4 / 2 ^ 24 * (valueOf x ^ 2 + valueOf y ^ 2 + valueOf z ^ 2) + 4 / 2 ^ 150) := by
  have left : ∀ {a : Val b32}, (a = .inf false ∨ isFinite a = true) → add (.inf false) a = .inf false := by
    rintro a (rfl | h)
    · rfl
    · obtain ⟨s, n, hn, rfl⟩ := finite_cases h
      rfl
  have right : ∀ {a : Val b32}, isFinite a = true → add a (.inf false) = .inf false := by
    intro a h
    obtain ⟨s, n, hn, rfl⟩ := finite_cases h
    rfl
  have kx := square_near hx
  have ky := square_near hy
  have kz := square_near hz
  rcases kx with h | ⟨fx, nx, ex⟩
  · rw [h, left (ky.imp_right And.left), left (kz.imp_right And.left)]
    exact Or.inl rfl
  rcases ky with h | ⟨fy, ny, ey⟩
  · rw [h, right fx, left (kz.imp_right And.left)]
    exact Or.inl rfl
  rcases sum_near fx fy nx ny with h | ⟨f1, n1, e1⟩
  · rw [h, left (kz.imp_right And.left)]
    exact Or.inl rfl
  rcases kz with h | ⟨fz, nz, ez⟩
  · rw [h, right f1]
    exact Or.inl rfl
  rcases sum_near f1 fz n1 nz with h | ⟨f2, n2, e2⟩
  · exact Or.inl h
  refine Or.inr ⟨f2, n2, ?_⟩
  have qx := sq_nonneg (valueOf x)
  have qy := sq_nonneg (valueOf y)
  have qz := sq_nonneg (valueOf z)
  generalize valueOf (add (add (mul x x) (mul y y)) (mul z z)) = S at *
  generalize valueOf (add (mul x x) (mul y y)) = s at *
  generalize valueOf (mul x x) = xx at *
  generalize valueOf (mul y y) = yy at *
  generalize valueOf (mul z z) = zz at *
  generalize valueOf x ^ 2 = X at *
  generalize valueOf y ^ 2 = Y at *
  generalize valueOf z ^ 2 = Z at *
  clear left right
  rw [abs_le] at *
  obtain ⟨ex1, ex2⟩ := ex
  obtain ⟨ey1, ey2⟩ := ey
  obtain ⟨ez1, ez2⟩ := ez
  obtain ⟨e11, e12⟩ := e1
  obtain ⟨e21, e22⟩ := e2
  norm_num at *
  constructor <;> linarith

/-- It is not infinite unless the exact sum is near the largest number. -/
theorem sumsq_finite {x y z : Val b32} (hx : isFinite x = true) (hy : isFinite y = true) (hz : isFinite z = true)
    (hQ : valueOf x ^ 2 + valueOf y ^ 2 + valueOf z ^ 2 ≤ 2 ^ 128 - 2 ^ 108) :
    isFinite (add (add (mul x x) (mul y y)) (mul z z)) = true := by
  have hP : 0 < b32.prec := by decide
  have hmax := maxV32_eq
  have qx := sq_nonneg (valueOf x)
  have qy := sq_nonneg (valueOf y)
  have qz := sq_nonneg (valueOf z)
  have one : ∀ {v : Val b32}, isFinite v = true → valueOf v ^ 2 ≤ 2 ^ 128 - 2 ^ 108 → isFinite (mul v v) = true ∧
      0 ≤ valueOf (mul v v) ∧ |valueOf (mul v v) - valueOf v ^ 2| ≤ 1 / 2 ^ 24 * valueOf v ^ 2 + 1 / 2 ^ 150 := by
    intro v hv hb
    have h2 := mul_self_nonneg (valueOf v)
    have hm := mul_value hP hv hv (by
      rw [abs_of_nonneg h2, ← sq, hmax]
      exact le_trans hb (by norm_num))
    refine ⟨hm.1, by rw [hm.2]; exact rnd_nonneg h2, ?_⟩
    have := rnd32_error (valueOf v * valueOf v)
    rw [hm.2, sq]
    rwa [abs_of_nonneg h2] at this
  obtain ⟨fx, nx, ex⟩ := one hx (by linarith)
  obtain ⟨fy, ny, ey⟩ := one hy (by linarith)
  obtain ⟨fz, nz, ez⟩ := one hz (by linarith)
  rw [abs_le] at ex ey ez
  have s1 := add_value hP fx fy (by
    rw [abs_of_nonneg (by linarith), hmax]
    have := ex.2
    have := ey.2
    norm_num at *
    linarith)
  have e1 := rnd32_error_add (mul x x) (mul y y)
  rw [← s1.2, abs_of_nonneg (a := valueOf (mul x x) + valueOf (mul y y)) (by linarith), abs_le] at e1
  have n1 : 0 ≤ valueOf (add (mul x x) (mul y y)) := by rw [s1.2]; exact rnd_nonneg (by linarith)
  refine (add_value hP s1.1 fz ?_).1
  rw [abs_of_nonneg (by linarith), hmax]
  have := ex.2
  have := ey.2
  have := ez.2
  have := e1.2
  norm_num at *
  linarith

/-- It is infinite when the exact sum is above the largest number. -/
theorem sumsq_overflow {x y z : Val b32} (hx : isFinite x = true) (hy : isFinite y = true) (hz : isFinite z = true)
    (hQ : 2 ^ 128 + 2 ^ 108 ≤ valueOf x ^ 2 + valueOf y ^ 2 + valueOf z ^ 2) :
    add (add (mul x x) (mul y y)) (mul z z) = .inf false := by
  rcases sumsq_cases hx hy hz with h | ⟨-, -, h⟩
  · exact h
  · exfalso
    have h1 := abs_valueOf_le (add (add (mul x x) (mul y y)) (mul z z))
    rw [maxV32_eq] at h1
    have h2 := le_trans (le_abs_self _) h1
    rw [abs_le] at h
    have h3 := h.1
    norm_num at *
    linarith

/-- Half the smallest number is rounded to zero. -/
theorem rnd32_tiny {v : ℚ} (h0 : 0 ≤ v) (h : v ≤ 1 / 2 ^ 150) : rnd b32 v = 0 := by
  have hP : 0 < b32.prec := by decide
  have h1 : rnd b32 (1 / 2 ^ 150) = 0 := by
    rw [rnd_of_nonneg (by norm_num), rndPos_eq hP (v := 1 / 2 ^ 150) (by norm_num) (num := 1) (den := 2) (by decide) (by
      rw [show b32.scale = 149 from rfl]; norm_num), show b32.round 1 2 = 0 by decide +kernel]
    norm_num
  have h2 := rnd_mono hP h
  have h3 := rnd_nonneg (f := b32) h0
  linarith

/-- The sum of squares is zero when all numbers are tiny. -/
theorem sumsq_tiny {x y z : Val b32} (hx : isFinite x = true) (hy : isFinite y = true) (hz : isFinite z = true)
    (bx : |valueOf x| ≤ 1 / 2 ^ 75) (by' : |valueOf y| ≤ 1 / 2 ^ 75) (bz : |valueOf z| ≤ 1 / 2 ^ 75) :
    isFinite (add (add (mul x x) (mul y y)) (mul z z)) = true ∧ valueOf (add (add (mul x x) (mul y y)) (mul z z)) = 0 := by
  have hP : 0 < b32.prec := by decide
  have hmax := maxV32
  have one : ∀ {v : Val b32}, isFinite v = true → |valueOf v| ≤ 1 / 2 ^ 75 → isFinite (mul v v) = true ∧ valueOf (mul v v) = 0 := by
    intro v hv hb
    have h1 : valueOf v * valueOf v ≤ 1 / 2 ^ 150 := by
      rw [← abs_mul_abs_self]
      calc |valueOf v| * |valueOf v| ≤ 1 / 2 ^ 75 * (1 / 2 ^ 75) := mul_le_mul hb hb (abs_nonneg _) (by norm_num)
        _ = 1 / 2 ^ 150 := by norm_num
    have h2 := mul_self_nonneg (valueOf v)
    have hm := mul_value hP hv hv (by rw [abs_of_nonneg h2]; exact le_trans h1 (le_trans (by norm_num) hmax))
    exact ⟨hm.1, by rw [hm.2, rnd32_tiny h2 h1]⟩
  obtain ⟨fx, ex⟩ := one hx bx
  obtain ⟨fy, ey⟩ := one hy by'
  obtain ⟨fz, ez⟩ := one hz bz
  have big : (0 : ℚ) ≤ maxV b32 := le_trans (by norm_num) hmax
  have s1 := add_value hP fx fy (by rw [ex, ey]; simpa using big)
  have z1 : valueOf (add (mul x x) (mul y y)) = 0 := by rw [s1.2, ex, ey, add_zero, rnd_zero hP]
  have s2 := add_value hP s1.1 fz (by rw [z1, ez]; simpa using big)
  exact ⟨s2.1, by rw [s2.2, z1, ez, add_zero, rnd_zero hP]⟩

theorem factor_near {R c : ℚ} (hR0 : 0 ≤ R) (h : |1 - R| ≤ c * R) (hc : c ≤ 1 / 15) : |R - 1| ≤ c * (15 / 14) := by
  rw [abs_le] at *
  obtain ⟨h1, h2⟩ := h
  have h3 : c * R ≤ 1 / 15 * R := mul_le_mul_of_nonneg_right hc hR0
  have hR1 : R ≤ 15 / 14 := by linarith
  have hc0 : 0 ≤ c := by
    rcases hR0.eq_or_lt with h0 | h0
    · rw [← h0] at h1 h2
      linarith
    · by_contra hn
      push Not at hn
      have : c * R < 0 := mul_neg_of_neg_of_pos hn h0
      linarith
  have hcR : c * R ≤ c * (15 / 14) := mul_le_mul_of_nonneg_left hR1 hc0
  constructor <;> linarith

/-- `normalize` for sums of squares from `2^-144` on that do not overflow: as `normalize_near`, but the length of short vectors is less
accurate. -/
theorem normalize_summed {x y z : Val b32} (hx : isFinite x = true) (hy : isFinite y = true) (hz : isFinite z = true)
    (hQ1 : 1 / 2 ^ 144 ≤ valueOf x ^ 2 + valueOf y ^ 2 + valueOf z ^ 2)
    (fS : isFinite (add (add (mul x x) (mul y y)) (mul z z)) = true) {mag : Val b32}
    (hmag : mag = sqrt (add (add (mul x x) (mul y y)) (mul z z))) :
    isFinite mag = true ∧ 0 < valueOf mag ∧
    (∀ c ∈ [x, y, z], isFinite (div c mag) = true ∧
      |valueOf (div c mag) - valueOf c / valueOf mag| ≤ 1 / 2 ^ 24 * |valueOf c / valueOf mag| + 1 / 2 ^ 150) ∧
    |valueOf (div x mag) ^ 2 + valueOf (div y mag) ^ 2 + valueOf (div z mag) ^ 2 - 1| ≤
      13 / 2 ^ 24 + 5 / 2 ^ 150 / (valueOf x ^ 2 + valueOf y ^ 2 + valueOf z ^ 2) := by
  have hP : 0 < b32.prec := by decide
  have eS : |valueOf (add (add (mul x x) (mul y y)) (mul z z)) - (valueOf x ^ 2 + valueOf y ^ 2 + valueOf z ^ 2)| ≤
      4 / 2 ^ 24 * (valueOf x ^ 2 + valueOf y ^ 2 + valueOf z ^ 2) + 4 / 2 ^ 150 := by
    rcases sumsq_cases hx hy hz with h | ⟨-, -, h⟩
    · rw [h] at fS; cases fS
    · exact h
  generalize add (add (mul x x) (mul y y)) (mul z z) = s at *
  generalize hQe : valueOf x ^ 2 + valueOf y ^ 2 + valueOf z ^ 2 = Q at *
  have hQ0 : 0 < Q := lt_of_lt_of_le (by norm_num) hQ1
  -- the part of the error that does not depend on the size
  obtain ⟨d, hd⟩ : ∃ d, d = 4 / 2 ^ 150 / Q := ⟨_, rfl⟩
  have hdQ : 4 / 2 ^ 150 = d * Q := by rw [hd, div_mul_cancel₀ _ hQ0.ne']
  have hd0 : 0 ≤ d := by rw [hd]; positivity
  have hd1 : d ≤ 1 / 16 := by
    rw [hd, div_le_iff₀ hQ0]
    have e : (1 : ℚ) / 16 * (1 / 2 ^ 144) = 4 / 2 ^ 150 := by norm_num
    rw [← e]
    exact mul_le_mul_of_nonneg_left hQ1 (by norm_num)
  rw [show 5 / 2 ^ 150 / Q = 5 / 4 * d by rw [hd]; ring]
  rw [hdQ, abs_le] at eS
  have hSpos : 0 < valueOf s := by
    have h1 := eS.1
    have h2 : (4 / 2 ^ 24 + 1 / 16) * Q < Q := by
      have : (4 / 2 ^ 24 + 1 / 16 : ℚ) < 1 := by norm_num
      nlinarith
    have h3 : d * Q ≤ 1 / 16 * Q := mul_le_mul_of_nonneg_right hd1 hQ0.le
    linarith
  obtain ⟨fm, mpos, em⟩ := sqrt_value fS hSpos
  rw [← hmag] at fm mpos em
  rw [abs_le] at em
  have hm2 : |valueOf mag ^ 2 - Q| ≤ (8 / 2 ^ 24 + 65 / 64 * d) * Q := by
    have h3 : d * Q ≤ 1 / 16 * Q := mul_le_mul_of_nonneg_right hd1 hQ0.le
    have h4 : 0 ≤ d * Q := mul_nonneg hd0 hQ0.le
    rw [abs_le, add_mul, mul_assoc (65 / 64)]
    generalize valueOf mag ^ 2 = M at *
    generalize valueOf s = S at *
    generalize d * Q = D at *
    clear hQe hmag
    obtain ⟨em1, em2⟩ := em
    obtain ⟨eS1, eS2⟩ := eS
    norm_num at *
    constructor <;> linarith
  have hmm : 0 < valueOf mag ^ 2 := by positivity
  have hR : |Q / valueOf mag ^ 2 - 1| ≤ 9 / 2 ^ 24 + 9 / 8 * d := by
    have e : Q / valueOf mag ^ 2 * valueOf mag ^ 2 = Q := div_mul_cancel₀ _ hmm.ne'
    generalize Q / valueOf mag ^ 2 = R at *
    generalize valueOf mag ^ 2 = M at *
    rw [← e] at hm2
    have h1 : |1 - R| ≤ (8 / 2 ^ 24 + 65 / 64 * d) * R := by
      have e2 : M - R * M = (1 - R) * M := by ring
      rw [e2, abs_mul, abs_of_pos hmm, ← mul_assoc] at hm2
      exact le_of_mul_le_mul_right hm2 hmm
    have hR0 : 0 ≤ R := by
      rw [← e] at hQ0
      exact ((mul_pos_iff_of_pos_right hmm).mp hQ0).le
    refine le_trans (factor_near hR0 h1 ?_) ?_
    · norm_num
      linarith
    · norm_num
      linarith
  have comp : ∀ c ∈ [x, y, z], isFinite c = true ∧ (valueOf c / valueOf mag) ^ 2 ≤ Q / valueOf mag ^ 2 := by
    intro c hc
    simp only [List.mem_cons, List.not_mem_nil, or_false] at hc
    have q1 := sq_nonneg (valueOf x)
    have q2 := sq_nonneg (valueOf y)
    have q3 := sq_nonneg (valueOf z)
    rcases hc with rfl | rfl | rfl
    · exact ⟨hx, by rw [div_pow]; exact div_le_div_of_nonneg_right (by linarith) hmm.le⟩
    · exact ⟨hy, by rw [div_pow]; exact div_le_div_of_nonneg_right (by linarith) hmm.le⟩
    · exact ⟨hz, by rw [div_pow]; exact div_le_div_of_nonneg_right (by linarith) hmm.le⟩
  have small : ∀ c ∈ [x, y, z], |valueOf c / valueOf mag| ≤ 2 := by
    intro c hc
    have h1 := (comp c hc).2
    rw [abs_le] at hR
    have h2 : (valueOf c / valueOf mag) ^ 2 ≤ 2 ^ 2 := by
      have := hR.2
      norm_num at *
      linarith
    exact abs_le_of_sq_le_sq h2 (by norm_num)
  have near : ∀ c ∈ [x, y, z], isFinite (div c mag) = true ∧
      |valueOf (div c mag) - valueOf c / valueOf mag| ≤ 1 / 2 ^ 24 * |valueOf c / valueOf mag| + 1 / 2 ^ 150 := by
    intro c hc
    have hd := div_value hP (comp c hc).1 fm mpos.ne' (le_trans (small c hc) (le_trans (by norm_num) maxV32))
    refine ⟨hd.1, ?_⟩
    rw [hd.2]
    exact rnd32_error _
  refine ⟨fm, mpos, near, ?_⟩
  have kx := quotient_near (near x (by simp)).2 (small x (by simp))
  have ky := quotient_near (near y (by simp)).2 (small y (by simp))
  have kz := quotient_near (near z (by simp)).2 (small z (by simp))
  have hsum : Q / valueOf mag ^ 2 = (valueOf x / valueOf mag) ^ 2 + (valueOf y / valueOf mag) ^ 2 + (valueOf z / valueOf mag) ^ 2 := by
    rw [← hQe]; ring
  rw [hsum] at hR
  clear hQe hQ1 eS hm2 em hdQ hd
  generalize (valueOf x / valueOf mag) ^ 2 = X at *
  generalize (valueOf y / valueOf mag) ^ 2 = Y at *
  generalize (valueOf z / valueOf mag) ^ 2 = Z at *
  generalize valueOf (div x mag) ^ 2 = X' at *
  generalize valueOf (div y mag) ^ 2 = Y' at *
  generalize valueOf (div z mag) ^ 2 = Z' at *
  clear near comp small
  rw [abs_le] at kx ky kz hR ⊢
  obtain ⟨kx1, kx2⟩ := kx
  obtain ⟨ky1, ky2⟩ := ky
  obtain ⟨kz1, kz2⟩ := kz
  obtain ⟨hR1, hR2⟩ := hR
  norm_num at *
  constructor <;> linarith

/-- `normalize` for sums of squares from `2^-144` to almost `2^128`. -/
theorem normalize_wide {x y z : Val b32} (hx : isFinite x = true) (hy : isFinite y = true) (hz : isFinite z = true)
    (hQ1 : 1 / 2 ^ 144 ≤ valueOf x ^ 2 + valueOf y ^ 2 + valueOf z ^ 2)
    (hQ2 : valueOf x ^ 2 + valueOf y ^ 2 + valueOf z ^ 2 ≤ 2 ^ 128 - 2 ^ 108) {mag : Val b32}
    (hmag : mag = sqrt (add (add (mul x x) (mul y y)) (mul z z))) :
    isFinite mag = true ∧ 0 < valueOf mag ∧
    (∀ c ∈ [x, y, z], isFinite (div c mag) = true ∧
      |valueOf (div c mag) - valueOf c / valueOf mag| ≤ 1 / 2 ^ 24 * |valueOf c / valueOf mag| + 1 / 2 ^ 150) ∧
    |valueOf (div x mag) ^ 2 + valueOf (div y mag) ^ 2 + valueOf (div z mag) ^ 2 - 1| ≤
      13 / 2 ^ 24 + 5 / 2 ^ 150 / (valueOf x ^ 2 + valueOf y ^ 2 + valueOf z ^ 2) :=
  normalize_summed hx hy hz hQ1 (sumsq_finite hx hy hz hQ2) hmag

end Tmf.Ieee
