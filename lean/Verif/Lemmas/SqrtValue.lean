import Verif.Lemmas.QuantizeRange
/-
The square root, and the length of normalised vectors.
-/

set_option exponentiation.threshold 2000

namespace Tmf.Ieee
open Spec

theorem bisect_spec (x : Nat) : ∀ (k acc : Nat), acc * acc ≤ x → x < (acc + 2 * 2 ^ k) * (acc + 2 * 2 ^ k) →
    isqrt.bisect x k (2 ^ k) acc * isqrt.bisect x k (2 ^ k) acc ≤ x ∧
      x < (isqrt.bisect x k (2 ^ k) acc + 1) * (isqrt.bisect x k (2 ^ k) acc + 1) := by
  intro k
  induction k with
  | zero =>
    intro acc h1 h2
    rw [isqrt.bisect]
    split
    · rename_i h
      exact ⟨h, by simpa [Nat.add_assoc] using h2⟩
    · rename_i h
      exact ⟨h1, by simpa using h⟩
  | succ k ih =>
    intro acc h1 h2
    rw [isqrt.bisect, show 2 ^ (k + 1) / 2 = 2 ^ k by rw [Nat.pow_succ]; omega]
    split
    · rename_i h
      refine ih _ h ?_
      have e : acc + 2 ^ (k + 1) + 2 * 2 ^ k = acc + 2 * 2 ^ (k + 1) := by rw [Nat.pow_succ]; omega
      rw [e]; exact h2
    · rename_i h
      refine ih _ h1 ?_
      have e : acc + 2 * 2 ^ k = acc + 2 ^ (k + 1) := by rw [Nat.pow_succ]; omega
      rw [e]; omega

theorem isqrt_spec {x fuel : Nat} (h : x < 2 ^ fuel) : isqrt x fuel * isqrt x fuel ≤ x ∧ x < (isqrt x fuel + 1) * (isqrt x fuel + 1) := by
  cases fuel with
  | zero => 
    have : x = 0 := by simpa using h
    subst this
    simp [isqrt]
  | succ k =>
    rw [isqrt]
    refine bisect_spec x k 0 (by omega) ?_
    rw [Nat.zero_add, Nat.mul_comm 2, ← Nat.pow_succ]
    exact lt_of_lt_of_le h (Nat.le_mul_of_pos_left _ (by positivity))

/-- The square of the rounded root of an integer is near it. -/
theorem root_near {N r st : ℚ} (hr : (2 : ℚ) ^ 74 ≤ r) (h1 : r * r ≤ N) (h2 : N < (r + 1) * (r + 1))
    (hst : st = 0 ∧ r * r = N ∨ st = 1) :
    |((2 * r + st) / 2) ^ 2 - N| ≤ 1 / 2 ^ 73 * N := by
  have hr0 : (0 : ℚ) < r := lt_of_lt_of_le (by norm_num) hr
  have hN : (0 : ℚ) ≤ N := le_trans (by positivity) h1
  have hbig : 2 ^ 73 * (r + 3 / 4) ≤ N := by nlinarith
  have : r + 3 / 4 ≤ 1 / 2 ^ 73 * N := by
    rw [one_div, ← div_eq_inv_mul, le_div_iff₀ (by positivity)]; linarith
  refine le_trans ?_ this
  rcases hst with ⟨rfl, h⟩ | rfl
  · have e : ((2 * r + 0) / 2) ^ 2 - N = 0 := by rw [← h]; ring
    rw [e, abs_zero]; positivity
  · rw [abs_le]
    constructor <;> nlinarith

/-- The square root of a positive number is the rounding of some `t` whose square is very near the
number, and which is not below any value whose square is at most the number. -/
theorem sqrt_root {x : Val b32} (hx : isFinite x = true) (h0 : 0 < valueOf x) :
    ∃ t : ℚ, isFinite (sqrt x) = true ∧ valueOf (sqrt x) = rnd b32 t ∧ 1 / 2 ^ 75 ≤ t ∧
      |t ^ 2 - valueOf x| ≤ 1 / 2 ^ 73 * valueOf x ∧
      ∀ k : Nat, ((k : ℚ) / 2 ^ b32.scale) ^ 2 ≤ valueOf x → (k : ℚ) / 2 ^ b32.scale ≤ t := by
  obtain ⟨s, n, hn, rfl⟩ := finite_cases hx
  have hs : s = false := by
    cases s with
    | false => rfl
    | true =>
      exfalso
      rw [valueOf_fin] at h0
      have : (0 : ℚ) ≤ (n : ℚ) / 2 ^ b32.scale := div_nonneg (Nat.cast_nonneg _) (units_pos b32).le
      simp only [sgn, if_true] at h0
      linarith
  subst hs
  have hv : valueOf (.fin false n hn : Val b32) = (n : ℚ) / 2 ^ b32.scale := by
    rw [valueOf_fin]; simp [sgn]
  have hn0 : n ≠ 0 := by
    rintro rfl
    rw [hv, Nat.cast_zero, zero_div] at h0
    exact lt_irrefl _ h0
  have hfuel : n * 2 ^ b32.scale < 2 ^ (b32.scale + b32.top + b32.prec) := by
    have hmax : n ≤ b32.max := hn.2
    have hmx : b32.max < 2 ^ (b32.top + b32.prec) := by decide +kernel
    rw [Nat.add_assoc, Nat.pow_add, Nat.mul_comm]
    exact Nat.mul_lt_mul_of_pos_left (lt_of_le_of_lt hmax hmx) (by positivity)
  obtain ⟨r1, r2⟩ := isqrt_spec hfuel
  simp only [sqrt, if_neg hn0, Bool.false_eq_true, if_false]
  generalize isqrt (n * 2 ^ b32.scale) (b32.scale + b32.top + b32.prec) = r at *
  have hrN : 2 ^ 74 ≤ r := by
    by_contra hc
    have h1 : (r + 1) * (r + 1) ≤ 2 ^ 74 * 2 ^ 74 := Nat.mul_le_mul (by omega) (by omega)
    have h2 : 1 * 2 ^ b32.scale ≤ n * 2 ^ b32.scale := Nat.mul_le_mul_right _ (by omega)
    have h3 : 2 ^ 74 * 2 ^ 74 < 1 * 2 ^ b32.scale := by decide
    omega
  generalize hst : (if r * r = n * 2 ^ b32.scale then 0 else 1) = st
  have hst' : (st : ℚ) = 0 ∧ (r : ℚ) * r = ((n * 2 ^ b32.scale : Nat) : ℚ) ∨ (st : ℚ) = 1 := by
    by_cases hc : r * r = n * 2 ^ b32.scale
    · rw [if_pos hc] at hst
      exact .inl ⟨by rw [← hst]; norm_num, by rw [← hc]; push_cast; rfl⟩
    · rw [if_neg hc] at hst
      exact .inr (by rw [← hst]; norm_num)
  have hnear := root_near (N := ((n * 2 ^ b32.scale : Nat) : ℚ)) (r := (r : ℚ)) (st := (st : ℚ)) (by exact_mod_cast hrN)
    (by exact_mod_cast r1) (by exact_mod_cast r2) hst'
  have hstle : st ≤ 1 := by rw [← hst]; split <;> omega
  have hst1 : (st : ℚ) ≤ 1 := by exact_mod_cast hstle
  have hst0 : (0 : ℚ) ≤ st := Nat.cast_nonneg _
  have hrq : (2 : ℚ) ^ 74 ≤ r := by exact_mod_cast hrN
  have hS := units_pos b32
  have hscale : (2 : ℚ) ^ b32.scale = 2 ^ 149 := rfl
  -- the unrounded root
  obtain ⟨t, ht⟩ : ∃ t : ℚ, t = (2 * (r : ℚ) + st) / 2 / 2 ^ b32.scale := ⟨_, rfl⟩
  have htX : |t ^ 2 - valueOf (.fin false n hn : Val b32)| ≤ 1 / 2 ^ 73 * valueOf (.fin false n hn : Val b32) := by
    have e1 : t ^ 2 - (n : ℚ) / 2 ^ b32.scale =
        (((2 * (r : ℚ) + st) / 2) ^ 2 - ((n * 2 ^ b32.scale : Nat) : ℚ)) / (2 ^ b32.scale * 2 ^ b32.scale) := by
      rw [ht, Nat.cast_mul, Nat.cast_pow, Nat.cast_ofNat]
      field_simp
    have e2 : 1 / 2 ^ 73 * ((n : ℚ) / 2 ^ b32.scale) =
        1 / 2 ^ 73 * ((n * 2 ^ b32.scale : Nat) : ℚ) / (2 ^ b32.scale * 2 ^ b32.scale) := by
      rw [Nat.cast_mul, Nat.cast_pow, Nat.cast_ofNat]
      field_simp
    rw [hv, e1, e2, abs_div, abs_of_pos (mul_pos hS hS)]
    exact div_le_div_of_nonneg_right hnear (mul_pos hS hS).le
  have htlow : 1 / 2 ^ 75 ≤ t := by
    rw [ht, hscale, le_div_iff₀ (by positivity), show (1 : ℚ) / 2 ^ 75 * 2 ^ 149 = 2 ^ 74 by norm_num]
    linarith
  have hXle : valueOf (.fin false n hn : Val b32) ≤ 2 ^ 128 := by
    have h1 := abs_valueOf_le (.fin false n hn : Val b32)
    rw [abs_of_pos h0] at h1
    have h2 : maxV b32 ≤ 2 ^ 128 := by
      rw [maxV, div_le_iff₀ hS, hscale]
      have : b32.max ≤ 2 ^ 128 * 2 ^ 149 := by decide +kernel
      exact_mod_cast this
    linarith
  have htop : t ≤ 2 ^ 127 := by
    by_contra hc
    push Not at hc
    rw [abs_le] at htX
    have h3 : (2 : ℚ) ^ 127 * 2 ^ 127 < t ^ 2 := by rw [sq]; exact mul_lt_mul'' hc hc (by norm_num) (by norm_num)
    have h4 : (2 : ℚ) ^ 128 + 1 / 2 ^ 73 * 2 ^ 128 < 2 ^ 127 * 2 ^ 127 := by norm_num
    have h5 : 1 / 2 ^ 73 * valueOf (.fin false n hn : Val b32) ≤ 1 / 2 ^ 73 * 2 ^ 128 :=
      mul_le_mul_of_nonneg_left hXle (by norm_num)
    linarith [htX.2]
  have hrv := rounded_value (f := b32) (by decide) false (num := 2 * r + st) (den := 2) (by decide) (v := t)
    (by rw [ht]; simp only [sgn, Bool.false_eq_true, if_false, one_mul]; push_cast; rfl)
    (by rw [abs_of_nonneg (le_trans (by norm_num) htlow)]; exact le_trans htop maxV32)
  refine ⟨t, hrv.1, hrv.2, htlow, htX, ?_⟩
  intro k hk
  rw [hv, div_pow, div_le_div_iff₀ (by positivity) hS, sq, sq, ← mul_assoc, mul_le_mul_iff_left₀ hS] at hk
  have hk' : k * k ≤ n * 2 ^ b32.scale := by exact_mod_cast hk
  have hkr : k ≤ r := by
    by_contra hc
    have : (r + 1) * (r + 1) ≤ k * k := Nat.mul_le_mul (by omega) (by omega)
    omega
  have hkq : (k : ℚ) ≤ r := by exact_mod_cast hkr
  rw [ht]
  exact div_le_div_of_nonneg_right (by linarith) hS.le

/-- The square root of a positive number is positive, and its square is within `3 / 2^24`. -/
theorem sqrt_value {x : Val b32} (hx : isFinite x = true) (h0 : 0 < valueOf x) :
    isFinite (sqrt x) = true ∧ 0 < valueOf (sqrt x) ∧ |valueOf (sqrt x) ^ 2 - valueOf x| ≤ 3 / 2 ^ 24 * valueOf x := by
  obtain ⟨t, hf, hrv, htlow, htX, -⟩ := sqrt_root hx h0
  refine ⟨hf, ?_⟩
  rw [hrv]
  have herr := rnd32_error t
  have ht0 : 0 < t := lt_of_lt_of_le (by norm_num) htlow
  rw [abs_of_pos ht0] at herr
  have herr2 : |rnd b32 t - t| ≤ (1 / 2 ^ 24 + 1 / 2 ^ 75) * t := by
    refine le_trans herr ?_
    have : (1 : ℚ) / 2 ^ 150 ≤ 1 / 2 ^ 75 * t := by
      have : (1 : ℚ) / 2 ^ 75 * (1 / 2 ^ 75) ≤ 1 / 2 ^ 75 * t := mul_le_mul_of_nonneg_left htlow (by norm_num)
      linarith [show (1 : ℚ) / 2 ^ 75 * (1 / 2 ^ 75) = 1 / 2 ^ 150 by norm_num]
    linarith
  generalize rnd b32 t = v at *
  generalize valueOf x = X at *
  rw [abs_le] at herr2 htX
  have hvpos : 0 < v := by nlinarith [herr2.1]
  refine ⟨hvpos, ?_⟩
  have hd : |v ^ 2 - t ^ 2| ≤ (5 / 2) / 2 ^ 24 * t ^ 2 := by
    have e : v ^ 2 - t ^ 2 = (v - t) * (v + t) := by ring
    rw [e, abs_mul, abs_of_pos (show 0 < v + t by linarith)]
    have h1 : |v - t| ≤ (1 / 2 ^ 24 + 1 / 2 ^ 75) * t := abs_le.mpr herr2
    have h2 : v + t ≤ (2 + 1 / 2 ^ 24 + 1 / 2 ^ 75) * t := by linarith [herr2.2]
    have h3 := mul_le_mul h1 h2 (by linarith) (by positivity)
    refine le_trans h3 ?_
    have e2 : (1 / 2 ^ 24 + 1 / 2 ^ 75) * t * ((2 + 1 / 2 ^ 24 + 1 / 2 ^ 75) * t) =
      ((1 / 2 ^ 24 + 1 / 2 ^ 75) * (2 + 1 / 2 ^ 24 + 1 / 2 ^ 75)) * t ^ 2 := by ring
    rw [e2]
    exact mul_le_mul_of_nonneg_right (by norm_num) (by positivity)
  rw [abs_le] at hd ⊢
  generalize v ^ 2 = V at *
  generalize t ^ 2 = T at *
  constructor <;> linarith [hd.1, hd.2, htX.1, htX.2]

/-! ### Normalised vectors -/

theorem rnd32_error_add (x y : Val b32) :
    |rnd b32 (valueOf x + valueOf y) - (valueOf x + valueOf y)| ≤ 1 / 2 ^ 24 * |valueOf x + valueOf y| := by
  obtain ⟨k, hk⟩ := units_valueOf x
  obtain ⟨l, hl⟩ := units_valueOf y
  have := rnd_error_units (f := b32) (by decide) (v := valueOf x + valueOf y) (k := k + l) (by rw [add_mul, hk, hl]; push_cast; rfl)
  rw [div_mul_eq_mul_div, one_mul]
  exact this

/-- The sum of squares, rounded at every step. -/
theorem sumsq_value {x y z : Val b32} (hx : isFinite x = true) (hy : isFinite y = true) (hz : isFinite z = true)
    (bx : |valueOf x| ≤ 2 ^ 60) (by' : |valueOf y| ≤ 2 ^ 60) (bz : |valueOf z| ≤ 2 ^ 60) :
    isFinite (add (add (mul x x) (mul y y)) (mul z z)) = true ∧
    |valueOf (add (add (mul x x) (mul y y)) (mul z z)) - (valueOf x ^ 2 + valueOf y ^ 2 + valueOf z ^ 2)| ≤
      4 / 2 ^ 24 * (valueOf x ^ 2 + valueOf y ^ 2 + valueOf z ^ 2) + 4 / 2 ^ 150 := by
  have hP : 0 < b32.prec := by decide
  have hmax := maxV32
  have sq_le : ∀ {v : ℚ}, |v| ≤ 2 ^ 60 → v * v ≤ 2 ^ 120 ∧ 0 ≤ v * v := by
    intro v hv
    refine ⟨?_, mul_self_nonneg v⟩
    rw [← abs_mul_abs_self]
    calc |v| * |v| ≤ 2 ^ 60 * 2 ^ 60 := mul_le_mul hv hv (abs_nonneg _) (by norm_num)
      _ = 2 ^ 120 := by norm_num
  have one : ∀ {v : Val b32}, isFinite v = true → |valueOf v| ≤ 2 ^ 60 → isFinite (mul v v) = true ∧
      0 ≤ valueOf (mul v v) ∧ |valueOf (mul v v) - valueOf v ^ 2| ≤ 1 / 2 ^ 24 * valueOf v ^ 2 + 1 / 2 ^ 150 := by
    intro v hv hb
    obtain ⟨h1, h2⟩ := sq_le hb
    have hm := mul_value hP hv hv (by rw [abs_of_nonneg h2]; exact le_trans h1 (le_trans (by norm_num) hmax))
    refine ⟨hm.1, by rw [hm.2]; exact rnd_nonneg h2, ?_⟩
    have := rnd32_error (valueOf v * valueOf v)
    rw [hm.2, sq]
    rwa [abs_of_nonneg h2] at this
  obtain ⟨fx, nx, ex⟩ := one hx bx
  obtain ⟨fy, ny, ey⟩ := one hy by'
  obtain ⟨fz, nz, ez⟩ := one hz bz
  have qx := sq_le bx
  have qy := sq_le by'
  have qz := sq_le bz
  rw [← sq] at qx qy qz
  rw [abs_le] at ex ey ez
  have s1 := add_value hP fx fy (by
    rw [abs_of_nonneg (by linarith)]
    refine le_trans ?_ hmax
    linarith [ex.2, ey.2, show (2 : ℚ) * (2 ^ 120 + 1 / 2 ^ 24 * 2 ^ 120 + 1 / 2 ^ 150) ≤ 2 ^ 127 by norm_num])
  have e1 := rnd32_error_add (mul x x) (mul y y)
  rw [← s1.2, abs_of_nonneg (a := valueOf (mul x x) + valueOf (mul y y)) (by linarith), abs_le] at e1
  have n1 : 0 ≤ valueOf (add (mul x x) (mul y y)) := by rw [s1.2]; exact rnd_nonneg (by linarith)
  have s2 := add_value hP s1.1 fz (by
    rw [abs_of_nonneg (by linarith)]
    refine le_trans ?_ hmax
    linarith [ex.2, ey.2, ez.2, e1.2, show (6 : ℚ) * (2 ^ 120 + 1 / 2 ^ 24 * 2 ^ 120 + 1 / 2 ^ 150) ≤ 2 ^ 127 by norm_num])
  have e2 := rnd32_error_add (add (mul x x) (mul y y)) (mul z z)
  rw [← s2.2, abs_of_nonneg (a := valueOf (add (mul x x) (mul y y)) + valueOf (mul z z)) (by linarith), abs_le] at e2
  refine ⟨s2.1, ?_⟩
  generalize valueOf (add (add (mul x x) (mul y y)) (mul z z)) = S at *
  generalize valueOf (add (mul x x) (mul y y)) = s at *
  generalize valueOf (mul x x) = xx at *
  generalize valueOf (mul y y) = yy at *
  generalize valueOf (mul z z) = zz at *
  generalize valueOf x ^ 2 = X at *
  generalize valueOf y ^ 2 = Y at *
  generalize valueOf z ^ 2 = Z at *
  clear sq_le one s1 s2 hmax
  obtain ⟨ex1, ex2⟩ := ex
  obtain ⟨ey1, ey2⟩ := ey
  obtain ⟨ez1, ez2⟩ := ez
  obtain ⟨e11, e12⟩ := e1
  obtain ⟨e21, e22⟩ := e2
  obtain ⟨_, hX⟩ := qx
  obtain ⟨_, hY⟩ := qy
  obtain ⟨_, hZ⟩ := qz
  rw [abs_le]
  norm_num at *
  constructor <;> linarith

/-- One component divided by the length. -/
theorem quotient_near {A a : ℚ} (h : |a - A| ≤ 1 / 2 ^ 24 * |A| + 1 / 2 ^ 150) (hA : |A| ≤ 2) :
    |a ^ 2 - A ^ 2| ≤ (9 / 4) / 2 ^ 24 * A ^ 2 + 5 / 2 ^ 150 := by
  have e : a ^ 2 - A ^ 2 = (a - A) * ((a - A) + 2 * A) := by ring
  rw [e, abs_mul]
  have h0 := abs_nonneg A
  have h1 : |a - A + 2 * A| ≤ (1 / 2 ^ 24 * |A| + 1 / 2 ^ 150) + 2 * |A| := by
    refine le_trans (abs_add_le _ _) ?_
    rw [abs_mul, abs_two]; linarith
  refine le_trans (mul_le_mul h h1 (abs_nonneg _) (by positivity)) ?_
  rw [← sq_abs A]
  generalize |A| = c at *
  nlinarith

/-- `normalize`: the result is `x / m, y / m, z / m` up to rounding, for one `m > 0`, and its length is
1 up to rounding. -/
theorem normalize_near {x y z : Val b32} (hx : isFinite x = true) (hy : isFinite y = true) (hz : isFinite z = true)
    (bx : |valueOf x| ≤ 2 ^ 60) (by' : |valueOf y| ≤ 2 ^ 60) (bz : |valueOf z| ≤ 2 ^ 60)
    (hQ : 1 / 2 ^ 120 ≤ valueOf x ^ 2 + valueOf y ^ 2 + valueOf z ^ 2) {mag : Val b32}
    (hmag : mag = sqrt (add (add (mul x x) (mul y y)) (mul z z))) :
    isFinite mag = true ∧ 0 < valueOf mag ∧
    (∀ c ∈ [x, y, z], isFinite (div c mag) = true ∧ 
      |valueOf (div c mag) - valueOf c / valueOf mag| ≤ 1 / 2 ^ 24 * |valueOf c / valueOf mag| + 1 / 2 ^ 150) ∧
    |valueOf (div x mag) ^ 2 + valueOf (div y mag) ^ 2 + valueOf (div z mag) ^ 2 - 1| ≤ 1 / 2 ^ 20 := by
  have hP : 0 < b32.prec := by decide
  obtain ⟨fS, eS⟩ := sumsq_value hx hy hz bx by' bz
  generalize add (add (mul x x) (mul y y)) (mul z z) = s at *
  generalize hQe : valueOf x ^ 2 + valueOf y ^ 2 + valueOf z ^ 2 = Q at *
  rw [abs_le] at eS
  have hSpos : 0 < valueOf s := by
    norm_num at *
    linarith [eS.1]
  obtain ⟨fm, mpos, em⟩ := sqrt_value fS hSpos
  rw [← hmag] at fm mpos em
  rw [abs_le] at em
  have hm2 : |valueOf mag ^ 2 - Q| ≤ 8 / 2 ^ 24 * Q := by
    rw [abs_le]
    generalize valueOf mag ^ 2 = M at *
    generalize valueOf s = S at *
    clear hQe
    norm_num at *
    constructor <;> linarith [em.1, em.2, eS.1, eS.2]
  have hmm : 0 < valueOf mag ^ 2 := by positivity
  have hR : |Q / valueOf mag ^ 2 - 1| ≤ 9 / 2 ^ 24 := by
    have e : Q / valueOf mag ^ 2 * valueOf mag ^ 2 = Q := div_mul_cancel₀ _ hmm.ne'
    generalize Q / valueOf mag ^ 2 = R at *
    generalize valueOf mag ^ 2 = M at *
    rw [← e] at hm2
    have h1 : |1 - R| ≤ 8 / 2 ^ 24 * R := by
      have e2 : M - R * M = (1 - R) * M := by ring
      rw [e2, abs_mul, abs_of_pos hmm, ← mul_assoc] at hm2
      exact le_of_mul_le_mul_right hm2 hmm
    rw [abs_le] at h1 ⊢
    norm_num at *
    constructor <;> linarith [h1.1, h1.2]
  have comp : ∀ c ∈ [x, y, z], isFinite c = true ∧ (valueOf c / valueOf mag) ^ 2 ≤ Q / valueOf mag ^ 2 := by
    intro c hc
    simp only [List.mem_cons, List.not_mem_nil, or_false] at hc
    have q1 := sq_nonneg (valueOf x)
    have q2 := sq_nonneg (valueOf y)
    have q3 := sq_nonneg (valueOf z)
    rcases hc with rfl | rfl | rfl
    · exact ⟨hx, by rw [div_pow]; exact div_le_div_of_nonneg_right (by linarith) hmm.le⟩
    · exact ⟨hy, by rw [div_pow]; exact div_le_div_of_nonneg_right (by linarith) hmm.le⟩
    · exact ⟨hz, by rw [div_pow]; exact div_le_div_of_nonneg_right (by linarith) hmm.le⟩
  have small : ∀ c ∈ [x, y, z], |valueOf c / valueOf mag| ≤ 2 := by
    intro c hc
    have h1 := (comp c hc).2
    rw [abs_le] at hR
    have h2 : (valueOf c / valueOf mag) ^ 2 ≤ 2 ^ 2 := by
      norm_num at *
      linarith [hR.2]
    exact abs_le_of_sq_le_sq h2 (by norm_num)
  have near : ∀ c ∈ [x, y, z], isFinite (div c mag) = true ∧ 
      |valueOf (div c mag) - valueOf c / valueOf mag| ≤ 1 / 2 ^ 24 * |valueOf c / valueOf mag| + 1 / 2 ^ 150 := by
    intro c hc
    have hd := div_value hP (comp c hc).1 fm mpos.ne' (le_trans (small c hc) (le_trans (by norm_num) maxV32))
    refine ⟨hd.1, ?_⟩
    rw [hd.2]
    exact rnd32_error _
  refine ⟨fm, mpos, near, ?_⟩
  have kx := quotient_near (near x (by simp)).2 (small x (by simp))
  have ky := quotient_near (near y (by simp)).2 (small y (by simp))
  have kz := quotient_near (near z (by simp)).2 (small z (by simp))
  have hsum : Q / valueOf mag ^ 2 = (valueOf x / valueOf mag) ^ 2 + (valueOf y / valueOf mag) ^ 2 + (valueOf z / valueOf mag) ^ 2 := by
    rw [← hQe]; ring
  rw [hsum] at hR
  generalize (valueOf x / valueOf mag) ^ 2 = X at *
  generalize (valueOf y / valueOf mag) ^ 2 = Y at *
  generalize (valueOf z / valueOf mag) ^ 2 = Z at *
  generalize valueOf (div x mag) ^ 2 = X' at *
  generalize valueOf (div y mag) ^ 2 = Y' at *
  generalize valueOf (div z mag) ^ 2 = Z' at *
  clear near comp small
  rw [abs_le] at kx ky kz hR ⊢
  obtain ⟨kx1, kx2⟩ := kx
  obtain ⟨ky1, ky2⟩ := ky
  obtain ⟨kz1, kz2⟩ := kz
  obtain ⟨hR1, hR2⟩ := hR
  norm_num at *
  constructor <;> linarith

end Tmf.Ieee
