import Verif.Lemmas.NormalizeRange
/-
`normalize` for short vectors.
-/

set_option exponentiation.threshold 2000

namespace Tmf.Ieee
open Spec

/-- The square of a number above `2^-75` is not rounded to zero. -/
theorem square_seen {x : Val b32} (hx : isFinite x = true) (h : 1 / 2 ^ 75 < |valueOf x|) : 1 / 2 ^ 149 ≤ rnd b32 (valueOf x * valueOf x) := by
  have hP : 0 < b32.prec := by decide
  obtain ⟨s, n, hn, rfl⟩ := finite_cases hx
  have e := abs_valueOf_fin s n hn
  rw [show b32.scale = 149 from rfl] at e
  have hn1 : 2 ^ 74 + 1 ≤ n := by
    rw [e, lt_div_iff₀ (by norm_num)] at h
    have h' : ((2 ^ 74 : Nat) : ℚ) < (n : ℚ) := by
      refine lt_of_le_of_lt ?_ h
      norm_num
    have := Nat.cast_lt.mp h'
    omega
  have hv : ((2 ^ 74 + 1 : ℚ) / 2 ^ 149) * ((2 ^ 74 + 1) / 2 ^ 149) ≤ valueOf (.fin s n hn : Val b32) * valueOf (.fin s n hn : Val b32) := by
    rw [← abs_mul_abs_self (valueOf (.fin s n hn : Val b32)), e]
    have : (2 ^ 74 + 1 : ℚ) / 2 ^ 149 ≤ (n : ℚ) / 2 ^ 149 := by
      refine div_le_div_of_nonneg_right ?_ (by positivity)
      exact_mod_cast hn1
    exact mul_le_mul this this (by positivity) (by positivity)
  refine le_trans (le_of_eq ?_) (rnd_mono hP hv)
  rw [rnd_of_nonneg (by positivity), rndPos_eq hP (by positivity) (num := (2 ^ 74 + 1) * (2 ^ 74 + 1)) (den := 2 ^ 149) (by positivity)
    (by rw [show b32.scale = 149 from rfl]; push_cast; ring), show b32.round ((2 ^ 74 + 1) * (2 ^ 74 + 1)) (2 ^ 149) = 1 by decide +kernel,
    show b32.scale = 149 from rfl, Nat.cast_one]

theorem sum_left {x y : Val b32} (h1 : 0 ≤ valueOf y) : valueOf x ≤ rnd b32 (valueOf x + valueOf y) :=
  valueOf_le_rnd (by decide) (by linarith)

/-- The sum of squares is at least the smallest number above zero if a component is above `2^-75`. -/
theorem sumsq_seen {x y z : Val b32} (hx : isFinite x = true) (hy : isFinite y = true) (hz : isFinite z = true)
    (fS : isFinite (add (add (mul x x) (mul y y)) (mul z z)) = true)
    (h : 1 / 2 ^ 75 < |valueOf x| ∨ 1 / 2 ^ 75 < |valueOf y| ∨ 1 / 2 ^ 75 < |valueOf z|) :
    1 / 2 ^ 149 ≤ valueOf (add (add (mul x x) (mul y y)) (mul z z)) := by
  have fin2 : ∀ {a c : Val b32}, isFinite (add a c) = true → isFinite a = true ∧ isFinite c = true := by
    intro a c h
    cases a <;> cases c <;> first | exact ⟨rfl, rfl⟩ | cases h | (simp only [add] at h; split at h <;> cases h)
  obtain ⟨f1, fz⟩ := fin2 fS
  obtain ⟨fx, fy⟩ := fin2 f1
  have sq : ∀ {c : Val b32}, isFinite c = true → isFinite (mul c c) = true → 0 ≤ valueOf (mul c c) ∧
      (1 / 2 ^ 75 < |valueOf c| → 1 / 2 ^ 149 ≤ valueOf (mul c c)) := by
    intro c hc hf
    rcases square_cases hc with e | ⟨-, e⟩
    · rw [e] at hf; cases hf
    · rw [e]
      exact ⟨rnd_nonneg (mul_self_nonneg _), square_seen hc⟩
  obtain ⟨px, qx⟩ := sq hx fx
  obtain ⟨py, qy⟩ := sq hy fy
  obtain ⟨pz, qz⟩ := sq hz fz
  have s1 : valueOf (add (mul x x) (mul y y)) = rnd b32 (valueOf (mul x x) + valueOf (mul y y)) := by
    rcases sum_cases fx fy px py with e | ⟨-, e⟩
    · rw [e] at f1; cases f1
    · exact e
  have p1 : 0 ≤ valueOf (add (mul x x) (mul y y)) := by rw [s1]; exact rnd_nonneg (by linarith)
  have s2 : valueOf (add (add (mul x x) (mul y y)) (mul z z)) = rnd b32 (valueOf (add (mul x x) (mul y y)) + valueOf (mul z z)) := by
    rcases sum_cases f1 fz p1 pz with e | ⟨-, e⟩
    · rw [e] at fS; cases fS
    · exact e
  have l1 : valueOf (mul x x) ≤ valueOf (add (mul x x) (mul y y)) := by rw [s1]; exact sum_left py
  have l2 : valueOf (mul y y) ≤ valueOf (add (mul x x) (mul y y)) := by rw [s1, add_comm]; exact sum_left px
  have l3 : valueOf (add (mul x x) (mul y y)) ≤ valueOf (add (add (mul x x) (mul y y)) (mul z z)) := by rw [s2]; exact sum_left pz
  have l4 : valueOf (mul z z) ≤ valueOf (add (add (mul x x) (mul y y)) (mul z z)) := by rw [s2, add_comm]; exact sum_left p1
  rcases h with h | h | h
  · linarith [qx h]
  · linarith [qy h]
  · linarith [qz h]

/-- `normalize` for all vectors with a component above `2^-75` whose sum of squares does not overflow. -/
theorem normalize_seen {x y z : Val b32} (hx : isFinite x = true) (hy : isFinite y = true) (hz : isFinite z = true)
    (fS : isFinite (add (add (mul x x) (mul y y)) (mul z z)) = true)
    (h : 1 / 2 ^ 75 < |valueOf x| ∨ 1 / 2 ^ 75 < |valueOf y| ∨ 1 / 2 ^ 75 < |valueOf z|) {mag : Val b32}
    (hmag : mag = sqrt (add (add (mul x x) (mul y y)) (mul z z))) :
    isFinite mag = true ∧ 0 < valueOf mag ∧
    (∀ c ∈ [x, y, z], isFinite (div c mag) = true ∧
      |valueOf (div c mag) - valueOf c / valueOf mag| ≤ 1 / 2 ^ 24 * |valueOf c / valueOf mag| + 1 / 2 ^ 150) ∧
    1 / 6 ≤ valueOf (div x mag) ^ 2 + valueOf (div y mag) ^ 2 + valueOf (div z mag) ^ 2 ∧
    valueOf (div x mag) ^ 2 + valueOf (div y mag) ^ 2 + valueOf (div z mag) ^ 2 ≤ 4 := by
  have hP : 0 < b32.prec := by decide
  have hS := sumsq_seen hx hy hz fS h
  have eS : |valueOf (add (add (mul x x) (mul y y)) (mul z z)) - (valueOf x ^ 2 + valueOf y ^ 2 + valueOf z ^ 2)| ≤
      4 / 2 ^ 24 * (valueOf x ^ 2 + valueOf y ^ 2 + valueOf z ^ 2) + 4 / 2 ^ 150 := by
    rcases sumsq_cases hx hy hz with h | ⟨-, -, h⟩
    · rw [h] at fS; cases fS
    · exact h
  have q1 := sq_nonneg (valueOf x)
  have q2 := sq_nonneg (valueOf y)
  have q3 := sq_nonneg (valueOf z)
  have hQ : 1 / 2 ^ 150 ≤ valueOf x ^ 2 + valueOf y ^ 2 + valueOf z ^ 2 := by
    have sq : ∀ c : ℚ, 1 / 2 ^ 75 < |c| → 1 / 2 ^ 150 ≤ c ^ 2 := by
      intro c hc
      rw [← sq_abs]
      calc (1 : ℚ) / 2 ^ 150 = (1 / 2 ^ 75) ^ 2 := by norm_num
        _ ≤ |c| ^ 2 := pow_le_pow_left₀ (by norm_num) hc.le 2
    rcases h with h | h | h
    · linarith [sq _ h]
    · linarith [sq _ h]
    · linarith [sq _ h]
  generalize add (add (mul x x) (mul y y)) (mul z z) = s at *
  generalize hQe : valueOf x ^ 2 + valueOf y ^ 2 + valueOf z ^ 2 = Q at *
  have hSpos : 0 < valueOf s := lt_of_lt_of_le (by norm_num) hS
  obtain ⟨fm, mpos, em⟩ := sqrt_value fS hSpos
  rw [← hmag] at fm mpos em
  have hmm : 0 < valueOf mag ^ 2 := by positivity
  have b1 : Q ≤ 301 / 100 * valueOf mag ^ 2 := by
    rw [abs_le] at em eS
    generalize valueOf mag ^ 2 = M at *
    generalize valueOf s = S at *
    obtain ⟨em1, em2⟩ := em
    obtain ⟨eS1, eS2⟩ := eS
    clear hQe hmag h
    norm_num at *
    linarith
  have b2 : valueOf mag ^ 2 ≤ 501 / 100 * Q := by
    rw [abs_le] at em eS
    generalize valueOf mag ^ 2 = M at *
    generalize valueOf s = S at *
    obtain ⟨em1, em2⟩ := em
    obtain ⟨eS1, eS2⟩ := eS
    clear hQe hmag h
    norm_num at *
    linarith
  have r1 : Q / valueOf mag ^ 2 ≤ 301 / 100 := by rwa [div_le_iff₀ hmm]
  have r2 : 100 / 501 ≤ Q / valueOf mag ^ 2 := by rw [le_div_iff₀ hmm]; linarith
  have comp : ∀ c ∈ [x, y, z], isFinite c = true ∧ (valueOf c / valueOf mag) ^ 2 ≤ Q / valueOf mag ^ 2 := by
    intro c hc
    simp only [List.mem_cons, List.not_mem_nil, or_false] at hc
    rcases hc with rfl | rfl | rfl
    · exact ⟨hx, by rw [div_pow]; exact div_le_div_of_nonneg_right (by linarith) hmm.le⟩
    · exact ⟨hy, by rw [div_pow]; exact div_le_div_of_nonneg_right (by linarith) hmm.le⟩
    · exact ⟨hz, by rw [div_pow]; exact div_le_div_of_nonneg_right (by linarith) hmm.le⟩
  have small : ∀ c ∈ [x, y, z], |valueOf c / valueOf mag| ≤ 2 := by
    intro c hc
    have h1 := (comp c hc).2
    exact abs_le_of_sq_le_sq (show (valueOf c / valueOf mag) ^ 2 ≤ 2 ^ 2 by norm_num; norm_num at h1; linarith) (by norm_num)
  have near : ∀ c ∈ [x, y, z], isFinite (div c mag) = true ∧
      |valueOf (div c mag) - valueOf c / valueOf mag| ≤ 1 / 2 ^ 24 * |valueOf c / valueOf mag| + 1 / 2 ^ 150 := by
    intro c hc
    have hd := div_value hP (comp c hc).1 fm mpos.ne' (le_trans (small c hc) (le_trans (by norm_num) maxV32))
    refine ⟨hd.1, ?_⟩
    rw [hd.2]
    exact rnd32_error _
  refine ⟨fm, mpos, near, ?_⟩
  have kx := quotient_near (near x (by simp)).2 (small x (by simp))
  have ky := quotient_near (near y (by simp)).2 (small y (by simp))
  have kz := quotient_near (near z (by simp)).2 (small z (by simp))
  have hsum : Q / valueOf mag ^ 2 = (valueOf x / valueOf mag) ^ 2 + (valueOf y / valueOf mag) ^ 2 + (valueOf z / valueOf mag) ^ 2 := by
    rw [← hQe]; ring
  rw [hsum] at r1 r2
  clear hQe hQ hS eS b1 b2 em near comp small h hsum hmag
  generalize (valueOf x / valueOf mag) ^ 2 = X at *
  generalize (valueOf y / valueOf mag) ^ 2 = Y at *
  generalize (valueOf z / valueOf mag) ^ 2 = Z at *
  generalize valueOf (div x mag) ^ 2 = X' at *
  generalize valueOf (div y mag) ^ 2 = Y' at *
  generalize valueOf (div z mag) ^ 2 = Z' at *
  rw [abs_le] at kx ky kz
  obtain ⟨kx1, kx2⟩ := kx
  obtain ⟨ky1, ky2⟩ := ky
  obtain ⟨kz1, kz2⟩ := kz
  norm_num at *
  constructor <;> linarith

end Tmf.Ieee
