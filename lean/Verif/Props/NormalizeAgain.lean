import Verif.Spec.NormalizeAgain
import Verif.Props.Normalize
/-
C106: normalising normals again leaves them where they are. False for the bits: (1,1,1) changes at every
further call, for ever (`C106_violated`). Each further call moves a component by at most `2^-19`, and the
normals keep unit length however often they are normalised.
-/

set_option exponentiation.threshold 2000

namespace Tmf.Props
open Spec Ieee

variable {lib : Libm}

/-- A component of a quotient, compared with the component itself. -/
theorem quotient_square {x a d t r : ℚ} (hd0 : 0 ≤ d) (hd : d ≤ 1 / 2 ^ 24) (ht : t ≤ d / 100)
    (ha : |a - x * r| ≤ d * |x * r| + t) (h1 : |a| ≤ 1001 / 1000) :
    |x * r| ≤ 1002 / 1000 ∧ |a - x * r| ≤ 102 / 100 * d ∧ |a ^ 2 - (x * r) ^ 2| ≤ 21 / 10 * d := by
  generalize x * r = q at *
  have h2 : |q| ≤ |a| + (d * |q| + t) := by
    have := abs_sub_abs_le_abs_sub q a
    rw [abs_sub_comm] at this
    linarith
  have hdq : d * |q| ≤ 1 / 2 ^ 24 * |q| := mul_le_mul_of_nonneg_right hd (abs_nonneg q)
  have h3 : |q| ≤ 1002 / 1000 := by
    norm_num at *
    linarith
  have h4 : d * |q| ≤ d * (1002 / 1000) := mul_le_mul_of_nonneg_left h3 hd0
  have h5 : |a - q| ≤ 102 / 100 * d := by linarith
  refine ⟨h3, h5, ?_⟩
  rw [show a ^ 2 - q ^ 2 = (a - q) * (a + q) by ring, abs_mul]
  have h6 : |a + q| ≤ 2003 / 1000 := le_trans (abs_add_le a q) (by linarith)
  calc |a - q| * |a + q| ≤ 102 / 100 * d * (2003 / 1000) := mul_le_mul h5 h6 (abs_nonneg _) (by linarith)
    _ ≤ 21 / 10 * d := by linarith

theorem small_component {x s e : ℚ} (h : x ^ 2 ≤ s) (hs : |s - 1| ≤ e) (he : e ≤ 1 / 1000) : |x| ≤ 1001 / 1000 := by
  have := (abs_le.mp hs).2
  refine abs_le_of_sq_le_sq ?_ (by norm_num)
  nlinarith

theorem factor_one {r s : ℚ} (hr : 0 < r) (hs : |s - 1| ≤ 14 / 2 ^ 24) (hS : |r ^ 2 * s - 1| ≤ 203 / 10 / 2 ^ 24) :
    |r - 1| ≤ 18 / 2 ^ 24 := by
  have hr2 : |r ^ 2 - 1| ≤ 35 / 2 ^ 24 := by
    have h1 := abs_le.mp hS
    have h2 := abs_le.mp hs
    have hs0 : 99 / 100 ≤ s := le_trans (by norm_num) (by linarith [h2.1] : 1 - 14 / 2 ^ 24 ≤ s)
    have h3 : |(r ^ 2 - 1) * s| ≤ 343 / 10 / 2 ^ 24 := by
      rw [show (r ^ 2 - 1) * s = (r ^ 2 * s - 1) - (s - 1) by ring]
      have := abs_sub (r ^ 2 * s - 1) (s - 1)
      linarith
    rw [abs_mul, abs_of_pos (lt_of_lt_of_le (by norm_num) hs0)] at h3
    have h4 := mul_le_mul_of_nonneg_left hs0 (abs_nonneg (r ^ 2 - 1))
    linarith
  clear hS hs
  have h1 := (abs_le.mp hr2).1
  have h9 : 99 / 100 ≤ r := by
    by_contra h
    have h' : r < 99 / 100 := not_le.mp h
    have h2 : r ^ 2 ≤ (99 / 100) ^ 2 := pow_le_pow_left₀ hr.le h'.le 2
    have : (99 / 100 : ℚ) ^ 2 < 1 - 35 / 2 ^ 24 := by norm_num
    linarith
  rw [show r ^ 2 - 1 = (r - 1) * (r + 1) by ring, abs_mul, abs_of_pos (by linarith : 0 < r + 1)] at hr2
  have h4 := mul_le_mul_of_nonneg_left (by linarith : 199 / 100 ≤ r + 1) (abs_nonneg (r - 1))
  linarith

/-- One more call moves a normal of almost unit length by at most `2^-19`. -/
theorem step_near {x y z a b c m : ℚ} (hm : 0 < m) (hs : |x ^ 2 + y ^ 2 + z ^ 2 - 1| ≤ 14 / 2 ^ 24)
    (hs' : |a ^ 2 + b ^ 2 + c ^ 2 - 1| ≤ 14 / 2 ^ 24)
    (ha : |a - x / m| ≤ 1 / 2 ^ 24 * |x / m| + 1 / 2 ^ 150) (hb : |b - y / m| ≤ 1 / 2 ^ 24 * |y / m| + 1 / 2 ^ 150)
    (hc : |c - z / m| ≤ 1 / 2 ^ 24 * |z / m| + 1 / 2 ^ 150) :
    |a - x| ≤ 1 / 2 ^ 19 ∧ |b - y| ≤ 1 / 2 ^ 19 ∧ |c - z| ≤ 1 / 2 ^ 19 := by
  have hr : 0 < 1 / m := by positivity
  rw [div_eq_mul_one_div x] at ha
  rw [div_eq_mul_one_div y] at hb
  rw [div_eq_mul_one_div z] at hc
  generalize 1 / m = r at *
  have he : (14 : ℚ) / 2 ^ 24 ≤ 1 / 1000 := by norm_num
  have a1 : |a| ≤ 1001 / 1000 := small_component (by nlinarith [sq_nonneg b, sq_nonneg c]) hs' he
  have b1 : |b| ≤ 1001 / 1000 := small_component (by nlinarith [sq_nonneg a, sq_nonneg c]) hs' he
  have c1 : |c| ≤ 1001 / 1000 := small_component (by nlinarith [sq_nonneg a, sq_nonneg b]) hs' he
  have x1 : |x| ≤ 1001 / 1000 := small_component (by nlinarith [sq_nonneg y, sq_nonneg z]) hs he
  have y1 : |y| ≤ 1001 / 1000 := small_component (by nlinarith [sq_nonneg x, sq_nonneg z]) hs he
  have z1 : |z| ≤ 1001 / 1000 := small_component (by nlinarith [sq_nonneg x, sq_nonneg y]) hs he
  obtain ⟨-, a2, a3⟩ := quotient_square (by norm_num) (le_refl _) (by norm_num) ha a1
  obtain ⟨-, b2, b3⟩ := quotient_square (by norm_num) (le_refl _) (by norm_num) hb b1
  obtain ⟨-, c2, c3⟩ := quotient_square (by norm_num) (le_refl _) (by norm_num) hc c1
  have hS : |r ^ 2 * (x ^ 2 + y ^ 2 + z ^ 2) - 1| ≤ 203 / 10 / 2 ^ 24 := by
    have e : r ^ 2 * (x ^ 2 + y ^ 2 + z ^ 2) - 1 = (a ^ 2 + b ^ 2 + c ^ 2 - 1) - (a ^ 2 - (x * r) ^ 2) - (b ^ 2 - (y * r) ^ 2) -
        (c ^ 2 - (z * r) ^ 2) := by ring
    rw [e]
    have h1 := abs_sub (a ^ 2 + b ^ 2 + c ^ 2 - 1 - (a ^ 2 - (x * r) ^ 2) - (b ^ 2 - (y * r) ^ 2)) (c ^ 2 - (z * r) ^ 2)
    have h2 := abs_sub (a ^ 2 + b ^ 2 + c ^ 2 - 1 - (a ^ 2 - (x * r) ^ 2)) (b ^ 2 - (y * r) ^ 2)
    have h3 := abs_sub (a ^ 2 + b ^ 2 + c ^ 2 - 1) (a ^ 2 - (x * r) ^ 2)
    linarith
  have hr1 : |r - 1| ≤ 18 / 2 ^ 24 := factor_one hr hs hS
  have fin : ∀ {a x : ℚ}, |x| ≤ 1001 / 1000 → |a - x * r| ≤ 102 / 100 * (1 / 2 ^ 24) → |a - x| ≤ 1 / 2 ^ 19 := by
    intro a x h1 h2
    have h3 : |x * (r - 1)| ≤ 1001 / 1000 * (18 / 2 ^ 24) := by
      rw [abs_mul]
      exact mul_le_mul h1 hr1 (abs_nonneg _) (by norm_num)
    have h4 : |a - x| ≤ |a - x * r| + |x * (r - 1)| := by
      rw [show a - x = (a - x * r) + x * (r - 1) by ring]
      exact abs_add_le _ _
    linarith
  exact ⟨fin x1 a2, fin y1 b2, fin z1 c2⟩

theorem unit_moderate {w : Vec3 (Val b32)} (hf : FiniteV w) (hu : AlmostUnit (14 / 2 ^ 24) w) : Moderate w ∧ lengthError w ≤ 14 / 2 ^ 24 := by
  have h := abs_le.mp hu
  have h1 : 99 / 100 ≤ lengthSq w := le_trans (by norm_num) (by rw [lengthSq]; linarith [h.1] : 1 - 14 / 2 ^ 24 ≤ lengthSq w)
  have h2 : lengthSq w ≤ 2 := le_trans (by rw [lengthSq]; linarith [h.2] : lengthSq w ≤ 1 + 14 / 2 ^ 24) (by norm_num)
  refine ⟨⟨hf, le_trans (by norm_num) h1, le_trans h2 (by norm_num)⟩, ?_⟩
  have h3 : 5 / 2 ^ 150 / lengthSq w ≤ 1 / 2 ^ 24 := by
    rw [div_le_iff₀ (by linarith)]
    refine le_trans ?_ (mul_le_mul_of_nonneg_left h1 (by norm_num))
    norm_num
  rw [lengthError]
  linarith

theorem unit_step {w : Vec3 (Val b32)} (hf : FiniteV w) (hu : AlmostUnit (14 / 2 ^ 24) w) :
    FiniteV (normalizeV w) ∧ AlmostUnit (14 / 2 ^ 24) (normalizeV w) ∧ WithinV (1 / 2 ^ 19) w (normalizeV w) := by
  obtain ⟨hm, he⟩ := unit_moderate hf hu
  obtain ⟨⟨m, m0, q1, q2, q3⟩, hu', hf'⟩ := normalizeV_moderate hm
  have hu'' : AlmostUnit (14 / 2 ^ 24) (normalizeV w) := le_trans hu' he
  obtain ⟨n1, n2, n3⟩ := step_near m0 hu hu'' q1.2 q2.2 q3.2
  exact ⟨hf', hu'', ⟨hf'.1, n1⟩, ⟨hf'.2.1, n2⟩, ⟨hf'.2.2, n3⟩⟩

theorem within_add {d e : ℚ} {x y z : Val b32} (h : Within d x y) (h' : Within e y z) : Within (d + e) x z :=
  ⟨h'.1, by
    rw [show valueOf z - valueOf x = (valueOf z - valueOf y) + (valueOf y - valueOf x) by ring]
    exact le_trans (abs_add_le _ _) (by linarith [h.2, h'.2])⟩

theorem unit_steps {w : Vec3 (Val b32)} (hf : FiniteV w) (hu : AlmostUnit (14 / 2 ^ 24) w) : ∀ k : Nat,
    FiniteV (normalizeV^[k] w) ∧ AlmostUnit (14 / 2 ^ 24) (normalizeV^[k] w) ∧ WithinV (k / 2 ^ 19) w (normalizeV^[k] w)
  | 0 => by
    have z : ∀ x : Val b32, isFinite x = true → Within ((0 : Nat) / 2 ^ 19) x x := fun x hx => ⟨hx, by simp⟩
    exact ⟨hf, hu, z _ hf.1, z _ hf.2.1, z _ hf.2.2⟩
  | k + 1 => by
    obtain ⟨f, u, h1, h2, h3⟩ := unit_steps hf hu k
    obtain ⟨f', u', h1', h2', h3'⟩ := unit_step f u
    rw [Function.iterate_succ_apply']
    have e : ((k + 1 : Nat) : ℚ) / 2 ^ 19 = k / 2 ^ 19 + 1 / 2 ^ 19 := by push_cast; ring
    rw [e]
    exact ⟨f', u', within_add h1 h1', within_add h2 h2', within_add h3 h3'⟩

/-- What repeated calls do to the normals. -/
theorem normals_times (m : Mesh (Val b32)) (l : List (Vec3 (Val b32))) (hm : m.normals = some l) : ∀ k : Nat,
    (Mesh.normalize (ops lib))^[k] m = { m with normals := some (l.map (normalizeV^[k])) }
  | 0 => by
    rw [show (normalizeV^[0] : Vec3 (Val b32) → Vec3 (Val b32)) = id from rfl, List.map_id, ← hm]
    rfl
  | k + 1 => by
    rw [Function.iterate_succ_apply', normals_times m l hm k, Mesh.normalize]
    simp only [Option.map_some, List.map_map]
    have e : Tmf.normalize (ops lib) ∘ normalizeV^[k] = normalizeV^[k + 1] := by
      funext v
      show Tmf.normalize (ops lib) (normalizeV^[k] v) = _
      rw [normalize_ops lib, Function.iterate_succ_apply']
    exact congrArg (fun n => ({ m with normals := some n } : Mesh (Val b32))) (congrArg (fun f => l.map f) e)

/-- C106 (the full claim is that further calls change nothing, see `C106_violated`): however often the normals of a mesh
are normalised, they have unit length and are, after `k` further calls, at most `k / 2^19` from where the first call put
them; nothing else changes. For finite normals of length `2^-60` to almost `2^64`. -/
theorem C106_near_partial (m : Mesh (Val b32)) {l : List (Vec3 (Val b32))} (hm : m.normals = some l)
    (hl : ∀ v ∈ l, Moderate v ∧ 1 / 2 ^ 120 ≤ lengthSq v) (k : Nat) :
    ∃ l₁ l', (m.normalize (ops lib)).normals = some l₁ ∧
      (Mesh.normalize (ops lib))^[k + 1] m = { m with normals := some l' } ∧
      List.Forall₂ (fun w w' => WithinV (k / 2 ^ 19) w w' ∧ AlmostUnit (1 / 2 ^ 20) w') l₁ l' := by
  refine ⟨l.map normalizeV, l.map (normalizeV^[k + 1]), ?_, normals_times m l hm (k + 1), ?_⟩
  · have h := congrArg Mesh.normals (normals_times (lib := lib) m l hm 1)
    exact h
  · rw [List.forall₂_map_left_iff, List.forall₂_map_right_iff]
    refine List.forall₂_same.mpr fun v hv => ?_
    obtain ⟨hv, hs⟩ := hl v hv
    obtain ⟨-, hu, hf⟩ := normalizeV_moderate hv
    have h0 : 0 < lengthSq v := lt_of_lt_of_le (by norm_num) hs
    have h3 : 5 / 2 ^ 150 / lengthSq v ≤ 1 / 2 ^ 24 := by
      rw [div_le_iff₀ h0]
      refine le_trans ?_ (mul_le_mul_of_nonneg_left hs (by norm_num))
      norm_num
    have hu' : AlmostUnit (14 / 2 ^ 24) (normalizeV v) := le_trans hu (by rw [lengthError]; linarith)
    obtain ⟨-, u, h⟩ := unit_steps hf hu' k
    rw [Function.iterate_succ_apply]
    exact ⟨h, le_trans u (by norm_num)⟩

/-! ### A normal that never settles -/

/-- What (1,1,1) is normalised to at odd calls. -/
def thirdLow : Val b32 := .fin false (309962560 * 2 ^ 120) (by decide +kernel)
/-- What (1,1,1) is normalised to at even calls. -/
def thirdHigh : Val b32 := .fin false (309962592 * 2 ^ 120) (by decide +kernel)

theorem third_start : normalizeV (vOne, vOne, vOne) = (thirdLow, thirdLow, thirdLow) := by decide +kernel
theorem third_up : normalizeV (thirdLow, thirdLow, thirdLow) = (thirdHigh, thirdHigh, thirdHigh) := by decide +kernel
theorem third_down : normalizeV (thirdHigh, thirdHigh, thirdHigh) = (thirdLow, thirdLow, thirdLow) := by decide +kernel
theorem third_apart : thirdLow ≠ thirdHigh := by decide +kernel

theorem third_steps : ∀ k : Nat, normalizeV^[2 * k + 1] (vOne, vOne, vOne) = (thirdLow, thirdLow, thirdLow) ∧
    normalizeV^[2 * k + 2] (vOne, vOne, vOne) = (thirdHigh, thirdHigh, thirdHigh)
  | 0 => by
    have h : normalizeV^[2 * 0 + 1] (vOne, vOne, vOne) = (thirdLow, thirdLow, thirdLow) := by
      rw [Function.iterate_succ_apply', Nat.mul_zero, Function.iterate_zero_apply, third_start]
    exact ⟨h, by rw [Function.iterate_succ_apply', h, third_up]⟩
  | k + 1 => by
    have h := (third_steps k).2
    have h' : normalizeV^[2 * (k + 1) + 1] (vOne, vOne, vOne) = (thirdLow, thirdLow, thirdLow) := by
      rw [show 2 * (k + 1) + 1 = (2 * k + 2) + 1 by ring, Function.iterate_succ_apply', h, third_down]
    exact ⟨h', by rw [show 2 * (k + 1) + 2 = (2 * (k + 1) + 1) + 1 by ring, Function.iterate_succ_apply', h', third_up]⟩

/-- C106 is false as stated: every further call changes the normal (1,1,1), for ever. -/
theorem C106_violated (m : Mesh (Val b32)) (hm : m.normals = some [(vOne, vOne, vOne)]) (k : Nat) :
    ((Mesh.normalize (ops lib))^[k + 2] m).normals ≠ ((Mesh.normalize (ops lib))^[k + 1] m).normals := by
  rw [normals_times m _ hm, normals_times m _ hm]
  dsimp only
  rw [List.map_cons, List.map_nil, List.map_cons, List.map_nil]
  intro h
  have h := (List.cons.inj (Option.some.inj h)).1
  rcases Nat.even_or_odd' k with ⟨j, rfl | rfl⟩
  · rw [(third_steps j).1, (third_steps j).2] at h
    exact third_apart (Prod.mk.inj h).1.symm
  · rw [show 2 * j + 1 + 2 = 2 * (j + 1) + 1 by ring, show 2 * j + 1 + 1 = 2 * j + 2 by ring, (third_steps (j + 1)).1, (third_steps j).2] at h
    exact third_apart (Prod.mk.inj h).1

/-! ### Examples -/

/-- (1, 9/64, 3/2) after a thousand calls. -/
example : ∃ l₁ l', ((Mesh.empty.setNormals [(vOne, nine64, threeHalves)]).1.normalize (ops lib)).normals = some l₁ ∧
    (Mesh.normalize (ops lib))^[1000] (Mesh.empty.setNormals [(vOne, nine64, threeHalves)]).1 =
      { (Mesh.empty.setNormals [(vOne, nine64, threeHalves)]).1 with normals := some l' } ∧
    List.Forall₂ (fun w w' => WithinV ((999 : Nat) / 2 ^ 19) w w' ∧ AlmostUnit (1 / 2 ^ 20) w') l₁ l' :=
  C106_near_partial _ rfl (fun v hv => by
    rcases List.mem_singleton.mp hv with rfl
    refine ⟨moderate_example, ?_⟩
    simp only [lengthSq]
    rw [valueOf_vOne, valueOf_nine64, valueOf_threeHalves]; norm_num) 999

example (k : Nat) : ((Mesh.normalize (ops lib))^[k + 2] (Mesh.empty.setNormals [(vOne, vOne, vOne)]).1).normals ≠
    ((Mesh.normalize (ops lib))^[k + 1] (Mesh.empty.setNormals [(vOne, vOne, vOne)]).1).normals :=
  C106_violated _ rfl k

end Tmf.Props
