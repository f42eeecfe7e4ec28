import Verif.Lemmas.NormalizeRange
import Verif.Lemmas.VertexAccuracy
import Verif.Model.Verify
import Verif.Props.Accuracy
/-
C42, C51: `normalize`, with f32 arithmetic as IEEE 754 prescribes it.
-/

set_option exponentiation.threshold 2000

namespace Tmf.Props
open Spec Ieee

variable (lib : Libm)

theorem ops_sqrt : (ops lib).sqrt = sqrt := rfl
theorem ops_isNaN : (ops lib).isNaN = isNaN := rfl

/-- The length as the code computes it. -/
def lengthV (v : Vec3 (Val b32)) : Val b32 := sqrt (add (add (mul v.1 v.1) (mul v.2.1 v.2.1)) (mul v.2.2 v.2.2))

def normalizeV (v : Vec3 (Val b32)) : Vec3 (Val b32) :=
  if isNaN (lengthV v) then (lit 0 0, lit 0 0, lit 0 0)
  else (div v.1 (lengthV v), div v.2.1 (lengthV v), div v.2.2 (lengthV v))

theorem normalize_ops (v : Vec3 (Val b32)) : normalize (ops lib) v = normalizeV v := by
  rw [normalize, ops_sqrt lib, ops_add lib, ops_mul lib, ops_isNaN lib, ops_div lib, FloatOps.zero, ops_litOp lib, normalizeV,
    lengthV]

/-- How far the squared length of the result may be from 1: rounding, and the loss of digits in the squares of short vectors. -/
def lengthError (v : Vec3 (Val b32)) : ℚ := 13 / 2 ^ 24 + 5 / 2 ^ 150 / lengthSq v

theorem normalizeV_moderate {v : Vec3 (Val b32)} (h : Moderate v) : SameDirection v (normalizeV v) ∧
    AlmostUnit (lengthError v) (normalizeV v) ∧ FiniteV (normalizeV v) := by
  obtain ⟨⟨f1, f2, f3⟩, hl, hu⟩ := h
  obtain ⟨fm, mpos, hc, hu⟩ := normalize_wide f1 f2 f3 hl hu (mag := lengthV v) rfl
  have hnan : isNaN (lengthV v) = false := by
    obtain ⟨s, n, hn, e⟩ := finite_cases fm
    rw [e]; rfl
  have e : normalizeV v = (div v.1 (lengthV v), div v.2.1 (lengthV v), div v.2.2 (lengthV v)) := by
    rw [normalizeV, hnan]; rfl
  rw [e]
  exact ⟨⟨_, mpos, hc _ (by simp), hc _ (by simp), hc _ (by simp)⟩, hu, (hc _ (by simp)).1, (hc _ (by simp)).1, (hc _ (by simp)).1⟩

/-- From length `2^-62` on the squared length of the result is within `2^-20` of 1. -/
theorem lengthError_le {v : Vec3 (Val b32)} (h : 1 / 2 ^ 124 ≤ lengthSq v) : lengthError v ≤ 1 / 2 ^ 20 := by
  have h0 : 0 < lengthSq v := lt_of_lt_of_le (by norm_num) h
  have : 5 / 2 ^ 150 / lengthSq v ≤ 3 / 2 ^ 24 := by
    rw [div_le_iff₀ h0]
    refine le_trans ?_ (mul_le_mul_of_nonneg_left h (by norm_num))
    norm_num
  rw [lengthError]
  norm_num at *
  linarith

/-- From length `2^-68` on it is within `2^-10` of 1. -/
theorem lengthError_le_short {v : Vec3 (Val b32)} (h : 1 / 2 ^ 136 ≤ lengthSq v) : lengthError v ≤ 1 / 2 ^ 10 := by
  have h0 : 0 < lengthSq v := lt_of_lt_of_le (by norm_num) h
  have : 5 / 2 ^ 150 / lengthSq v ≤ 5 / 2 ^ 14 := by
    rw [div_le_iff₀ h0]
    refine le_trans ?_ (mul_le_mul_of_nonneg_left h (by norm_num))
    norm_num
  rw [lengthError]
  norm_num at *
  linarith

/-- A vector that is too long becomes zero. -/
theorem normalizeV_too_long {v : Vec3 (Val b32)} (hf : FiniteV v) (h : 2 ^ 128 + 2 ^ 108 ≤ lengthSq v) :
    FiniteV (normalizeV v) ∧ lengthSq (normalizeV v) = 0 := by
  obtain ⟨f1, f2, f3⟩ := hf
  have hL : lengthV v = .inf false := by rw [lengthV, sumsq_overflow f1 f2 f3 h]; rfl
  have hd : ∀ {c : Val b32}, isFinite c = true → isFinite (div c (.inf false)) = true ∧ valueOf (div c (.inf false)) = 0 := by
    intro c hc
    obtain ⟨s, n, hn, rfl⟩ := finite_cases hc
    have z : ∀ s : Bool, isFinite (rounded s 0 1 : Val b32) = true ∧ valueOf (rounded s 0 1 : Val b32) = 0 := by decide +kernel
    exact z _
  have e : normalizeV v = (div v.1 (.inf false), div v.2.1 (.inf false), div v.2.2 (.inf false)) := by rw [normalizeV, hL]; rfl
  rw [e]
  refine ⟨⟨(hd f1).1, (hd f2).1, (hd f3).1⟩, ?_⟩
  simp only [lengthSq]
  rw [(hd f1).2, (hd f2).2, (hd f3).2]
  norm_num

/-- No component of a vector that is too short stays finite. -/
theorem normalizeV_too_short {v : Vec3 (Val b32)} (hf : FiniteV v) (h1 : |valueOf v.1| ≤ 1 / 2 ^ 75) (h2 : |valueOf v.2.1| ≤ 1 / 2 ^ 75)
    (h3 : |valueOf v.2.2| ≤ 1 / 2 ^ 75) : isFinite (normalizeV v).1 = false ∧ isFinite (normalizeV v).2.1 = false ∧
      isFinite (normalizeV v).2.2 = false := by
  obtain ⟨f1, f2, f3⟩ := hf
  obtain ⟨fS, hS⟩ := sumsq_tiny f1 f2 f3 h1 h2 h3
  have hL : ∃ s h, lengthV v = .fin s 0 h := by
    rw [lengthV]
    generalize add (add (mul v.1 v.1) (mul v.2.1 v.2.1)) (mul v.2.2 v.2.2) = S at *
    obtain ⟨s, n, hn, rfl⟩ := finite_cases fS
    have hn0 : n = 0 := by
      have := abs_valueOf_fin s n hn
      rw [hS, abs_zero, eq_comm, div_eq_zero_iff] at this
      rcases this with h | h
      · exact_mod_cast h
      · exact absurd h (units_pos _).ne'
    subst hn0
    exact ⟨s, hn, by rw [sqrt, if_pos rfl]⟩
  obtain ⟨s, h, hL⟩ := hL
  have hd : ∀ {c : Val b32}, isFinite c = true → isFinite (div c (.fin s 0 h)) = false := by
    intro c hc
    obtain ⟨t, n, hn, rfl⟩ := finite_cases hc
    simp only [div, if_true]
    split <;> rfl
  have e : normalizeV v = (div v.1 (.fin s 0 h), div v.2.1 (.fin s 0 h), div v.2.2 (.fin s 0 h)) := by rw [normalizeV, hL]; rfl
  rw [e]
  exact ⟨hd f1, hd f2, hd f3⟩

/-- C42, structure: everything but the normals is untouched, and the number of normals stays. -/
theorem C42_structure {fo : FloatOps} (m : Mesh fo.F) :
    (m.normalize fo).vertices = m.vertices ∧ (m.normalize fo).vertexTriangles = m.vertexTriangles ∧
    (m.normalize fo).normalTriangles = m.normalTriangles ∧ (m.normalize fo).uvs = m.uvs ∧
    (m.normalize fo).uvTriangles = m.uvTriangles ∧ (m.normalize fo).tangents = m.tangents ∧
    (m.normalize fo).tangentTriangles = m.tangentTriangles ∧ (m.normalize fo).customData = m.customData ∧
    (m.normalize fo).normals.map List.length = m.normals.map List.length := by
  refine ⟨rfl, rfl, rfl, rfl, rfl, rfl, rfl, rfl, ?_⟩
  rw [Mesh.normalize]
  cases m.normals with
  | none => rfl
  | some l => simp

/-- C42 (the full claim is for every normal; it is false for normals that are zero, too long or too short, see
`C42_too_long_violated` and `C42_too_short_violated`; lengths between `2^-75` and `2^-72`, and within a millionth of `2^64`, are in
`C42_every`). Every finite normal in between keeps its direction and gets length 1, up to rounding. -/
theorem C42_normals_partial (m : Mesh (Val b32)) {l : List (Vec3 (Val b32))} (hm : m.normals = some l)
    (hl : ∀ v ∈ l, Moderate v) :
    ∃ l', (m.normalize (ops lib)).normals = some l' ∧
      List.Forall₂ (fun v w => SameDirection v w ∧ AlmostUnit (13 / 2 ^ 24 + 5 / 2 ^ 150 / lengthSq v) w ∧
        (1 / 2 ^ 124 ≤ lengthSq v → AlmostUnit (1 / 2 ^ 20) w)) l l' := by
  refine ⟨l.map (normalize (ops lib)), by rw [Mesh.normalize, hm]; rfl, ?_⟩
  clear hm
  induction l with
  | nil => exact .nil
  | cons v l ih =>
    refine .cons ?_ (ih (fun x hx => hl x (List.mem_cons_of_mem _ hx)))
    rw [normalize_ops lib]
    have := normalizeV_moderate (hl v List.mem_cons_self)
    exact ⟨this.1, this.2.1, fun h => le_trans this.2.1 (lengthError_le h)⟩

/-- C42 is false for every normal longer than `2^64` (and a millionth): the squares overflow, and it becomes zero. -/
theorem C42_too_long_violated (m : Mesh (Val b32)) {v : Vec3 (Val b32)} (hm : m.normals = some [v]) (hf : FiniteV v)
    (h : 2 ^ 128 + 2 ^ 108 ≤ lengthSq v) : ∃ w, (m.normalize (ops lib)).normals = some [w] ∧ FiniteV w ∧ lengthSq w = 0 := by
  refine ⟨normalizeV v, ?_, normalizeV_too_long hf h⟩
  rw [Mesh.normalize, hm, Option.map_some, List.map_cons, List.map_nil, normalize_ops lib]

/-- C42 is false for every normal with components up to `2^-75`: the squares are rounded to zero, and no component stays finite. -/
theorem C42_too_short_violated (m : Mesh (Val b32)) {v : Vec3 (Val b32)} (hm : m.normals = some [v]) (hf : FiniteV v)
    (h1 : |valueOf v.1| ≤ 1 / 2 ^ 75) (h2 : |valueOf v.2.1| ≤ 1 / 2 ^ 75) (h3 : |valueOf v.2.2| ≤ 1 / 2 ^ 75) :
    ∃ w, (m.normalize (ops lib)).normals = some [w] ∧ isFinite w.1 = false ∧ isFinite w.2.1 = false ∧ isFinite w.2.2 = false := by
  refine ⟨normalizeV v, ?_, normalizeV_too_short hf h1 h2 h3⟩
  rw [Mesh.normalize, hm, Option.map_some, List.map_cons, List.map_nil, normalize_ops lib]

theorem moderate_example : Moderate (vOne, nine64, threeHalves) where
  finite := ⟨rfl, rfl, rfl⟩
  lower := by
    simp only [lengthSq]
    rw [valueOf_vOne, valueOf_nine64, valueOf_threeHalves]; norm_num
  upper := by
    simp only [lengthSq]
    rw [valueOf_vOne, valueOf_nine64, valueOf_threeHalves]; norm_num

example : ∃ l', ((Mesh.empty.setNormals [(vOne, nine64, threeHalves)]).1.normalize (ops lib)).normals = some l' ∧
    List.Forall₂ (fun v w => SameDirection v w ∧ AlmostUnit (13 / 2 ^ 24 + 5 / 2 ^ 150 / lengthSq v) w ∧
      (1 / 2 ^ 124 ≤ lengthSq v → AlmostUnit (1 / 2 ^ 20) w)) [(vOne, nine64, threeHalves)] l' :=
  C42_normals_partial lib (Mesh.empty.setNormals [(vOne, nine64, threeHalves)]).1 rfl
    (fun v hv => by
      simp only [List.mem_cons, List.not_mem_nil, or_false] at hv
      subst hv
      exact moderate_example)

/-- `2^-80`. -/
def vShort : Val b32 := .fin false (2 ^ 69) (by decide +kernel)

theorem normalizeV_zero : normalizeV (vZero, vZero, vZero) = (.nan, .nan, .nan) := by decide +kernel
theorem normalizeV_long : normalizeV (vHuge, vZero, vZero) = (vZero, vZero, vZero) := by decide +kernel
theorem normalizeV_short : normalizeV (vShort, vZero, vZero) = (.inf false, .nan, .nan) := by decide +kernel

/-- C42 is false for a zero normal: it becomes NaN. -/
theorem C42_zero_violated (m : Mesh (Val b32)) (hm : m.normals = some [(vZero, vZero, vZero)]) :
    (m.normalize (ops lib)).normals = some [(.nan, .nan, .nan)] := by
  rw [Mesh.normalize, hm, Option.map_some, List.map_cons, List.map_nil, normalize_ops lib, normalizeV_zero]

/-- C42 is false for a normal of length `2^64`: the square overflows, and it becomes zero. -/
theorem C42_long_violated (m : Mesh (Val b32)) (hm : m.normals = some [(vHuge, vZero, vZero)]) :
    (m.normalize (ops lib)).normals = some [(vZero, vZero, vZero)] := by
  rw [Mesh.normalize, hm, Option.map_some, List.map_cons, List.map_nil, normalize_ops lib, normalizeV_long]

/-- C42 is false for a normal of length `2^-80`: the square is rounded to zero, and the components
become infinite or NaN. -/
theorem C42_short_violated (m : Mesh (Val b32)) (hm : m.normals = some [(vShort, vZero, vZero)]) :
    (m.normalize (ops lib)).normals = some [(.inf false, .nan, .nan)] := by
  rw [Mesh.normalize, hm, Option.map_some, List.map_cons, List.map_nil, normalize_ops lib, normalizeV_short]

example : (Mesh.empty.setNormals [(vShort, vZero, vZero)]).1.normals = some [(vShort, vZero, vZero)] := rfl

/-! ### C51: normalised normals pass the check of `verify` -/

theorem notUnit_ops (v : Vec3 (Val b32)) :
    notUnit (ops lib) v = lt (lit 1 3) (abs (sub (lit 1 0) (lengthV v))) := by
  rw [notUnit, FloatOps.one, magnitude, ops_sqrt lib, ops_add lib, ops_mul lib, ops_litOp lib, ops_sub lib, lengthV]

theorem abs_value {f : Fmt} {x : Val f} (hx : isFinite x = true) : isFinite (abs x) = true ∧ valueOf (abs x) = |valueOf x| := by
  obtain ⟨s, n, hn, rfl⟩ := finite_cases hx
  refine ⟨rfl, ?_⟩
  rw [abs_valueOf_fin, Ieee.abs, valueOf_fin]
  simp [sgn]

theorem lit_milli : isFinite (lit 1 3 : Val b32) = true ∧ 1 / 1001 ≤ valueOf (lit 1 3 : Val b32) := by
  have h := rounded_value (f := b32) (by decide) false (num := 1 * 2 ^ b32.scale) (den := 10 ^ 3) (v := 1 / 10 ^ 3) (by norm_num)
    (by
      simp only [sgn, Bool.false_eq_true, if_false, one_mul]
      rw [show b32.scale = 149 from rfl, Nat.cast_pow, Nat.cast_pow]
      norm_num)
    (le_trans (by rw [abs_of_nonneg (by norm_num)]; norm_num) maxV32)
  have he := rnd32_error (1 / 10 ^ 3)
  refine ⟨h.1, ?_⟩
  show 1 / 1001 ≤ valueOf (rounded false (1 * 2 ^ b32.scale) (10 ^ 3) : Val b32)
  rw [h.2]
  rw [abs_le, abs_of_nonneg (show (0 : ℚ) ≤ 1 / 10 ^ 3 by norm_num)] at he
  linarith [he.1, show (1 : ℚ) / 10 ^ 3 - (1 / 2 ^ 24 * (1 / 10 ^ 3) + 1 / 2 ^ 150) ≥ 1 / 1001 by norm_num]

theorem lit_one_value : isFinite (lit 1 0 : Val b32) = true ∧ valueOf (lit 1 0 : Val b32) = 1 := by
  have : (lit 1 0 : Val b32) = vOne := by decide +kernel
  rw [this]
  exact ⟨rfl, valueOf_vOne⟩

/-- A finite vector whose length is almost 1 passes the check. -/
theorem almostUnit_passes {v : Vec3 (Val b32)} (h1 : isFinite v.1 = true) (h2 : isFinite v.2.1 = true)
    (h3 : isFinite v.2.2 = true) (hu : AlmostUnit (1 / 2 ^ 10) v) : notUnit (ops lib) v = false := by
  rw [notUnit_ops lib]
  have q1 := sq_nonneg (valueOf v.1)
  have q2 := sq_nonneg (valueOf v.2.1)
  have q3 := sq_nonneg (valueOf v.2.2)
  rw [AlmostUnit, abs_le] at hu
  have small : ∀ {a : ℚ}, a ^ 2 ≤ 1 + 1 / 2 ^ 10 → |a| ≤ 2 ^ 60 := by
    intro a ha
    refine abs_le_of_sq_le_sq (le_trans ha ?_) (by norm_num)
    norm_num
  have hS := sumsq_value h1 h2 h3 (small (by linarith [hu.2])) (small (by linarith [hu.2])) (small (by linarith [hu.2]))
  rw [lengthV]
  generalize add (add (mul v.1 v.1) (mul v.2.1 v.2.1)) (mul v.2.2 v.2.2) = s at *
  generalize valueOf v.1 ^ 2 + valueOf v.2.1 ^ 2 + valueOf v.2.2 ^ 2 = Q at *
  obtain ⟨fS, eS⟩ := hS
  rw [abs_le] at eS
  have hs0 : 0 < valueOf s := by
    norm_num at *
    linarith [eS.1, hu.1]
  obtain ⟨fm, mpos, em⟩ := sqrt_value fS hs0
  rw [abs_le] at em
  have hm2 : |valueOf (sqrt s) ^ 2 - 1| ≤ 1 / 1023 := by
    rw [abs_le]
    generalize valueOf (sqrt s) ^ 2 = M at *
    norm_num at *
    constructor <;> linarith [em.1, em.2, eS.1, eS.2, hu.1, hu.2]
  have hm : |1 - valueOf (sqrt s)| ≤ 1 / 1023 := by
    have e : valueOf (sqrt s) ^ 2 - 1 = (valueOf (sqrt s) - 1) * (valueOf (sqrt s) + 1) := by ring
    rw [e, abs_mul, abs_of_pos (show 0 < valueOf (sqrt s) + 1 by linarith)] at hm2
    rw [abs_sub_comm]
    have h0 := abs_nonneg (valueOf (sqrt s) - 1)
    nlinarith
  obtain ⟨fo', vo⟩ := lit_one_value
  have hsub := sub_value (f := b32) (by decide) fo' fm (by
    rw [vo]; exact le_trans hm (le_trans (by norm_num) maxV32))
  have herr := rnd32_error (1 - valueOf (sqrt s))
  rw [vo] at hsub
  have habs := abs_value hsub.1
  by_contra hc
  rw [Bool.not_eq_false] at hc
  have hlt := (lt_value lit_milli.1 habs.1).mp hc
  rw [habs.2, hsub.2] at hlt
  have h5 := abs_sub_abs_le_abs_sub (rnd b32 (1 - valueOf (sqrt s))) (1 - valueOf (sqrt s))
  have h6 := lit_milli.2
  generalize |rnd b32 (1 - valueOf (sqrt s))| = a at *
  generalize |1 - valueOf (sqrt s)| = c at *
  norm_num at *
  linarith

/-- C51: after `normalize`, `verify` does not complain about the length of normals that were finite, of length `2^-68` to almost
`2^64`. -/
theorem C51_normalize_verifies (m : Mesh (Val b32)) (hl : ∀ l, m.normals = some l → ∀ v ∈ l, Moderate v ∧ 1 / 2 ^ 136 ≤ lengthSq v) :
    verifyNormals (ops lib) (m.normalize (ops lib)) ≠ some .normalsNotNormalized := by
  cases hm : m.normals with
  | none =>
    rw [verifyNormals, Mesh.normalize, hm, Option.map_none]
    dsimp only
    split <;> simp
  | some l =>
    have hany : (l.map (normalize (ops lib))).any (notUnit (ops lib)) = false := by
      rw [List.any_eq_false]
      intro w hw
      obtain ⟨v, hv, rfl⟩ := List.mem_map.mp hw
      rw [normalize_ops lib]
      obtain ⟨_, hu, f1, f2, f3⟩ := normalizeV_moderate (hl l hm v hv).1
      rw [almostUnit_passes lib f1 f2 f3 (le_trans hu (lengthError_le_short (hl l hm v hv).2))]
      exact Bool.false_ne_true
    rw [verifyNormals, Mesh.normalize, hm, Option.map_some]
    dsimp only
    rw [hany]
    simp only [Bool.false_eq_true, if_false]
    split
    · split <;> simp
    · simp

theorem notUnit_before : lt (lit 1 3) (abs (sub (lit 1 0) (lengthV (vOne, nine64, threeHalves)))) = true := by decide +kernel

/-- A mesh that `verify` rejects for its normals before and not after. -/
example : verifyNormals (ops lib) (Mesh.empty.setNormals [(vOne, nine64, threeHalves)]).1 = some .normalsNotNormalized ∧
    verifyNormals (ops lib) ((Mesh.empty.setNormals [(vOne, nine64, threeHalves)]).1.normalize (ops lib)) ≠
      some .normalsNotNormalized := by
  constructor
  · have h : ([(vOne, nine64, threeHalves)] : List (Vec3 (Val b32))).any (notUnit (ops lib)) = true := by
      rw [List.any_cons, notUnit_ops lib, notUnit_before, Bool.true_or]
    rw [verifyNormals, Mesh.setNormals]
    dsimp only
    rw [h, if_pos rfl]
  · refine C51_normalize_verifies lib _ ?_
    intro l hl v hv
    have : l = [(vOne, nine64, threeHalves)] := (Option.some.inj hl).symm
    subst this
    simp only [List.mem_cons, List.not_mem_nil, or_false] at hv
    subst hv
    refine ⟨moderate_example, ?_⟩
    simp only [lengthSq]
    rw [valueOf_vOne, valueOf_nine64, valueOf_threeHalves]; norm_num

/-- `5 / 2^77`. -/
def vFaint : Val b32 := .fin false (5 * 2 ^ 72) (by decide +kernel)

theorem notUnit_faint : lt (lit 1 3) (abs (sub (lit 1 0) (lengthV (normalizeV (vFaint, vZero, vZero))))) = true := by decide +kernel

/-- C51 is false for a normal of length `5 / 2^77`: only one digit of its square is left, and the result is too short. -/
theorem C51_short_violated (m : Mesh (Val b32)) (hm : m.normals = some [(vFaint, vZero, vZero)]) :
    verifyNormals (ops lib) (m.normalize (ops lib)) = some .normalsNotNormalized := by
  have h : ([normalizeV (vFaint, vZero, vZero)] : List (Vec3 (Val b32))).any (notUnit (ops lib)) = true := by
    rw [List.any_cons, notUnit_ops lib, notUnit_faint, Bool.true_or]
  rw [verifyNormals, Mesh.normalize, hm, Option.map_some, List.map_cons, List.map_nil, normalize_ops lib]
  dsimp only
  rw [h, if_pos rfl]

theorem notUnit_huge : lt (lit 1 3) (abs (sub (lit 1 0) (lengthV (normalizeV (vHuge, vZero, vZero))))) = true := by decide +kernel

/-- C51 is false for a normal of length `2^64`. -/
theorem C51_long_violated (m : Mesh (Val b32)) (hm : m.normals = some [(vHuge, vZero, vZero)]) :
    verifyNormals (ops lib) (m.normalize (ops lib)) = some .normalsNotNormalized := by
  have h : ([normalizeV (vHuge, vZero, vZero)] : List (Vec3 (Val b32))).any (notUnit (ops lib)) = true := by
    rw [List.any_cons, notUnit_ops lib, notUnit_huge, Bool.true_or]
  rw [verifyNormals, Mesh.normalize, hm, Option.map_some, List.map_cons, List.map_nil, normalize_ops lib]
  dsimp only
  rw [h, if_pos rfl]

end Tmf.Props
