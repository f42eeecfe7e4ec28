import Verif.Lemmas.LibmWitness
import Verif.Lemmas.FileRoundTrip
import Verif.Lemmas.NormalDecode
import Verif.Lemmas.WideArrays
import Verif.Props.Normalize
/-
C38: normals after saving and loading, with f32 arithmetic as IEEE 754 prescribes it and a libm
that is accurate to `2^-22`.
-/

set_option exponentiation.threshold 2000

namespace Tmf.Props
open Spec Ieee Geometry

variable {lib : Libm}

/-! ### Values used in the examples -/

/-- `-3/5`, rounded. -/
def minusThreeFifths : Val b32 := neg (lit 6 1)
/-- `4/5`, rounded. -/
def fourFifths : Val b32 := lit 8 1
/-- `2^-6`. -/
def vSixtyFourth : Val b32 := .fin false (2 ^ 143) (by decide +kernel)
/-- `1 - 2^-13`. -/
def belowOne : Val b32 := .fin false ((2 ^ 13 - 1) * 2 ^ 136) (by decide +kernel)
/-- `2^-14`. -/
def vTiny : Val b32 := .fin false (2 ^ 135) (by decide +kernel)
/-- `1 + 2^-10`. -/
def aboveOne : Val b32 := .fin false ((2 ^ 10 + 1) * 2 ^ 139) (by decide +kernel)

theorem valueOf_vSixtyFourth : valueOf vSixtyFourth = 1 / 64 := by
  rw [vSixtyFourth, valueOf_pos, show b32.scale = 149 from rfl]; norm_num
theorem valueOf_belowOne : valueOf belowOne = 1 - 1 / 2 ^ 13 := by
  rw [belowOne, valueOf_pos, show b32.scale = 149 from rfl]; norm_num
theorem valueOf_vTiny : valueOf vTiny = 1 / 2 ^ 14 := by
  rw [vTiny, valueOf_pos, show b32.scale = 149 from rfl]; norm_num
theorem valueOf_aboveOne : valueOf aboveOne = 1 + 1 / 2 ^ 10 := by
  rw [aboveOne, valueOf_pos, show b32.scale = 149 from rfl]; norm_num

theorem fourFifths_fin : fourFifths = .fin false (13421773 * 2 ^ 125) (by decide +kernel) := by decide +kernel
theorem minusThreeFifths_fin : minusThreeFifths = .fin true (10066330 * 2 ^ 125) (by decide +kernel) := by decide +kernel

theorem valueOf_fourFifths : valueOf fourFifths = 13421773 / 2 ^ 24 := by
  rw [fourFifths_fin, valueOf_fin, show b32.scale = 149 from rfl]
  simp only [sgn, Bool.false_eq_true, if_false, one_mul]
  norm_num
theorem valueOf_minusThreeFifths : valueOf minusThreeFifths = -(10066330 / 2 ^ 24) := by
  rw [minusThreeFifths_fin, valueOf_fin, show b32.scale = 149 from rfl]
  simp only [sgn, if_true]
  norm_num

theorem unit_example : UnitNormal (minusThreeFifths, vZero, fourFifths) := by
  refine ⟨⟨by rw [minusThreeFifths_fin]; rfl, rfl, by rw [fourFifths_fin]; rfl⟩, ?_, ?_⟩
  · rw [AlmostUnit]
    dsimp only
    rw [valueOf_minusThreeFifths, valueOf_vZero, valueOf_fourFifths, abs_le]
    norm_num
  · dsimp only
    rw [valueOf_fourFifths, abs_le]
    norm_num

/-! ### C38: what is kept -/

/-- C38 for an array of normals (widths 1 to 30, and 31 without overflow checks; the full claim is that the deviation is at most the
requested angle, see `C38_angle_violated`, and that every sign is kept, see `C38_sign_violated`).
Every normal comes back as a unit vector near the original; with 25 bits or more, only those away from
the x and z axes, see `C38_up_violated` and `C38_side_violated`. -/
theorem C38_normals_wide_partial (hlib : AccurateLibm lib) {b : Build} {l : List (Vec3 (Val b32))} {p : Nat} (hp1 : 1 ≤ p)
    (hp : Writable b p) (hl : l.length ≤ 2 ^ 31) (hn : ∀ n ∈ l, UnitNormal n) :
    ∃ bytes l', saveNormals (ops lib) b l p = .ok bytes ∧ readNormals (ops lib) bytes = .ok l' ∧
      List.Forall₂ (fun n n' => (25 ≤ p → OffAxes n) → KeptNormal p n n') l l' := by
  obtain ⟨bytes, hs, hr⟩ := readNormals_writable (fo := ops lib) (b := b) (l := l) (p := p) hp hl
  exact ⟨bytes, _, hs, hr, forall₂_map fun n h => normal_kept_wide hlib hp1 hp.le (hn n h)⟩

example (b : Build) : ∃ lib, ∃ bytes w, saveNormals (ops lib) b [(vZero, minusThreeFifths, fourFifths)] 27 = .ok bytes ∧
    readNormals (ops lib) bytes = .ok [w] ∧ KeptNormal 27 (vZero, minusThreeFifths, fourFifths) w := by
  obtain ⟨bytes, l', hs, hr, h⟩ := C38_normals_wide_partial someLibm_accurate (b := b) (l := [(vZero, minusThreeFifths, fourFifths)])
    (p := 27) (by decide) (.inl (by decide)) (by show 1 ≤ 2 ^ 31; decide) (fun n h => by
      rw [List.mem_singleton] at h
      subst h
      obtain ⟨⟨f1, f2, f3⟩, h2, h3⟩ := unit_example
      refine ⟨⟨f2, f1, f3⟩, ?_, h3⟩
      rw [AlmostUnit] at h2 ⊢
      rwa [add_comm (valueOf vZero ^ 2)])
  cases h with
  | cons h1 h2 =>
  cases h2
  refine ⟨someLibm, bytes, _, hs, hr, h1 fun _ => ⟨?_, ?_⟩⟩
  · dsimp only
    rw [valueOf_fourFifths, abs_lt]
    norm_num
  · dsimp only
    rw [valueOf_vZero, abs_zero]
    positivity

/-- C38 for an array of normals (widths 1 to 24; the full claim is that the deviation is at most the
requested angle, see `C38_angle_violated`, and that every sign is kept, see `C38_sign_violated`).
Every normal comes back as a unit vector near the original. -/
theorem C38_normals_partial (hlib : AccurateLibm lib) {b : Build} {l : List (Vec3 (Val b32))} {p : Nat} (hp1 : 1 ≤ p)
    (hp : p ≤ 24) (hl : l.length ≤ 2 ^ 31) (hn : ∀ n ∈ l, UnitNormal n) :
    ∃ bytes l', saveNormals (ops lib) b l p = .ok bytes ∧ readNormals (ops lib) bytes = .ok l' ∧
      List.Forall₂ (KeptNormal p) l l' := by
  obtain ⟨bytes, hs, hr⟩ := readNormals_saved (fo := ops lib) (b := b) (l := l) (p := p) (by omega) (.inr (by omega)) hl
  have := hr []
  rw [List.append_nil] at this
  exact ⟨bytes, _, hs, this, forall₂_map fun n h => normal_kept hlib hp1 hp (hn n h)⟩

example (b : Build) : ∃ lib, ∃ bytes l', saveNormals (ops lib) b [(minusThreeFifths, vZero, fourFifths)] 7 = .ok bytes ∧
    readNormals (ops lib) bytes = .ok l' ∧ List.Forall₂ (KeptNormal 7) [(minusThreeFifths, vZero, fourFifths)] l' :=
  ⟨someLibm, C38_normals_partial someLibm_accurate (by decide) (by decide) (by show 1 ≤ 2 ^ 31; decide) (fun n h => by
    rw [List.mem_singleton] at h
    subst h
    exact unit_example)⟩

/-- C38 for an array of tangents, widths 1 to 30, and 31 without overflow checks. -/
theorem C38_tangents_wide_partial (hlib : AccurateLibm lib) {b : Build} {l : List (Tangent (Val b32))} {p : Nat} (hp1 : 1 ≤ p)
    (hp : Writable b p) (hl : l.length ≤ 2 ^ 31) (hn : ∀ t ∈ l, UnitNormal t.1) :
    ∃ bytes l', saveTangents (ops lib) b l p = .ok bytes ∧ readTangents (ops lib) bytes = .ok l' ∧
      List.Forall₂ (fun t t' => (25 ≤ p → OffAxes t.1) → KeptNormal p t.1 t'.1) l l' := by
  obtain ⟨bytes, hs, hr⟩ := readTangents_writable (fo := ops lib) (b := b) (l := l) (p := p) hp hl
  exact ⟨bytes, _, hs, hr, forall₂_map fun t h => normal_kept_wide hlib hp1 hp.le (hn t h)⟩

example (b : Build) : ∃ lib, ∃ bytes w, saveTangents (ops lib) b [((vZero, minusThreeFifths, fourFifths), vOne)] 30 = .ok bytes ∧
    readTangents (ops lib) bytes = .ok [w] ∧ KeptNormal 30 (vZero, minusThreeFifths, fourFifths) w.1 := by
  obtain ⟨bytes, l', hs, hr, h⟩ := C38_tangents_wide_partial someLibm_accurate (b := b)
    (l := [((vZero, minusThreeFifths, fourFifths), vOne)])
    (p := 30) (by decide) (.inl (by decide)) (by show 1 ≤ 2 ^ 31; decide) (fun n h => by
      rw [List.mem_singleton] at h
      subst h
      obtain ⟨⟨f1, f2, f3⟩, h2, h3⟩ := unit_example
      refine ⟨⟨f2, f1, f3⟩, ?_, h3⟩
      rw [AlmostUnit] at h2 ⊢
      rwa [add_comm (valueOf vZero ^ 2)])
  cases h with
  | cons h1 h2 =>
  cases h2
  refine ⟨someLibm, bytes, _, hs, hr, h1 fun _ => ⟨?_, ?_⟩⟩
  · dsimp only
    rw [valueOf_fourFifths, abs_lt]
    norm_num
  · dsimp only
    rw [valueOf_vZero, abs_zero]
    positivity

/-- C38 for an array of tangents. -/
theorem C38_tangents_partial (hlib : AccurateLibm lib) {b : Build} {l : List (Tangent (Val b32))} {p : Nat} (hp1 : 1 ≤ p)
    (hp : p ≤ 24) (hl : l.length ≤ 2 ^ 31) (hn : ∀ t ∈ l, UnitNormal t.1) :
    ∃ bytes l', saveTangents (ops lib) b l p = .ok bytes ∧ readTangents (ops lib) bytes = .ok l' ∧
      List.Forall₂ (fun t t' => KeptNormal p t.1 t'.1) l l' := by
  obtain ⟨bytes, hs, hr⟩ := readTangents_saved (fo := ops lib) (b := b) (l := l) (p := p) (by omega) (.inr (by omega)) hl
  have := hr []
  rw [List.append_nil] at this
  exact ⟨bytes, _, hs, this, forall₂_map fun t h => normal_kept hlib hp1 hp (hn t h)⟩

example (b : Build) : ∃ lib, ∃ bytes l', saveTangents (ops lib) b [((minusThreeFifths, vZero, fourFifths), vOne)] 7 = .ok bytes ∧
    readTangents (ops lib) bytes = .ok l' ∧
      List.Forall₂ (fun t t' => KeptNormal 7 t.1 t'.1) [((minusThreeFifths, vZero, fourFifths), vOne)] l' :=
  ⟨someLibm, C38_tangents_partial someLibm_accurate (by decide) (by decide) (by show 1 ≤ 2 ^ 31; decide) (fun n h => by
    rw [List.mem_singleton] at h
    subst h
    exact unit_example)⟩

/-! ### C38: any decoded normal -/

/-- C38, the part about length, for any normal segment with at least one bit per code (the width is
byte 8): whatever bytes follow, what is decoded are unit vectors. -/
theorem C38_decoded_unit (hlib : AccurateLibm lib) {bytes : List UInt8} {l : List (Vec3 (Val b32))}
    (h : readNormals (ops lib) bytes = .ok l) (hp : 1 ≤ byteAt bytes 8) : ∀ w ∈ l, UnitDecoded w :=
  readNormals_unit hlib h hp

example : ∃ lib w, AccurateLibm lib ∧ readNormals (ops lib) [1, 0, 0, 0, 0, 0, 0, 0, 4, 0xa5, 0x37] = .ok [w] ∧
    1 ≤ byteAt [1, 0, 0, 0, 0, 0, 0, 0, 4, 0xa5, 0x37] 8 :=
  ⟨someLibm, normalFromEncoding (ops someLibm) 4 ⟨2, 9, true, false, true⟩, someLibm_accurate, rfl, by decide⟩

/-- The same for tangents. -/
theorem C38_decoded_tangents (hlib : AccurateLibm lib) {bytes : List UInt8} {l : List (Tangent (Val b32))}
    (h : readTangents (ops lib) bytes = .ok l) (hp : 1 ≤ byteAt bytes 8) : ∀ t ∈ l, UnitDecoded t.1 :=
  readTangents_unit hlib h hp

example : ∃ lib t, AccurateLibm lib ∧ readTangents (ops lib) [1, 0, 0, 0, 0, 0, 0, 0, 4, 0xa5, 0x37] = .ok [t] ∧
    1 ≤ byteAt [1, 0, 0, 0, 0, 0, 0, 0, 4, 0xa5, 0x37] 8 :=
  ⟨someLibm, (normalFromEncoding (ops someLibm) 4 ⟨5, 3, false, true, false⟩, htFromBool (ops someLibm) true), someLibm_accurate, rfl, by decide⟩

/-! ### C38: the claimed angle -/

theorem pole_codes : unitQ 7 (Ieee.abs belowOne) = .fin false (532643584 * 2 ^ 120) (by decide +kernel) ∧
    div (Ieee.abs vZero) (magXY (vZero, vSixtyFourth, belowOne)) = zeroV ∧
    mul (unitQ 7 (div zeroV halfPi32)) halfPi32 = zeroV ∧
    mul zeroV (magQ (unitQ 7 (Ieee.abs belowOne))) = zeroV ∧
    mul oneV (magQ (unitQ 7 (Ieee.abs belowOne))) = .fin false (67239808 * 2 ^ 120) (by decide +kernel) ∧
    lt vZero (lit 0 0) = false ∧ lt vSixtyFourth (lit 0 0) = false ∧ lt belowOne (lit 0 0) = false := by
  decide +kernel

/-- What `(0, 1/64, 1 - 2^-13)` comes back as with 7 bits. -/
def poleBack : Vec3 (Val b32) :=
  (zeroV, .fin false (67239808 * 2 ^ 120) (by decide +kernel), .fin false (532643584 * 2 ^ 120) (by decide +kernel))

theorem pole_back (h1 : lib.asin zeroV = zeroV) (h2 : lib.sin zeroV = zeroV) (h3 : lib.cos zeroV = oneV) :
    quantNormal (ops lib) 7 (vZero, vSixtyFourth, belowOne) = poleBack := by
  obtain ⟨c1, c2, c3, c4, c5, c6, c7, c8⟩ := pole_codes
  rw [quantNormal_eq lib (by decide), angleQ, angleFrac]
  dsimp only
  rw [c2, h1, c3, h2, h3, c4, c5, c6, c7, c8, c1]
  rfl

theorem pole_angle : ¬ AngleAtMost (6 * (Real.pi / 180)) (vZero, vSixtyFourth, belowOne) poleBack := by
  have v0 : realOf vZero = 0 := by rw [realOf, valueOf_vZero, Rat.cast_zero]
  have v1 : realOf vSixtyFourth = 1 / 64 := by rw [realOf, valueOf_vSixtyFourth]; push_cast; rfl
  have v2 : realOf belowOne = 1 - 1 / 2 ^ 13 := by rw [realOf, valueOf_belowOne]; push_cast; rfl
  have w1 : realOf poleBack.2.1 = 67239808 / 2 ^ 29 := by
    rw [realOf, poleBack, valueOf_pos, show b32.scale = 149 from rfl]; norm_num
  have w2 : realOf poleBack.2.2 = 532643584 / 2 ^ 29 := by
    rw [realOf, poleBack, valueOf_pos, show b32.scale = 149 from rfl]; norm_num
  have w0 : realOf poleBack.1 = 0 := realOf_zeroV
  rw [AngleAtMost, lengthOf, lengthOf, scalar]
  dsimp only
  rw [v0, v1, v2, w0, w1, w2]
  have hcos : (0.9944 : ℝ) ≤ Real.cos (6 * (Real.pi / 180)) := by
    have h := Real.one_sub_sq_div_two_le_cos (x := 6 * (Real.pi / 180))
    have h2 := Real.pi_lt_d2
    have h3 := Real.pi_pos
    norm_num at h h2 ⊢
    nlinarith
  have hn : (1 : ℝ) ≤ length3 0 (1 / 64) (1 - 1 / 2 ^ 13) := by
    rw [length3, Real.one_le_sqrt]; norm_num
  have hw : (0.99999 : ℝ) ≤ length3 0 (67239808 / 2 ^ 29) (532643584 / 2 ^ 29) := by
    rw [length3]
    refine Real.le_sqrt_of_sq_le ?_
    norm_num
  rw [not_le]
  have hprod : (0.99999 : ℝ) ≤ length3 0 (1 / 64) (1 - 1 / 2 ^ 13) * length3 0 (67239808 / 2 ^ 29) (532643584 / 2 ^ 29) := by
    have := mul_le_mul hn hw (by norm_num) (le_trans (by norm_num) hn)
    linarith
  have hall := mul_le_mul hcos hprod (by norm_num) (le_trans (by norm_num) hcos)
  refine lt_of_lt_of_le ?_ hall
  norm_num

/-- C38's angle is exceeded near the poles: a normal saved for a deviation of at most one degree
comes back more than six degrees off. -/
theorem C38_angle_violated (hlog : AccurateLog2 lib) (h1 : lib.asin zeroV = zeroV) (h2 : lib.sin zeroV = zeroV) (h3 : lib.cos zeroV = oneV) {b : Build} :
    ∃ n w bytes, UnitNormal n ∧ saveNormals (ops lib) b [n] (normalPrecFromDeg (ops lib) vOne) = .ok bytes ∧
      readNormals (ops lib) bytes = .ok [w] ∧ ¬ AngleAtMost (6 * (Real.pi / 180)) n w := by
  have hp : normalPrecFromDeg (ops lib) vOne = 7 := by
    have h : bitsFor lib (div (lit 90 0) vOne) = 7 := by rw [bits_clear hlog] <;> decide +kernel
    show Nat.max (bitsFor lib (div (lit 90 0) vOne)) 1 = 7
    rw [h]
    rfl
  obtain ⟨bytes, hs, hr⟩ := readNormals_saved (fo := ops lib) (b := b) (l := [(vZero, vSixtyFourth, belowOne)]) (p := 7)
    (by decide) (.inr (by decide)) (by show 1 ≤ 2 ^ 31; decide)
  have := hr []
  rw [List.append_nil, List.map_cons, List.map_nil, pole_back h1 h2 h3] at this
  refine ⟨_, _, bytes, ?_, by rw [hp]; exact hs, this, pole_angle⟩
  refine ⟨⟨rfl, rfl, rfl⟩, ?_, ?_⟩
  · rw [AlmostUnit]
    dsimp only
    rw [valueOf_vZero, valueOf_vSixtyFourth, valueOf_belowOne, abs_le]
    norm_num
  · dsimp only
    rw [valueOf_belowOne, abs_le]
    norm_num

example : AccurateLibm someLibm ∧ AccurateLog2 someLibm ∧ someLibm.asin zeroV = zeroV ∧ someLibm.sin zeroV = zeroV ∧ someLibm.cos zeroV = oneV := by
  have h : zeroV ≠ halfPi32 := by decide +kernel
  exact ⟨someLibm_accurate, someLibm_log2, by simp [someLibm], by simp [someLibm], by simp [someLibm, h]⟩

/-! ### C38: the signs -/

theorem sign_codes : div (Ieee.abs vOne) (magXY (vOne, vTiny, vZero)) = oneV ∧ lt vTiny (lit 0 0) = false := by decide +kernel

theorem sign_codes' : ∀ p < 25, 1 ≤ p → mul (unitQ p (div halfPi32 halfPi32)) halfPi32 = halfPi32 ∧
    magQ (unitQ p (Ieee.abs vZero)) = oneV := by decide +kernel

/-- C38 is false for the sign of y when x is 1: the largest code stands for the f32 value of π/2, which is
greater than π/2, and its cosine is negative. -/
theorem C38_sign_violated (h1 : lib.asin oneV = halfPi32) (h2 : isFinite (lib.cos halfPi32) = true)
    (h3 : valueOf (lib.cos halfPi32) < 0) {b : Build} {p : Nat} (hp1 : 1 ≤ p) (hp : p ≤ 24) :
    ∃ n w bytes, UnitNormal n ∧ 0 < valueOf n.2.1 ∧ saveNormals (ops lib) b [n] p = .ok bytes ∧
      readNormals (ops lib) bytes = .ok [w] ∧ valueOf w.2.1 < 0 := by
  obtain ⟨bytes, hs, hr⟩ := readNormals_saved (fo := ops lib) (b := b) (l := [(vOne, vTiny, vZero)]) (p := p)
    (by omega) (.inr (by omega)) (by show 1 ≤ 2 ^ 31; decide)
  have := hr []
  rw [List.append_nil, List.map_cons, List.map_nil] at this
  refine ⟨_, _, bytes, ?_, ?_, hs, this, ?_⟩
  · refine ⟨⟨rfl, rfl, rfl⟩, ?_, ?_⟩
    · rw [AlmostUnit]
      dsimp only
      rw [valueOf_vZero, valueOf_vOne, valueOf_vTiny, abs_le]
      norm_num
    · dsimp only
      rw [valueOf_vZero, abs_le]
      norm_num
  · dsimp only
    rw [valueOf_vTiny]
    norm_num
  · obtain ⟨c1, c2⟩ := sign_codes
    obtain ⟨c3, c4⟩ := sign_codes' p (by omega) hp1
    rw [quantNormal_eq lib hp1, angleQ, angleFrac]
    dsimp only
    rw [c1, c2, h1, c3, c4, setSign, if_neg (by decide)]
    have ho : valueOf oneV = 1 := valueOf_vOne
    have hm := mul_value (f := b32) (by decide) h2 (y := oneV) rfl (by rw [ho, mul_one]; exact abs_valueOf_le _)
    rw [hm.2, ho, mul_one, rnd_valueOf (by decide)]
    exact h3

example : AccurateLibm someLibm ∧ someLibm.asin oneV = halfPi32 ∧ isFinite (someLibm.cos halfPi32) = true ∧
    valueOf (someLibm.cos halfPi32) < 0 := by
  have hc : someLibm.cos halfPi32 = cosHalfPi := by simp [someLibm]
  have h : oneV ≠ zeroV := by decide +kernel
  refine ⟨someLibm_accurate, by simp [someLibm, h], by rw [hc]; rfl, ?_⟩
  · rw [hc, cosHalfPi, valueOf_fin, show b32.scale = 149 from rfl]
    simp only [sgn, if_true]
    norm_num

/-! ### C38: more than 24 bits -/

theorem unitQ_wide_one : ∀ p < 32, 25 ≤ p → unitQ p (Ieee.abs vOne) = zeroV ∧ unitQ p (div halfPi32 halfPi32) = zeroV ∧
    magQ (unitQ p (Ieee.abs vZero)) = oneV := by decide +kernel

theorem lt_one_zero : lt vOne (lit 0 0) = false := by decide +kernel

theorem lt_zero_zero : lt vZero (lit 0 0) = false := by decide +kernel

/-- With 25 to 30 bits (and 31, without overflow checks), the normal pointing up comes back lying in the plane z = 0. -/
theorem C38_up_violated {b : Build} {p : Nat} (h25 : 25 ≤ p) (hp : Writable b p) :
    ∃ w bytes, UnitNormal (vZero, vZero, vOne) ∧ saveNormals (ops lib) b [(vZero, vZero, vOne)] p = .ok bytes ∧
      readNormals (ops lib) bytes = .ok [w] ∧ valueOf w.2.2 = 0 := by
  obtain ⟨bytes, hs, hr⟩ := readNormals_writable (fo := ops lib) (b := b) (l := [(vZero, vZero, vOne)]) (p := p)
    hp (by show 1 ≤ 2 ^ 31; decide)
  have this := hr
  rw [List.map_cons, List.map_nil] at this
  refine ⟨_, bytes, ⟨⟨rfl, rfl, rfl⟩, ?_, ?_⟩, hs, this, ?_⟩
  · rw [AlmostUnit]
    dsimp only
    rw [valueOf_vZero, valueOf_vOne, abs_le]
    norm_num
  · dsimp only
    rw [valueOf_vOne, abs_one]
  · rw [quantNormal_eq lib (by omega)]
    dsimp only
    rw [(unitQ_wide_one p (Nat.lt_succ_of_le hp.le) h25).1, lt_one_zero, setSign, if_neg (by decide)]
    exact valueOf_vZero

theorem side_codes : div (Ieee.abs vOne) (magXY (vOne, vZero, vZero)) = oneV ∧ mul zeroV halfPi32 = zeroV := by decide +kernel

/-- With 25 to 30 bits (and 31, without overflow checks), the normal along the x axis comes back along the y axis. -/
theorem C38_side_violated (hlib : AccurateLibm lib) (h1 : lib.asin oneV = halfPi32) {b : Build} {p : Nat} (h25 : 25 ≤ p)
    (hp : Writable b p) :
    ∃ w bytes, UnitNormal (vOne, vZero, vZero) ∧ saveNormals (ops lib) b [(vOne, vZero, vZero)] p = .ok bytes ∧
      readNormals (ops lib) bytes = .ok [w] ∧ |valueOf w.1| ≤ 1 / 2 ^ 22 ∧ |valueOf w.2.1 - 1| ≤ 1 / 2 ^ 22 := by
  obtain ⟨bytes, hs, hr⟩ := readNormals_writable (fo := ops lib) (b := b) (l := [(vOne, vZero, vZero)]) (p := p)
    hp (by show 1 ≤ 2 ^ 31; decide)
  have this := hr
  rw [List.map_cons, List.map_nil] at this
  have hz0 : valueOf zeroV = 0 := valueOf_vZero
  have ho : valueOf oneV = 1 := valueOf_vOne
  have hr0 : realOf zeroV = 0 := by rw [realOf, hz0, Rat.cast_zero]
  obtain ⟨sf, sn, -⟩ := hlib.sin_near zeroV rfl (by rw [hz0]) (by rw [hz0]; norm_num)
  obtain ⟨cf, cn, -⟩ := hlib.cos_near zeroV rfl (by rw [hz0]) (by rw [hz0]; norm_num)
  rw [hr0, Real.sin_zero, sub_zero] at sn
  rw [hr0, Real.cos_zero] at cn
  have times : ∀ x : Val b32, isFinite x = true → valueOf (mul x oneV) = valueOf x := by
    intro x hx
    have hm := mul_value (f := b32) (by decide) hx (y := oneV) rfl (by rw [ho, mul_one]; exact abs_valueOf_le _)
    rw [hm.2, ho, mul_one, rnd_valueOf (by decide)]
  obtain ⟨-, c3, c4⟩ := unitQ_wide_one p (Nat.lt_succ_of_le hp.le) h25
  refine ⟨_, bytes, ⟨⟨rfl, rfl, rfl⟩, ?_, ?_⟩, hs, this, ?_, ?_⟩
  · rw [AlmostUnit]
    dsimp only
    rw [valueOf_vZero, valueOf_vOne, abs_le]
    norm_num
  · dsimp only
    rw [valueOf_vZero, abs_zero]
    norm_num
  · rw [quantNormal_eq lib (by omega), angleQ, angleFrac]
    dsimp only
    rw [side_codes.1, h1, c3, side_codes.2, c4, lt_one_zero, setSign, if_neg (by decide), times _ sf]
    have h : ((|valueOf (lib.sin zeroV)| : ℚ) : ℝ) ≤ ((1 / 2 ^ 22 : ℚ) : ℝ) := by push_cast; exact sn
    exact Rat.cast_le.mp h
  · rw [quantNormal_eq lib (by omega), angleQ, angleFrac]
    dsimp only
    rw [side_codes.1, h1, c3, side_codes.2, c4, lt_zero_zero, setSign, if_neg (by decide), times _ cf]
    have h : ((|valueOf (lib.cos zeroV) - 1| : ℚ) : ℝ) ≤ ((1 / 2 ^ 22 : ℚ) : ℝ) := by push_cast; exact cn
    exact Rat.cast_le.mp h

example : AccurateLibm someLibm ∧ someLibm.asin oneV = halfPi32 := by
  have h : oneV ≠ zeroV := by decide +kernel
  exact ⟨someLibm_accurate, by simp [someLibm, h]⟩

/-! ### C38: lengths slightly above 1 -/

theorem wrap_codes : unitQ 11 (Ieee.abs aboveOne) = zeroV ∧ lt aboveOne (lit 0 0) = false ∧
    lt (lit 1 3) (Ieee.abs (sub (lit 1 0) (lengthV (vZero, vZero, aboveOne)))) = false := by decide +kernel

/-- A normal pointing up, of length `1 + 2^-10`, passes `verify` but comes back lying in the plane
z = 0 with 11 bits: its code is one too large and wraps around. -/
theorem C38_wrap_violated {b : Build} :
    ∃ n w bytes, valueOf n.1 = 0 ∧ valueOf n.2.1 = 0 ∧ 1 < valueOf n.2.2 ∧ notUnit (ops lib) n = false ∧
      saveNormals (ops lib) b [n] 11 = .ok bytes ∧ readNormals (ops lib) bytes = .ok [w] ∧ valueOf w.2.2 = 0 := by
  obtain ⟨bytes, hs, hr⟩ := readNormals_saved (fo := ops lib) (b := b) (l := [(vZero, vZero, aboveOne)]) (p := 11)
    (by decide) (.inr (by decide)) (by show 1 ≤ 2 ^ 31; decide)
  have := hr []
  rw [List.append_nil, List.map_cons, List.map_nil] at this
  obtain ⟨c1, c2, c3⟩ := wrap_codes
  refine ⟨_, _, bytes, valueOf_vZero, valueOf_vZero, ?_, ?_, hs, this, ?_⟩
  · dsimp only; rw [valueOf_aboveOne]; norm_num
  · rw [notUnit_ops lib]; exact c3
  · rw [quantNormal_eq lib (by decide)]
    dsimp only
    rw [c1, c2, setSign, if_neg (by decide)]
    exact valueOf_vZero

end Tmf.Props
