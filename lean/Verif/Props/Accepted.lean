import Verif.Lemmas.AcceptedNormal
import Verif.Props.NormalAngle
import Verif.Props.Verify
/-
C90: the normals `verify` accepts, in exact numbers, and what is left of them after saving and loading.
-/

set_option exponentiation.threshold 2000

namespace Tmf.Props
open Spec Ieee Geometry

variable {lib : Libm}

/-! ### What `verify` accepts -/

theorem milli_upper : isFinite (lit 1 3 : Val b32) = true ∧ |valueOf (lit 1 3 : Val b32) - 1 / 1000| ≤ 1 / 2 ^ 33 := by
  have h := rounded_value (f := b32) (by decide) false (num := 1 * 2 ^ b32.scale) (den := 10 ^ 3) (v := 1 / 10 ^ 3) (by norm_num)
    (by
      simp only [sgn, Bool.false_eq_true, if_false, one_mul]
      rw [show b32.scale = 149 from rfl, Nat.cast_pow, Nat.cast_pow]
      norm_num)
    (le_trans (by rw [abs_of_nonneg (by norm_num)]; norm_num) maxV32)
  have he := rnd32_error (1 / 10 ^ 3)
  refine ⟨h.1, ?_⟩
  show |valueOf (rounded false (1 * 2 ^ b32.scale) (10 ^ 3) : Val b32) - 1 / 1000| ≤ 1 / 2 ^ 33
  rw [h.2]
  norm_num at he ⊢
  linarith

/-- The sum of three squares is infinite when one of them is and none is NaN. -/
theorem infinite_sum {x y z : Val b32} (hn : ¬ HasNaN (x, y, z)) (hi : ¬ FiniteV (x, y, z)) :
    add (add (mul x x) (mul y y)) (mul z z) = .inf false := by
  have sq : ∀ v : Val b32, v ≠ .nan → (mul v v = .inf false ∨ isFinite (mul v v) = true) ∧
      (isFinite v = false → mul v v = .inf false) := by
    intro v hv
    cases v with
    | nan => exact absurd rfl hv
    | inf s =>
      have e : mul (.inf s : Val b32) (.inf s) = .inf false := by cases s <;> rfl
      exact ⟨.inl e, fun _ => e⟩
    | fin s n h =>
      refine ⟨?_, fun h => by cases h⟩
      rcases square_near (x := .fin s n h) rfl with h' | h'
      · exact .inl h'
      · exact .inr h'.1
  have left : ∀ {a : Val b32}, (a = .inf false ∨ isFinite a = true) → add (.inf false) a = .inf false := by
    rintro a (rfl | h)
    · rfl
    · obtain ⟨s, n, hn, rfl⟩ := finite_cases h
      rfl
  have right : ∀ {a : Val b32}, (a = .inf false ∨ isFinite a = true) → add a (.inf false) = .inf false := by
    rintro a (rfl | h)
    · rfl
    · obtain ⟨s, n, hn, rfl⟩ := finite_cases h
      rfl
  have hn' : x ≠ .nan ∧ y ≠ .nan ∧ z ≠ .nan := by
    refine ⟨fun h => hn (.inl h), fun h => hn (.inr (.inl h)), fun h => hn (.inr (.inr h))⟩
  obtain ⟨x1, x2⟩ := sq x hn'.1
  obtain ⟨y1, y2⟩ := sq y hn'.2.1
  obtain ⟨z1, z2⟩ := sq z hn'.2.2
  by_cases fx : isFinite x = true
  · by_cases fy : isFinite y = true
    · by_cases fz : isFinite z = true
      · exact absurd ⟨fx, fy, fz⟩ hi
      · rw [z2 (by simpa using fz)]
        refine right ?_
        rcases square_near fx with h | ⟨fx', nx, -⟩
        · rw [h, left y1]; exact .inl rfl
        · rcases square_near fy with h | ⟨fy', ny, -⟩
          · rw [h, right x1]; exact .inl rfl
          · rcases sum_near fx' fy' nx ny with h | h
            · exact .inl h
            · exact .inr h.1
    · rw [y2 (by simpa using fy), right x1, left z1]
  · rw [x2 (by simpa using fx), left y1, left z1]

/-- NaN passes. -/
theorem nan_accepted {n : Vec3 (Val b32)} (h : HasNaN n) : notUnit (ops lib) n = false := by
  rw [notUnit_ops lib]
  have a1 : ∀ a : Val b32, add .nan a = .nan := fun a => rfl
  have a2 : ∀ a : Val b32, add a .nan = .nan := fun a => by cases a <;> rfl
  have m1 : mul (.nan : Val b32) .nan = .nan := rfl
  have : lengthV n = .nan := by
    rw [lengthV]
    rcases h with h | h | h
    · rw [h, m1, a1, a1]; rfl
    · rw [h, m1, a2, a1]; rfl
    · rw [h, m1, a2]; rfl
  rw [this]
  have e : lt (lit 1 3) (Ieee.abs (sub (lit 1 0) (.nan : Val b32))) = false := by decide +kernel
  exact e

theorem infinite_rejected : lt (lit 1 3) (Ieee.abs (sub (lit 1 0) (.inf false : Val b32))) = true := by decide +kernel
theorem zero_rejected : ∀ s : Bool, lt (lit 1 3) (Ieee.abs (sub (lit 1 0) (.fin s 0 (by decide +kernel) : Val b32))) = true := by
  decide +kernel

/-- The length test of `verify` on the computed length. -/
theorem length_test {m : Val b32} (fm : isFinite m = true) (h0 : 0 ≤ valueOf m) (hm : valueOf m ≤ 2 ^ 100) :
    (lt (lit 1 3) (Ieee.abs (sub (lit 1 0) m)) = false → |valueOf m - 1| ≤ 10001 / 10 ^ 7) ∧
    (|valueOf m - 1| ≤ 9999 / 10 ^ 7 → lt (lit 1 3) (Ieee.abs (sub (lit 1 0) m)) = false) := by
  obtain ⟨fo, vo⟩ := lit_one_value
  obtain ⟨fl, vl⟩ := milli_upper
  have hbig : |1 - valueOf m| ≤ maxV b32 := by
    rw [maxV32_eq, abs_le]
    have : (2 : ℚ) ^ 100 ≤ 2 ^ 128 - 2 ^ 104 - 1 := by norm_num
    constructor <;> linarith
  obtain ⟨fs, vs⟩ := sub_value (f := b32) (by decide) fo fm (by rw [vo]; exact hbig)
  have he := rnd32_error_sub (lit 1 0) m
  rw [vo] at vs he
  rw [← vs] at he
  obtain ⟨fa, va⟩ := abs_value fs
  have hlt := lt_value fl fa
  rw [va] at hlt
  have t1 := abs_sub_abs_le_abs_sub (valueOf (sub (lit 1 0) m)) (1 - valueOf m)
  have t2 := abs_sub_abs_le_abs_sub (1 - valueOf m) (valueOf (sub (lit 1 0) m))
  rw [abs_sub_comm (1 - valueOf m) (valueOf (sub (lit 1 0) m))] at t2
  rw [abs_sub_comm (valueOf m) 1]
  rw [abs_le] at vl
  obtain ⟨vl1, vl2⟩ := vl
  generalize |valueOf (sub (lit 1 0) m)| = a at *
  generalize |1 - valueOf m| = c at *
  generalize |valueOf (sub (lit 1 0) m) - (1 - valueOf m)| = d at *
  constructor
  · intro h
    have h2 : ¬ valueOf (lit 1 3 : Val b32) < a := by rw [← hlt, h]; decide
    push Not at h2
    norm_num at *
    linarith
  · intro h
    by_contra hc
    rw [Bool.not_eq_false] at hc
    have h2 := hlt.mp hc
    norm_num at *
    linarith

/-- The computed length of a finite vector whose exact squared length is not huge. -/
theorem length_near {n : Vec3 (Val b32)} (hf : FiniteV n) (hs : isFinite (add (add (mul n.1 n.1) (mul n.2.1 n.2.1)) (mul n.2.2 n.2.2)) = true)
    (h0 : 0 < valueOf (add (add (mul n.1 n.1) (mul n.2.1 n.2.1)) (mul n.2.2 n.2.2))) :
    isFinite (lengthV n) = true ∧ 0 < valueOf (lengthV n) ∧ valueOf (lengthV n) ≤ 2 ^ 100 ∧
    |valueOf (lengthV n) ^ 2 - lengthSq n| ≤ 8 / 2 ^ 24 * lengthSq n + 8 / 2 ^ 150 := by
  obtain ⟨f1, f2, f3⟩ := hf
  obtain ⟨fm, m0, me⟩ := sqrt_value hs h0
  have hmax := abs_valueOf_le (add (add (mul n.1 n.1) (mul n.2.1 n.2.1)) (mul n.2.2 n.2.2))
  rw [maxV32_eq] at hmax
  have e : |valueOf (add (add (mul n.1 n.1) (mul n.2.1 n.2.1)) (mul n.2.2 n.2.2)) - lengthSq n| ≤ 4 / 2 ^ 24 * lengthSq n + 4 / 2 ^ 150 := by
    rcases sumsq_cases f1 f2 f3 with h | ⟨-, -, h⟩
    · rw [h] at hs; cases hs
    · exact h
  rw [← lengthV] at fm m0 me
  have hq : 0 ≤ lengthSq n := by rw [lengthSq]; positivity
  generalize valueOf (add (add (mul n.1 n.1) (mul n.2.1 n.2.1)) (mul n.2.2 n.2.2)) = S at *
  generalize valueOf (lengthV n) = M at *
  generalize lengthSq n = Q at *
  rw [abs_le] at *
  refine ⟨fm, m0, ?_, ?_⟩
  · by_contra hc
    push Not at hc
    have h2 : ((2 : ℚ) ^ 100) ^ 2 < M ^ 2 := pow_lt_pow_left₀ hc (by norm_num) (by decide)
    norm_num at *
    linarith
  · norm_num at *
    constructor <;> linarith

/-- The normals `verify` accepts, in exact numbers: those with a NaN, and finite ones whose squared length is within 0.002002 of 1. -/
theorem accepted_length {n : Vec3 (Val b32)} (h : notUnit (ops lib) n = false) :
    HasNaN n ∨ (FiniteV n ∧ AlmostUnit (2002 / 10 ^ 6) n) := by
  by_cases hn : HasNaN n
  · exact .inl hn
  rw [notUnit_ops lib] at h
  refine .inr ?_
  have hf : FiniteV n := by
    by_contra hi
    rw [lengthV, infinite_sum hn hi] at h
    exact absurd h (by rw [show sqrt (.inf false : Val b32) = .inf false from rfl, infinite_rejected]; decide)
  refine ⟨hf, ?_⟩
  obtain ⟨fs, s0⟩ : isFinite (add (add (mul n.1 n.1) (mul n.2.1 n.2.1)) (mul n.2.2 n.2.2)) = true ∧
      0 < valueOf (add (add (mul n.1 n.1) (mul n.2.1 n.2.1)) (mul n.2.2 n.2.2)) := by
    rcases sumsq_cases hf.1 hf.2.1 hf.2.2 with e | ⟨f, p, -⟩
    · rw [lengthV, e] at h
      exact absurd h (by rw [show sqrt (.inf false : Val b32) = .inf false from rfl, infinite_rejected]; decide)
    · refine ⟨f, lt_of_le_of_ne p fun e => ?_⟩
      rw [lengthV] at h
      obtain ⟨s, k, hk, e'⟩ := finite_cases f
      rw [e'] at e h
      have hk0 : k = 0 := by
        rw [valueOf_fin] at e
        have h2 : (k : ℚ) / 2 ^ b32.scale = 0 := by
          rcases mul_eq_zero.mp e.symm with h3 | h3
          · cases s <;> simp [sgn] at h3
          · exact h3
        have h4 : (2 : ℚ) ^ b32.scale ≠ 0 := (units_pos b32).ne'
        exact_mod_cast (div_eq_zero_iff.mp h2).resolve_right h4
      subst hk0
      have e2 : sqrt (.fin s 0 hk : Val b32) = .fin s 0 hk := by rw [sqrt, if_pos rfl]
      rw [e2] at h
      exact absurd h (by rw [zero_rejected s]; decide)
  obtain ⟨fm, m0, m1, me⟩ := length_near hf fs s0
  have ht := (length_test fm m0.le m1).1 h
  show |lengthSq n - 1| ≤ 2002 / 10 ^ 6
  have hq : 0 ≤ lengthSq n := by rw [lengthSq]; positivity
  generalize valueOf (lengthV n) = M at *
  generalize lengthSq n = Q at *
  have hM : |M ^ 2 - 1| ≤ 20014 / 10 ^ 7 := by
    have e : M ^ 2 - 1 = (M - 1) * (M + 1) := by ring
    rw [e, abs_mul, abs_of_pos (a := M + 1) (by linarith)]
    have : M + 1 ≤ 20011 / 10 ^ 4 := by
      rw [abs_le] at ht
      norm_num at *
      linarith
    refine le_trans (mul_le_mul ht this (by linarith) (by norm_num)) ?_
    norm_num
  generalize M ^ 2 = N at *
  rw [abs_le] at *
  norm_num at *
  constructor <;> linarith

/-- Finite normals whose squared length is within 0.001998 of 1 are accepted. -/
theorem length_accepted {n : Vec3 (Val b32)} (hf : FiniteV n) (hu : AlmostUnit (1998 / 10 ^ 6) n) : notUnit (ops lib) n = false := by
  rw [notUnit_ops lib]
  have hu' : |lengthSq n - 1| ≤ 1998 / 10 ^ 6 := hu
  have hq : lengthSq n = valueOf n.1 ^ 2 + valueOf n.2.1 ^ 2 + valueOf n.2.2 ^ 2 := rfl
  have fs := sumsq_finite hf.1 hf.2.1 hf.2.2 (by
    rw [← hq]
    rw [abs_le] at hu'
    norm_num at *
    linarith)
  have s0 : 0 < valueOf (add (add (mul n.1 n.1) (mul n.2.1 n.2.1)) (mul n.2.2 n.2.2)) := by
    rcases sumsq_cases hf.1 hf.2.1 hf.2.2 with e | ⟨f, p, e⟩
    · rw [e] at fs; cases fs
    · rw [← hq] at e
      rw [abs_le] at e hu'
      norm_num at *
      linarith
  obtain ⟨fm, m0, m1, me⟩ := length_near hf fs s0
  refine (length_test fm m0.le m1).2 ?_
  generalize valueOf (lengthV n) = M at *
  generalize lengthSq n = Q at *
  have hM : |M ^ 2 - 1| ≤ 19985 / 10 ^ 7 := by
    generalize M ^ 2 = N at *
    rw [abs_le] at *
    norm_num at *
    constructor <;> linarith
  have hM1 : 999 / 10 ^ 3 ≤ M := by
    by_contra hc
    push Not at hc
    have := pow_lt_pow_left₀ hc m0.le (by decide : 2 ≠ 0)
    rw [abs_le] at hM
    norm_num at *
    linarith
  have e : M ^ 2 - 1 = (M - 1) * (M + 1) := by ring
  rw [e, abs_mul, abs_of_pos (a := M + 1) (by linarith)] at hM
  have h2 : |M - 1| * (1999 / 10 ^ 3) ≤ |M - 1| * (M + 1) := mul_le_mul_of_nonneg_left (by norm_num at *; linarith) (abs_nonneg _)
  norm_num at *
  nlinarith

/-! ### C90 -/

theorem verified_normals {m : Mesh (Val b32)} (hv : m.verify (ops lib) = .ok ()) {l : List (Vec3 (Val b32))} (hl : m.normals = some l) :
    ∀ n ∈ l, notUnit (ops lib) n = false := by
  have h := (foundErrors_nil.mp (verify_ok.mp hv)).2.1
  rw [verifyNormals, hl] at h
  dsimp only at h
  intro n hn
  by_contra hc
  rw [Bool.not_eq_false] at hc
  rw [if_pos (List.any_eq_true.mpr ⟨n, hn, hc⟩)] at h
  cases h

/-- C90, the length (partial: a normal with a NaN is accepted too, `C90_nan_violated`): the squared length of every finite normal of
a mesh `verify` accepts is within 0.002002 of 1, and no component is infinite. -/
theorem C90_length_partial {m : Mesh (Val b32)} (hv : m.verify (ops lib) = .ok ()) {l : List (Vec3 (Val b32))} (hl : m.normals = some l) :
    ∀ n ∈ l, HasNaN n ∨ (FiniteV n ∧ AlmostUnit (2002 / 10 ^ 6) n) :=
  fun n hn => accepted_length (verified_normals hv hl n hn)

/-- C90, the other direction: `verify` does not complain about normals whose squared length is within 0.001998 of 1. -/
theorem C90_length_accepted {m : Mesh (Val b32)}
    (hl : ∀ l, m.normals = some l → ∀ n ∈ l, FiniteV n ∧ AlmostUnit (1998 / 10 ^ 6) n) :
    verifyNormals (ops lib) m ≠ some .normalsNotNormalized := by
  rw [verifyNormals]
  cases hm : m.normals with
  | none => dsimp only; split <;> simp
  | some l =>
    have hany : l.any (notUnit (ops lib)) = false := by
      rw [List.any_eq_false]
      intro n hn
      rw [length_accepted (hl l hm n hn).1 (hl l hm n hn).2]
      decide
    dsimp only
    rw [hany, if_neg (by decide)]
    split
    · split <;> simp
    · simp

/-- C90, the direction (partial: without NaN, and with more than 9 bits only when z does not exceed 1, see `C38_wrap_violated`; with
more than 24 bits only away from the x and z axes): the normals of a mesh `verify` accepts come back near. -/
theorem C90_kept_partial (hlib : AccurateLibm lib) {b : Build} {m : Mesh (Val b32)} (hv : m.verify (ops lib) = .ok ())
    {l : List (Vec3 (Val b32))} (hl : m.normals = some l) {p : Nat} (hp1 : 1 ≤ p) (hp : Writable b p) (hlen : l.length ≤ 2 ^ 31) :
    ∃ bytes l', saveNormals (ops lib) b l p = .ok bytes ∧ readNormals (ops lib) bytes = .ok l' ∧
      List.Forall₂ (fun n n' => ¬ HasNaN n → (|valueOf n.2.2| ≤ 1 ∨ p ≤ 9) → (25 ≤ p → OffAxes n) → KeptAccepted p n n') l l' := by
  obtain ⟨bytes, hs, hr⟩ := readNormals_writable (fo := ops lib) (b := b) (l := l) (p := p) hp hlen
  refine ⟨bytes, _, hs, hr, forall₂_map fun n h hn hz hoff => ?_⟩
  obtain ⟨hf, hu⟩ := (C90_length_partial hv hl n h).resolve_left hn
  exact normal_kept_long hlib hp1 hp.le hf (le_trans hu (by norm_num)) hz hoff

/-- `11/256`. -/
def leanX : Val b32 := .fin false (11 * 2 ^ 141) (by decide +kernel)

theorem valueOf_leanX : valueOf leanX = 11 / 256 := by
  rw [leanX, valueOf_pos, show b32.scale = 149 from rfl]; norm_num

example : FiniteV (leanX, vZero, vOne) ∧ AlmostUnit (1998 / 10 ^ 6) (leanX, vZero, vOne) ∧ ¬ AlmostUnit (1 / 2 ^ 10) (leanX, vZero, vOne) := by
  refine ⟨⟨rfl, rfl, rfl⟩, ?_, ?_⟩ <;>
  · rw [AlmostUnit]
    dsimp only
    rw [valueOf_leanX, valueOf_vZero, valueOf_vOne, abs_le]
    norm_num

theorem lean_accepted : lt (lit 1 3) (Ieee.abs (sub (lit 1 0) (lengthV (leanX, vZero, vOne)))) = false := by decide +kernel

theorem normals_verified {l : List (Vec3 (Val b32))} (h : ∀ n ∈ l, notUnit (ops lib) n = false) :
    ((Mesh.empty : Mesh (Val b32)).setNormals l).1.verify (ops lib) = .ok () := by
  rw [verify_ok, foundErrors_nil]
  refine ⟨rfl, ?_, rfl⟩
  have hany : l.any (notUnit (ops lib)) = false := by
    rw [List.any_eq_false]
    intro n hn
    rw [h n hn]
    decide
  rw [verifyNormals, Mesh.setNormals]
  dsimp only
  rw [hany, if_neg (by decide)]
  rfl

/-- A mesh `verify` accepts, whose normal is too long and too high, and that comes back near with 9 bits. -/
example (b : Build) : ∃ lib, (Mesh.empty.setNormals [(vZero, vZero, aboveOne)]).1.verify (ops lib) = .ok () ∧
    ∃ bytes w, saveNormals (ops lib) b [(vZero, vZero, aboveOne)] 9 = .ok bytes ∧ readNormals (ops lib) bytes = .ok [w] ∧
      KeptAccepted 9 (vZero, vZero, aboveOne) w := by
  have hv := normals_verified (lib := someLibm) (l := [(vZero, vZero, aboveOne)]) (by
    intro n hn
    rw [List.mem_singleton] at hn
    subst hn
    rw [notUnit_ops]
    exact wrap_codes.2.2)
  refine ⟨someLibm, hv, ?_⟩
  obtain ⟨bytes, l', hs, hr, h⟩ := C90_kept_partial someLibm_accurate (b := b) hv (l := [(vZero, vZero, aboveOne)]) rfl (p := 9)
    (by decide) (.inl (by decide)) (by show 1 ≤ 2 ^ 31; decide)
  cases h with
  | cons h1 h2 =>
  cases h2
  refine ⟨bytes, _, hs, hr, h1 ?_ (.inr (by decide)) (fun h => absurd h (by decide))⟩
  rintro (h | h | h) <;> cases h

/-- C90 is false for NaN: `verify` accepts every normal with a NaN, and a unit vector is loaded in its place. -/
theorem C90_nan_violated (hlib : AccurateLibm lib) {b : Build} {n : Vec3 (Val b32)} (hn : HasNaN n) {p : Nat} (hp1 : 1 ≤ p)
    (hp : Writable b p) :
    (Mesh.empty.setNormals [n]).1.verify (ops lib) = .ok () ∧ ∃ w bytes, saveNormals (ops lib) b [n] p = .ok bytes ∧
      readNormals (ops lib) bytes = .ok [w] ∧ UnitDecoded w := by
  refine ⟨normals_verified fun k hk => ?_, ?_⟩
  · rw [List.mem_singleton] at hk
    subst hk
    exact nan_accepted hn
  · obtain ⟨bytes, hs, hr⟩ := readNormals_writable (fo := ops lib) (b := b) (l := [n]) (p := p) hp (by show 1 ≤ 2 ^ 31; decide)
    have h31 := hp.le
    exact ⟨_, bytes, hs, hr, fromEncoding_unit hlib hp1 (by omega) (Nat.mod_lt _ (by positivity)) (Nat.mod_lt _ (by positivity))⟩

example : HasNaN (vOne, (.nan : Val b32), vZero) := .inr (.inl rfl)

theorem up_codes : ∀ p < 25, 1 ≤ p → unitQ p (Ieee.abs vOne) = oneV := by decide +kernel
theorem up_rest : magQ oneV = zeroV ∧ lt vOne (lit 0 0) = false := by decide +kernel

/-- C90's direction is not that of the precision: a normal of length 1.0009 that `verify` accepts comes back 2.4 degrees off, whatever the
number of bits. -/
theorem C90_angle_violated (hlib : AccurateLibm lib) {b : Build} {p : Nat} (hp1 : 1 ≤ p) (hp : p ≤ 24) :
    ∃ n w bytes, (Mesh.empty.setNormals [n]).1.verify (ops lib) = .ok () ∧ saveNormals (ops lib) b [n] p = .ok bytes ∧
      readNormals (ops lib) bytes = .ok [w] ∧ ¬ AngleAtMost (12 / 5 * (Real.pi / 180)) n w := by
  obtain ⟨bytes, hs, hr⟩ := readNormals_saved (fo := ops lib) (b := b) (l := [(leanX, vZero, vOne)]) (p := p)
    (by omega) (.inr (by omega)) (by show 1 ≤ 2 ^ 31; decide)
  have := hr []
  rw [List.append_nil, List.map_cons, List.map_nil] at this
  refine ⟨_, _, bytes, normals_verified fun k hk => ?_, hs, this, ?_⟩
  · rw [List.mem_singleton] at hk
    subst hk
    rw [notUnit_ops]
    exact lean_accepted
  · rw [quantNormal_eq lib hp1]
    dsimp only
    rw [up_codes p (by omega) hp1, up_rest.1, up_rest.2]
    obtain ⟨tf, t0, t1⟩ := angleQ_value lib hp1 (by omega) (leanX, vZero, vOne)
    have hzero : ∀ S : Val b32, isFinite S = true → ∀ s, realOf (setSign s (mul S zeroV)) = 0 := by
      intro S hS s
      have hz : valueOf zeroV = 0 := valueOf_vZero
      have hm := mul_value (f := b32) (by decide) hS (show isFinite zeroV = true from rfl)
        (by rw [hz, mul_zero, abs_zero]; exact le_trans (by norm_num) maxV32)
      rw [hz, mul_zero, rnd_zero (by decide)] at hm
      have h2 := setSign_sq s (mul S zeroV)
      rw [hm.2] at h2
      have h3 : valueOf (setSign s (mul S zeroV)) = 0 := by simpa using h2
      rw [realOf, h3, Rat.cast_zero]
    have t2 : valueOf (angleQ lib p (leanX, vZero, vOne)) ≤ 2 := le_trans t1 (by rw [halfPi_value.2]; norm_num)
    have x0 := hzero _ (hlib.sin_near _ tf t0 t2).1 (lt leanX (lit 0 0))
    have y0 := hzero _ (hlib.cos_near _ tf t0 t2).1 (lt vZero (lit 0 0))
    have z1 : realOf (setSign false oneV) = 1 := by
      rw [setSign, if_neg (by decide), realOf, show valueOf oneV = 1 from valueOf_vOne, Rat.cast_one]
    rw [AngleAtMost, lengthOf, lengthOf, scalar]
    dsimp only
    rw [x0, y0, z1]
    have v0 : realOf vZero = 0 := by rw [realOf, valueOf_vZero, Rat.cast_zero]
    have v1 : realOf leanX = 11 / 256 := by rw [realOf, valueOf_leanX]; push_cast; rfl
    have v2 : realOf vOne = 1 := by rw [realOf, valueOf_vOne, Rat.cast_one]
    rw [v0, v1, v2]
    have hcos : (0.999118 : ℝ) ≤ Real.cos (12 / 5 * (Real.pi / 180)) := by
      have h := Real.one_sub_sq_div_two_le_cos (x := 12 / 5 * (Real.pi / 180))
      have h2 := Real.pi_lt_d2
      have h3 := Real.pi_pos
      norm_num at h h2 ⊢
      nlinarith
    have hn : (1.00092 : ℝ) ≤ length3 (11 / 256) 0 1 := by
      rw [length3]
      refine Real.le_sqrt_of_sq_le ?_
      norm_num
    have hw : length3 0 0 1 = 1 := by
      rw [length3]
      norm_num
    rw [hw, mul_one, not_le]
    have hall := mul_le_mul hcos hn (by norm_num) (le_trans (by norm_num) hcos)
    refine lt_of_lt_of_le ?_ hall
    norm_num

end Tmf.Props
