import Verif.Lemmas.NormalizeShort
import Verif.Props.Normalize
import Verif.Spec.Normalised
/-
C42: what `normalize` makes of every normal.
-/

set_option exponentiation.threshold 2000

namespace Tmf.Props
open Spec Ieee

variable (lib : Libm)

theorem length_overflow {v : Vec3 (Val b32)} (h : lengthV v = .inf false) :
    normalizeV v = (div v.1 (.inf false), div v.2.1 (.inf false), div v.2.2 (.inf false)) := by
  rw [normalizeV, h]
  rfl

theorem div_inf (c : Val b32) (hn : isNaN c = false) : besideInfinite c (div c (.inf false)) := by
  cases c with
  | nan => cases hn
  | inf s => exact ⟨(fun h => nomatch h), fun _ => rfl⟩
  | fin s n h =>
    have z : ∀ s : Bool, isFinite (rounded s 0 1 : Val b32) = true ∧ valueOf (rounded s 0 1 : Val b32) = 0 := by decide +kernel
    exact ⟨fun _ => z _, fun h => nomatch h⟩

theorem normalised_finite {v : Vec3 (Val b32)} (hf : FiniteV v) : Normalised v (normalizeV v) := by
  obtain ⟨f1, f2, f3⟩ := hf
  rcases sumsq_cases f1 f2 f3 with h | ⟨fS, -, -⟩
  · have hL : lengthV v = .inf false := by rw [lengthV, h]; rfl
    have nn : ∀ {c : Val b32}, isFinite c = true → isNaN c = false := by
      intro c hc
      obtain ⟨s, n, hn, rfl⟩ := finite_cases hc
      rfl
    have d1 := (div_inf v.1 (nn f1)).1 f1
    have d2 := (div_inf v.2.1 (nn f2)).1 f2
    have d3 := (div_inf v.2.2 (nn f3)).1 f3
    refine .zero ⟨f1, f2, f3⟩ ?_ ?_
    · by_contra hc
      push Not at hc
      have := sumsq_finite f1 f2 f3 hc
      rw [h] at this
      cases this
    · rw [length_overflow hL]
      refine ⟨⟨d1.1, d2.1, d3.1⟩, ?_⟩
      simp only [lengthSq]
      rw [d1.2, d2.2, d3.2]
      norm_num
  · by_cases hs : 1 / 2 ^ 75 < |valueOf v.1| ∨ 1 / 2 ^ 75 < |valueOf v.2.1| ∨ 1 / 2 ^ 75 < |valueOf v.2.2|
    · obtain ⟨fm, mpos, hc, h1, h2⟩ := normalize_seen f1 f2 f3 fS hs (mag := lengthV v) rfl
      have hnan : isNaN (lengthV v) = false := by
        obtain ⟨s, n, hn, e⟩ := finite_cases fm
        rw [e]; rfl
      have e : normalizeV v = (div v.1 (lengthV v), div v.2.1 (lengthV v), div v.2.2 (lengthV v)) := by
        rw [normalizeV, hnan]; rfl
      rw [e]
      refine .unit ⟨f1, f2, f3⟩ hs ?_ ⟨(hc _ (by simp)).1, (hc _ (by simp)).1, (hc _ (by simp)).1⟩
        ⟨_, mpos, hc _ (by simp), hc _ (by simp), hc _ (by simp)⟩ h1 h2 ?_
      · by_contra hc
        push Not at hc
        rw [sumsq_overflow f1 f2 f3 hc] at fS
        cases fS
      · intro hl
        exact (normalize_summed f1 f2 f3 hl fS (mag := lengthV v) rfl).2.2.2
    · push Not at hs
      exact .lost ⟨f1, f2, f3⟩ hs (normalizeV_too_short ⟨f1, f2, f3⟩ hs.1 hs.2.1 hs.2.2)

theorem add_nan_right (x : Val b32) : add x .nan = .nan := by cases x <;> rfl

theorem sum_nan {x y z : Val b32} (h : x = .nan ∨ y = .nan ∨ z = .nan) : add (add (mul x x) (mul y y)) (mul z z) = .nan := by
  rcases h with rfl | rfl | rfl
  · rfl
  · show add (add (mul x x) .nan) (mul z z) = .nan
    rw [add_nan_right]
    rfl
  · exact add_nan_right _

theorem sum_infinite {x y z : Val b32} (n1 : isNaN x = false) (n2 : isNaN y = false) (n3 : isNaN z = false)
    (h : isFinite x = false ∨ isFinite y = false ∨ isFinite z = false) : add (add (mul x x) (mul y y)) (mul z z) = .inf false := by
  have sq : ∀ {c : Val b32}, isNaN c = false → NotBelow (mul c c) ∧ (isFinite c = false → mul c c = .inf false) := by
    intro c hc
    cases c with
    | nan => cases hc
    | inf s => exact ⟨.inl (by cases s <;> rfl), fun _ => by cases s <;> rfl⟩
    | fin s n h =>
      refine ⟨?_, fun h => nomatch h⟩
      rcases square_near (x := .fin s n h) rfl with e | ⟨e1, e2, -⟩
      · exact .inl e
      · exact .inr ⟨e1, e2⟩
  have left : ∀ {a : Val b32}, NotBelow a → add (.inf false) a = .inf false ∧ add a (.inf false) = .inf false := by
    rintro a (rfl | ⟨h, -⟩)
    · exact ⟨rfl, rfl⟩
    · obtain ⟨s, n, hn, rfl⟩ := finite_cases h
      exact ⟨rfl, rfl⟩
  have both : ∀ {a c : Val b32}, NotBelow a → NotBelow c → NotBelow (add a c) := by
    rintro a c (rfl | ⟨h, h0⟩) hc
    · exact .inl (left hc).1
    · rcases hc with rfl | ⟨h', h0'⟩
      · exact .inl (left (.inr ⟨h, h0⟩)).2
      · rcases sum_near h h' h0 h0' with e | ⟨e1, e2, -⟩
        · exact .inl e
        · exact .inr ⟨e1, e2⟩
  obtain ⟨px, qx⟩ := sq n1
  obtain ⟨py, qy⟩ := sq n2
  obtain ⟨pz, qz⟩ := sq n3
  rcases h with h | h | h
  · rw [qx h, (left py).1, (left pz).1]
  · rw [qy h, (left px).2, (left pz).1]
  · rw [qz h, (left (both px py)).2]

theorem normalised (v : Vec3 (Val b32)) : Normalised v (normalizeV v) := by
  have isnan : ∀ {c : Val b32}, isNaN c = true → c = .nan := by
    intro c hc
    cases c with
    | nan => rfl
    | inf s => cases hc
    | fin s n h => cases hc
  by_cases hn : isNaN v.1 = true ∨ isNaN v.2.1 = true ∨ isNaN v.2.2 = true
  · have hL : lengthV v = .nan := by rw [lengthV, sum_nan (hn.imp isnan (.imp isnan isnan))]; rfl
    have e : normalizeV v = (lit 0 0, lit 0 0, lit 0 0) := by rw [normalizeV, hL]; rfl
    rw [e]
    refine .nan hn ⟨by unfold FiniteV; decide +kernel, ?_⟩
    simp only [lengthSq]
    rw [show valueOf (lit 0 0 : Val b32) = 0 by decide +kernel]
    norm_num
  · simp only [not_or, Bool.not_eq_true] at hn
    by_cases hf : FiniteV v
    · exact normalised_finite hf
    · have hf' : isFinite v.1 = false ∨ isFinite v.2.1 = false ∨ isFinite v.2.2 = false := by
        unfold FiniteV at hf
        cases h1 : isFinite v.1 with
        | false => exact .inl rfl
        | true =>
          cases h2 : isFinite v.2.1 with
          | false => exact .inr (.inl rfl)
          | true =>
            cases h3 : isFinite v.2.2 with
            | false => exact .inr (.inr rfl)
            | true => exact absurd ⟨h1, h2, h3⟩ hf
      have hL : lengthV v = .inf false := by rw [lengthV, sum_infinite hn.1 hn.2.1 hn.2.2 hf']; rfl
      rw [length_overflow hL]
      exact .infinite hn hf' ⟨div_inf _ hn.1, div_inf _ hn.2.1, div_inf _ hn.2.2⟩

/-- C42, every mesh: what `normalize` makes of each normal, whatever its components are. -/
theorem C42_every (m : Mesh (Val b32)) {l : List (Vec3 (Val b32))} (hm : m.normals = some l) :
    ∃ l', (m.normalize (ops lib)).normals = some l' ∧ List.Forall₂ Normalised l l' := by
  refine ⟨l.map (normalize (ops lib)), by rw [Mesh.normalize, hm]; rfl, ?_⟩
  clear hm
  induction l with
  | nil => exact .nil
  | cons v l ih =>
    refine .cons ?_ ih
    rw [normalize_ops lib]
    exact normalised v

/-- The cases exclude each other, but for lengths within a millionth of `2^64`. -/
theorem normalised_unit {v w : Vec3 (Val b32)} (h : Normalised v w) (hf : FiniteV v) (h1 : 1 / 2 ^ 144 ≤ lengthSq v)
    (h2 : lengthSq v ≤ 2 ^ 128 - 2 ^ 108) : SameDirection v w ∧ AlmostUnit (13 / 2 ^ 24 + 5 / 2 ^ 150 / lengthSq v) w := by
  have nn : ∀ {c : Val b32}, isFinite c = true → isNaN c = false := by
    intro c hc
    obtain ⟨s, n, hn, rfl⟩ := finite_cases hc
    rfl
  cases h with
  | lost _ tiny _ =>
    exfalso
    obtain ⟨t1, t2, t3⟩ := tiny
    have sq : ∀ c : ℚ, |c| ≤ 1 / 2 ^ 75 → c ^ 2 ≤ 1 / 2 ^ 150 := by
      intro c hc
      rw [← sq_abs]
      refine le_trans (pow_le_pow_left₀ (abs_nonneg _) hc 2) ?_
      norm_num
    have := sq _ t1
    have := sq _ t2
    have := sq _ t3
    simp only [lengthSq] at h1
    norm_num at *
    linarith
  | zero _ long _ => exact absurd long (not_lt.mpr h2)
  | unit _ _ _ _ direction _ _ length => exact ⟨direction, length h1⟩
  | nan some _ =>
    rw [nn hf.1, nn hf.2.1, nn hf.2.2] at some
    simp at some
  | infinite _ some _ =>
    rw [hf.1, hf.2.1, hf.2.2] at some
    simp at some

/-- A mesh with one normal of each kind. -/
example : ∃ l', ((Mesh.empty.setNormals [(vFaint, vZero, vZero), (vHuge, vOne, vZero), (vShort, vZero, vZero), (.nan, vOne, vZero),
      (.inf true, vOne, vZero)]).1.normalize (ops lib)).normals = some l' ∧
    List.Forall₂ Normalised [(vFaint, vZero, vZero), (vHuge, vOne, vZero), (vShort, vZero, vZero), (.nan, vOne, vZero), (.inf true, vOne, vZero)] l' :=
  C42_every lib _ rfl

end Tmf.Props
