import Verif.Spec.Missing
import Verif.Lemmas.Endless
import Verif.Lemmas.CoordHigh
/-
C112: vertices with NaN for a coordinate.
-/

set_option exponentiation.threshold 2000

namespace Tmf.Ieee
open Spec

/-- `y` is the greatest of the numbers among `xs`. -/
structure Greatest (xs : List (Val b32)) (y : Val b32) : Prop where
  finite : isFinite y = true
  among : ∃ x ∈ xs, isFinite x = true ∧ valueOf x = valueOf y
  ge : ∀ x ∈ xs, isFinite x = true → valueOf x ≤ valueOf y

/-- The least number, if there is one. -/
def LowEnd (xs : List (Val b32)) (y : Val b32) : Prop := (y = .nan ∧ ∀ x ∈ xs, x = .nan) ∨ Least xs y

/-- The greatest number, if there is one. -/
def HighEnd (xs : List (Val b32)) (y : Val b32) : Prop := (y = .nan ∧ ∀ x ∈ xs, x = .nan) ∨ Greatest xs y

theorem min_nan (x : Val b32) : Ieee.min x .nan = x := by cases x <;> rfl

theorem max_nan (x : Val b32) : Ieee.max x .nan = x := by cases x <;> rfl

theorem not_finite_nan {x : Val b32} (h : isFinite x = true) (e : x = .nan) : False := by subst e; cases h

theorem low_step {M : ℚ} {xs ys : List (Val b32)} {a x : Val b32} (h : LowEnd xs a) (hx : Plain M x) (hy : ∀ z, z ∈ ys ↔ z ∈ xs ∨ z = x) :
    LowEnd ys (Ieee.min a x) := by
  rcases hx with rfl | ⟨hx, -⟩
  · rw [min_nan]
    rcases h with ⟨rfl, h⟩ | h
    · exact .inl ⟨rfl, fun z hz => ((hy z).mp hz).elim (h z) id⟩
    · obtain ⟨z, hz, h2, h3⟩ := h.among
      exact .inr ⟨h.finite, ⟨z, (hy z).mpr (.inl hz), h2, h3⟩, fun z hz hf => ((hy z).mp hz).elim (fun h' => h.le z h' hf)
        (fun e => (not_finite_nan hf e).elim)⟩
  · right
    rcases h with ⟨rfl, h⟩ | h
    · refine ⟨hx, ⟨x, (hy x).mpr (.inr rfl), hx, rfl⟩, fun z hz hf => ?_⟩
      rcases (hy z).mp hz with h' | rfl
      · exact (not_finite_nan hf (h z h')).elim
      · exact le_refl _
    · obtain ⟨e1, e2⟩ := min_value h.finite hx
      obtain ⟨z, hz, h2, h3⟩ := h.among
      refine ⟨e1, ?_, fun w hw hf => ?_⟩
      · rcases min_choice (valueOf a) (valueOf x) with h' | h'
        · exact ⟨z, (hy z).mpr (.inl hz), h2, by rw [e2, h', h3]⟩
        · exact ⟨x, (hy x).mpr (.inr rfl), hx, by rw [e2, h']⟩
      · rw [e2]
        rcases (hy w).mp hw with h' | rfl
        · exact le_trans (min_le_left _ _) (h.le w h' hf)
        · exact min_le_right _ _

theorem high_step {M : ℚ} {xs ys : List (Val b32)} {a x : Val b32} (h : HighEnd xs a) (hx : Plain M x) (hy : ∀ z, z ∈ ys ↔ z ∈ xs ∨ z = x) :
    HighEnd ys (Ieee.max a x) := by
  rcases hx with rfl | ⟨hx, -⟩
  · rw [max_nan]
    rcases h with ⟨rfl, h⟩ | h
    · exact .inl ⟨rfl, fun z hz => ((hy z).mp hz).elim (h z) id⟩
    · obtain ⟨z, hz, h2, h3⟩ := h.among
      exact .inr ⟨h.finite, ⟨z, (hy z).mpr (.inl hz), h2, h3⟩, fun z hz hf => ((hy z).mp hz).elim (fun h' => h.ge z h' hf)
        (fun e => (not_finite_nan hf e).elim)⟩
  · right
    rcases h with ⟨rfl, h⟩ | h
    · refine ⟨hx, ⟨x, (hy x).mpr (.inr rfl), hx, rfl⟩, fun z hz hf => ?_⟩
      rcases (hy z).mp hz with h' | rfl
      · exact (not_finite_nan hf (h z h')).elim
      · exact le_refl _
    · obtain ⟨e1, e2⟩ := max_value h.finite hx
      obtain ⟨z, hz, h2, h3⟩ := h.among
      refine ⟨e1, ?_, fun w hw hf => ?_⟩
      · rcases max_choice (valueOf a) (valueOf x) with h' | h'
        · exact ⟨z, (hy z).mpr (.inl hz), h2, by rw [e2, h', h3]⟩
        · exact ⟨x, (hy x).mpr (.inr rfl), hx, by rw [e2, h']⟩
      · rw [e2]
        rcases (hy w).mp hw with h' | rfl
        · exact le_trans (h.ge w h' hf) (le_max_left _ _)
        · exact le_max_right _ _

theorem low_one {M : ℚ} {x : Val b32} (hx : Plain M x) : LowEnd [x] x := by
  rcases hx with rfl | ⟨hx, -⟩
  · exact .inl ⟨rfl, fun z hz => List.mem_singleton.mp hz⟩
  · exact .inr ⟨hx, ⟨x, List.mem_singleton_self x, hx, rfl⟩, fun z hz _ => by rw [List.mem_singleton.mp hz]⟩

theorem high_one {M : ℚ} {x : Val b32} (hx : Plain M x) : HighEnd [x] x := by
  rcases hx with rfl | ⟨hx, -⟩
  · exact .inl ⟨rfl, fun z hz => List.mem_singleton.mp hz⟩
  · exact .inr ⟨hx, ⟨x, List.mem_singleton_self x, hx, rfl⟩, fun z hz _ => by rw [List.mem_singleton.mp hz]⟩

theorem LowEnd.same {xs ys : List (Val b32)} {a : Val b32} (h : LowEnd xs a) (e : ∀ z, z ∈ ys ↔ z ∈ xs) : LowEnd ys a := by
  rcases h with ⟨h, h'⟩ | ⟨h1, ⟨x, hx, h2⟩, h3⟩
  · exact .inl ⟨h, fun z hz => h' z ((e z).mp hz)⟩
  · exact .inr ⟨h1, ⟨x, (e x).mpr hx, h2⟩, fun z hz => h3 z ((e z).mp hz)⟩

theorem HighEnd.same {xs ys : List (Val b32)} {a : Val b32} (h : HighEnd xs a) (e : ∀ z, z ∈ ys ↔ z ∈ xs) : HighEnd ys a := by
  rcases h with ⟨h, h'⟩ | ⟨h1, ⟨x, hx, h2⟩, h3⟩
  · exact .inl ⟨h, fun z hz => h' z ((e z).mp hz)⟩
  · exact .inr ⟨h1, ⟨x, (e x).mpr hx, h2⟩, fun z hz => h3 z ((e z).mp hz)⟩

theorem LowEnd.least {xs : List (Val b32)} {a x : Val b32} (h : LowEnd xs a) (hx : x ∈ xs) (hf : isFinite x = true) : Least xs a :=
  h.resolve_left fun h => not_finite_nan hf (h.2 x hx)

theorem HighEnd.greatest {xs : List (Val b32)} {a x : Val b32} (h : HighEnd xs a) (hx : x ∈ xs) (hf : isFinite x = true) : Greatest xs a :=
  h.resolve_left fun h => not_finite_nan hf (h.2 x hx)

/-- The sides of the box that take part in further steps. -/
structure Sides (v0 : Vec3 (Val b32)) (k : List (Vec3 (Val b32))) (s : VBox (Val b32)) : Prop where
  minX : LowEnd (v0.1 :: k.map fun v => v.1) s.minX
  minZ : LowEnd (v0.2.2 :: ((k.map fun v => v.2.2) ++ k.map fun v => v.2.1)) s.minZ
  maxY : HighEnd (v0.2.1 :: ((k.map fun v => v.1) ++ k.map fun v => v.2.1)) s.maxY
  maxZ : HighEnd (v0.2.2 :: k.map fun v => v.2.2) s.maxZ

theorem sides_fold {M : ℚ} {v0 : Vec3 (Val b32)} (h0 : Plain M v0.1 ∧ Plain M v0.2.1 ∧ Plain M v0.2.2) (k : List (Vec3 (Val b32))) :
    (∀ v ∈ k, Plain M v.1 ∧ Plain M v.2.1 ∧ Plain M v.2.2) →
      Sides v0 k (k.foldl boxStep ⟨v0.1, v0.1, v0.2.1, v0.2.1, v0.2.2, v0.2.2⟩) := by
  induction k using List.reverseRecOn with
  | nil => intro _; exact ⟨low_one h0.1, low_one h0.2.2, high_one h0.2.1, high_one h0.2.2⟩
  | append_singleton k v ih =>
    intro hk
    have h := ih fun w hw => hk w (List.mem_append_left _ hw)
    obtain ⟨hx, hy, hz⟩ := hk v (by simp)
    rw [List.foldl_append]
    refine ⟨low_step h.minX hx ?_, low_step (low_step h.minZ hz (ys := v0.2.2 :: ((k.map fun v => v.2.2) ++ k.map fun v => v.2.1) ++ [v.2.2]) ?_) hy ?_,
      high_step (high_step h.maxY hy (ys := v0.2.1 :: ((k.map fun v => v.1) ++ k.map fun v => v.2.1) ++ [v.2.1]) ?_) hx ?_,
      high_step h.maxZ hz ?_⟩ <;> intro z <;> simp only [List.map_append, List.map_cons, List.map_nil, List.mem_cons, List.mem_append,
        List.not_mem_nil, or_false] <;> tauto

/-- The sides of the box of such an array. -/
structure BoxSides (l : List (Vec3 (Val b32))) (s : VBox (Val b32)) : Prop where
  minX : Least (l.map fun v => v.1) s.minX
  minY : Least ((l.map fun v => v.2.2) ++ l.dropLast.map fun v => v.2.1) s.minY
  minZ : Least ((l.map fun v => v.2.2) ++ l.map fun v => v.2.1) s.minZ
  maxX : Greatest ((l.dropLast.map fun v => v.1) ++ l.map fun v => v.2.1) s.maxX
  maxY : Greatest ((l.map fun v => v.1) ++ l.map fun v => v.2.1) s.maxY
  maxZ : Greatest (l.map fun v => v.2.2) s.maxZ

theorem box_sides {lib : Libm} {M : ℚ} {l : List (Vec3 (Val b32))} {s : VBox (Val b32)} (h : Patchy M l) (hs : vertexBox (ops lib) l = .ok s) :
    BoxSides l s := by
  cases l with
  | nil => cases hs
  | cons v0 l0 =>
    have hs : (v0 :: l0).foldl boxStep ⟨v0.1, v0.1, v0.2.1, v0.2.1, v0.2.2, v0.2.2⟩ = s := Outcome.ok.inj hs
    have hv0 : v0 ∈ v0 :: l0 := List.mem_cons_self
    have h0 := h.all v0 hv0
    generalize v0 :: l0 = l at *
    obtain ⟨k, w, rfl⟩ : ∃ k w, l = k ++ [w] := ⟨_, _, (List.dropLast_append_getLast (List.ne_nil_of_mem hv0)).symm⟩
    obtain ⟨fx, fy, fz⟩ := h.last w (by simp)
    obtain ⟨hx, hy, hz⟩ := h.all w (by simp)
    have hk := sides_fold h0 k fun v hv => h.all v (List.mem_append_left _ hv)
    rw [List.foldl_append, List.foldl_cons, List.foldl_nil] at hs
    generalize k.foldl boxStep ⟨v0.1, v0.1, v0.2.1, v0.2.1, v0.2.2, v0.2.2⟩ = t at *
    subst hs
    rw [List.mem_append, List.mem_singleton] at hv0
    have m1 : v0.1 ∈ (k.map fun v => v.1) ∨ v0.1 = w.1 := hv0.imp (fun h => List.mem_map_of_mem h) (fun h => by rw [h])
    have m2 : v0.2.1 ∈ (k.map fun v => v.2.1) ∨ v0.2.1 = w.2.1 := hv0.imp (fun h => List.mem_map_of_mem h) (fun h => by rw [h])
    have m3 : v0.2.2 ∈ (k.map fun v => v.2.2) ∨ v0.2.2 = w.2.2 := hv0.imp (fun h => List.mem_map_of_mem h) (fun h => by rw [h])
    have a1 := low_step hk.minX hx (ys := (k ++ [w]).map fun v => v.1) (by
      intro z
      simp only [List.map_append, List.map_cons, List.map_nil, List.mem_cons, List.mem_append, List.not_mem_nil, or_false]
      constructor
      · rintro (h | h)
        · exact .inl (.inr h)
        · exact .inr h
      · rintro ((rfl | h) | rfl)
        · exact m1
        · exact .inl h
        · exact .inr rfl)
    have a2 := low_step hk.minZ hz (ys := ((k ++ [w]).map fun v => v.2.2) ++ (k ++ [w]).dropLast.map fun v => v.2.1) (by
      intro z
      simp only [List.map_append, List.map_cons, List.map_nil, List.mem_cons, List.mem_append, List.not_mem_nil, or_false,
        List.dropLast_concat]
      constructor
      · rintro ((h | h) | h)
        · exact .inl (.inr (.inl h))
        · exact .inr h
        · exact .inl (.inr (.inr h))
      · rintro ((rfl | h | h) | rfl)
        · exact .inl m3
        · exact .inl (.inl h)
        · exact .inr h
        · exact .inl (.inr rfl))
    have a3 := low_step a2 hy (ys := ((k ++ [w]).map fun v => v.2.2) ++ (k ++ [w]).map fun v => v.2.1) (by
      intro z
      simp only [List.map_append, List.map_cons, List.map_nil, List.mem_cons, List.mem_append, List.not_mem_nil, or_false,
        List.dropLast_concat]
      exact or_assoc.symm)
    have a4 := high_step hk.maxY hy (ys := ((k ++ [w]).dropLast.map fun v => v.1) ++ (k ++ [w]).map fun v => v.2.1) (by
      intro z
      simp only [List.map_append, List.map_cons, List.map_nil, List.mem_cons, List.mem_append, List.not_mem_nil, or_false,
        List.dropLast_concat]
      constructor
      · rintro (h | h | h)
        · exact .inl (.inr (.inl h))
        · exact .inl (.inr (.inr h))
        · exact .inr h
      · rintro ((rfl | h | h) | rfl)
        · exact .inr m2
        · exact .inl h
        · exact .inr (.inl h)
        · exact .inr (.inr rfl))
    have a5 := high_step a4 hx (ys := ((k ++ [w]).map fun v => v.1) ++ (k ++ [w]).map fun v => v.2.1) (by
      intro z
      simp only [List.map_append, List.map_cons, List.map_nil, List.mem_cons, List.mem_append, List.not_mem_nil, or_false,
        List.dropLast_concat]
      rw [or_assoc, or_right_comm, or_assoc])
    have a6 := high_step hk.maxZ hz (ys := (k ++ [w]).map fun v => v.2.2) (by
      intro z
      simp only [List.map_append, List.map_cons, List.map_nil, List.mem_cons, List.mem_append, List.not_mem_nil, or_false]
      constructor
      · rintro (h | h)
        · exact .inl (.inr h)
        · exact .inr h
      · rintro ((rfl | h) | rfl)
        · exact m3
        · exact .inl h
        · exact .inr rfl)
    exact ⟨a1.least (by simp) fx, a2.least (x := w.2.2) (by simp) fz, a3.least (x := w.2.2) (by simp) fz,
      a4.greatest (x := w.2.1) (by simp) fy, a5.greatest (x := w.1) (by simp) fx, a6.greatest (x := w.2.2) (by simp) fz⟩

theorem least_size {M : ℚ} {xs : List (Val b32)} {y : Val b32} (h : Least xs y) (hx : ∀ x ∈ xs, Plain M x) : |valueOf y| ≤ M := by
  obtain ⟨x, hm, hf, e⟩ := h.among
  rw [← e]
  exact ((hx x hm).resolve_left (not_finite_nan hf)).2

theorem greatest_size {M : ℚ} {xs : List (Val b32)} {y : Val b32} (h : Greatest xs y) (hx : ∀ x ∈ xs, Plain M x) : |valueOf y| ≤ M := by
  obtain ⟨x, hm, hf, e⟩ := h.among
  rw [← e]
  exact ((hx x hm).resolve_left (not_finite_nan hf)).2

theorem least_other {xs : List (Val b32)} {y z : Val b32} (h : Least xs y) (hz : isFinite z = true ∧ valueOf z = valueOf y) : Least xs z :=
  ⟨hz.1, by rw [hz.2]; exact h.among, by rw [hz.2]; exact h.le⟩

/-- NaN comes back as the lower end of the axis. -/
theorem coordQ_nan {p : Nat} (hp1 : 1 ≤ p) (hp : p ≤ 31) {mn mx : Val b32} {M : ℚ} (hmn : isFinite mn = true) (hmx : isFinite mx = true)
    (h1 : |valueOf mn| ≤ M) (h2 : |valueOf mx| ≤ M) (hM : M ≤ 2 ^ 120) :
    isFinite (coordQ p mn mx .nan) = true ∧ valueOf (coordQ p mn mx .nan) = valueOf mn := by
  have hP : 0 < b32.prec := by decide
  have hmx0 : (0 : ℚ) ≤ maxV b32 := le_trans (by positivity) maxV32
  have hspan := sub_value (f := b32) hP hmx hmn (by
    rw [abs_le] at h1 h2
    refine le_trans (abs_le.mpr ⟨?_, ?_⟩) maxV32 <;> linarith [show (2 : ℚ) * 2 ^ 120 ≤ 2 ^ 127 by norm_num])
  have hsz : isFinite (sizeOf mn mx) = true := (max_value hspan.1 eps_value.1).1
  have hc : toU64 (mul (div (sub .nan mn) (sizeOf mn mx)) (ofNat (2 ^ p - 1))) = 0 := by
    obtain ⟨s, n, hn, e⟩ := finite_cases hsz
    obtain ⟨s', n', hn', e'⟩ := finite_cases hmn
    rw [e, e']
    rfl
  have hm : isFinite (ofNat (2 ^ p - 1) : Val b32) = true ∧ valueOf (ofNat (2 ^ p - 1) : Val b32) ≠ 0 := by
    interval_cases p <;> decide +kernel
  have hz : isFinite (ofNat 0 : Val b32) = true ∧ valueOf (ofNat 0 : Val b32) = 0 := by
    have := ofNat_value (c := 0) (by norm_num)
    rw [Nat.cast_zero] at this
    exact this
  rw [coordQ, hc, Nat.zero_mod]
  have hd := div_value hP hz.1 hm.1 hm.2 (by rw [hz.2, zero_div, abs_zero]; exact hmx0)
  rw [hz.2, zero_div, rnd_zero hP] at hd
  have hr := mul_value hP hd.1 hspan.1 (by rw [hd.2, zero_mul, abs_zero]; exact hmx0)
  rw [hd.2, zero_mul, rnd_zero hP] at hr
  have hy := add_value hP hr.1 hmn (by rw [hr.2, zero_add]; exact abs_valueOf_le _)
  rw [hr.2, zero_add, rnd_valueOf hP] at hy
  exact hy

/-- Beside it, numbers come back within a step. -/
theorem coordQ_beside {p : Nat} (hp1 : 1 ≤ p) (hp : p ≤ 24) {x mn mx : Val b32} {M : ℚ} (hx : isFinite x = true) (hmn : isFinite mn = true)
    (hmx : isFinite mx = true) (h0 : valueOf mn ≤ valueOf x) (h1 : valueOf x ≤ valueOf mx) (hM1 : |valueOf mn| ≤ M) (hM2 : |valueOf mx| ≤ M)
    (hM : M ≤ 2 ^ 120) : Within (stepRoom p M) x (coordQ p mn mx x) := by
  obtain ⟨h, h'⟩ := coordQ_near hp1 hp hx hmn hmx h0 h1 hM1 hM2 hM
  refine ⟨h, le_trans h' ?_⟩
  have hm : (0 : ℚ) < 2 ^ p - 1 := by
    have : (2 : ℚ) ^ 1 ≤ 2 ^ p := pow_le_pow_right₀ (by norm_num) hp1
    linarith
  rw [abs_le] at hM1 hM2
  have := max_le_max_right (1 / 999999 : ℚ) (div_le_div_of_nonneg_right (show valueOf mx - valueOf mn ≤ 2 * M by linarith) hm.le)
  rw [stepRoom]
  linarith

end Tmf.Ieee
