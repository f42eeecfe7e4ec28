import Verif.Lemmas.RangeFold
/-
Vertices: the bounding box of the writer and the error of one coordinate.
-/

set_option exponentiation.threshold 2000

namespace Tmf.Ieee
open Spec

/-! ### The box -/

def boxStep (s : VBox (Val b32)) (v : Vec3 (Val b32)) : VBox (Val b32) :=
  ⟨Ieee.min s.minX v.1, Ieee.max s.maxY v.2.1, Ieee.min s.minZ v.2.2, Ieee.max (Ieee.max s.maxY v.2.1) v.1,
    Ieee.min (Ieee.min s.minZ v.2.2) v.2.1, Ieee.max s.maxZ v.2.2⟩

theorem step_ops (lib : Libm) : VBox.step (ops lib) = boxStep := rfl

/-- Finite coordinates. -/
def FiniteVec (v : Vec3 (Val b32)) : Prop := isFinite v.1 = true ∧ isFinite v.2.1 = true ∧ isFinite v.2.2 = true

structure BoxFinite (s : VBox (Val b32)) : Prop where
  minX : isFinite s.minX = true
  maxX : isFinite s.maxX = true
  minY : isFinite s.minY = true
  maxY : isFinite s.maxY = true
  minZ : isFinite s.minZ = true
  maxZ : isFinite s.maxZ = true

/-- What holds of the vertices seen so far. -/
structure BoxSeen (s : VBox (Val b32)) (v : Vec3 (Val b32)) : Prop where
  minX : valueOf s.minX ≤ valueOf v.1
  maxYx : valueOf v.1 ≤ valueOf s.maxY
  maxYy : valueOf v.2.1 ≤ valueOf s.maxY
  minZy : valueOf s.minZ ≤ valueOf v.2.1
  minZz : valueOf s.minZ ≤ valueOf v.2.2
  maxZ : valueOf v.2.2 ≤ valueOf s.maxZ

/-- The vertex lies in the box. -/
structure Inside (s : VBox (Val b32)) (v : Vec3 (Val b32)) : Prop where
  minX : valueOf s.minX ≤ valueOf v.1
  maxX : valueOf v.1 ≤ valueOf s.maxX
  minY : valueOf s.minY ≤ valueOf v.2.1
  maxY : valueOf v.2.1 ≤ valueOf s.maxY
  minZ : valueOf s.minZ ≤ valueOf v.2.2
  maxZ : valueOf v.2.2 ≤ valueOf s.maxZ

theorem boxStep_finite {s : VBox (Val b32)} {v : Vec3 (Val b32)} (hs : BoxFinite s) (hv : FiniteVec v) : BoxFinite (boxStep s v) := by
  obtain ⟨h1, h2, h3⟩ := hv
  have a := max_value hs.maxY h2
  have b := min_value hs.minZ h3
  exact ⟨(min_value hs.minX h1).1, a.1, b.1, (max_value a.1 h1).1, (min_value b.1 h2).1, (max_value hs.maxZ h3).1⟩

/-- Values after a step. -/
theorem boxStep_values {s : VBox (Val b32)} {v : Vec3 (Val b32)} (hs : BoxFinite s) (hv : FiniteVec v) :
    valueOf (boxStep s v).minX = Min.min (valueOf s.minX) (valueOf v.1) ∧
    valueOf (boxStep s v).maxX = Max.max (valueOf s.maxY) (valueOf v.2.1) ∧
    valueOf (boxStep s v).minY = Min.min (valueOf s.minZ) (valueOf v.2.2) ∧
    valueOf (boxStep s v).maxY = Max.max (Max.max (valueOf s.maxY) (valueOf v.2.1)) (valueOf v.1) ∧
    valueOf (boxStep s v).minZ = Min.min (Min.min (valueOf s.minZ) (valueOf v.2.2)) (valueOf v.2.1) ∧
    valueOf (boxStep s v).maxZ = Max.max (valueOf s.maxZ) (valueOf v.2.2) := by
  obtain ⟨h1, h2, h3⟩ := hv
  have a := max_value hs.maxY h2
  have b := min_value hs.minZ h3
  refine ⟨(min_value hs.minX h1).2, a.2, b.2, ?_, ?_, (max_value hs.maxZ h3).2⟩
  · rw [← a.2]; exact (max_value a.1 h1).2
  · rw [← b.2]; exact (min_value b.1 h2).2

theorem boxStep_seen {s : VBox (Val b32)} {v : Vec3 (Val b32)} (hs : BoxFinite s) (hv : FiniteVec v) :
    BoxSeen (boxStep s v) v ∧ ∀ w, BoxSeen s w → BoxSeen (boxStep s v) w ∧ Inside (boxStep s v) w := by
  obtain ⟨e1, e2, e3, e4, e5, e6⟩ := boxStep_values hs hv
  refine ⟨⟨?_, ?_, ?_, ?_, ?_, ?_⟩, fun w hw => ⟨⟨?_, ?_, ?_, ?_, ?_, ?_⟩, ⟨?_, ?_, ?_, ?_, ?_, ?_⟩⟩⟩
  all_goals first | rw [e1] | rw [e2] | rw [e3] | rw [e4] | rw [e5] | rw [e6]
  · exact min_le_right _ _
  · exact le_max_right _ _
  · exact le_max_of_le_left (le_max_right _ _)
  · exact min_le_right _ _
  · exact min_le_of_left_le (min_le_right _ _)
  · exact le_max_right _ _
  · exact min_le_of_left_le hw.minX
  · exact le_max_of_le_left (le_max_of_le_left hw.maxYx)
  · exact le_max_of_le_left (le_max_of_le_left hw.maxYy)
  · exact min_le_of_left_le (min_le_of_left_le hw.minZy)
  · exact min_le_of_left_le (min_le_of_left_le hw.minZz)
  · exact le_max_of_le_left hw.maxZ
  · exact min_le_of_left_le hw.minX
  · exact le_max_of_le_left hw.maxYx
  · exact min_le_of_left_le hw.minZy
  · exact le_max_of_le_left (le_max_of_le_left hw.maxYy)
  · exact min_le_of_left_le (min_le_of_left_le hw.minZz)
  · exact le_max_of_le_left hw.maxZ

theorem fold_seen {l : List (Vec3 (Val b32))} (hl : ∀ v ∈ l, FiniteVec v) {s : VBox (Val b32)} (hs : BoxFinite s) :
    BoxFinite (l.foldl boxStep s) ∧ (∀ w, BoxSeen s w → BoxSeen (l.foldl boxStep s) w) ∧
      ∀ w ∈ l, BoxSeen (l.foldl boxStep s) w := by
  induction l generalizing s with
  | nil => exact ⟨hs, fun _ h => h, by simp⟩
  | cons v l ih =>
    have hv := hl v List.mem_cons_self
    have hst := boxStep_seen hs hv
    obtain ⟨h1, h2, h3⟩ := ih (fun x hx => hl x (List.mem_cons_of_mem _ hx)) (boxStep_finite hs hv)
    simp only [List.foldl_cons]
    refine ⟨h1, fun w hw => h2 w (hst.2 w hw).1, fun w hw => ?_⟩
    rcases List.mem_cons.mp hw with rfl | hw
    · exact h2 _ hst.1
    · exact h3 w hw

/-- Bounds of the box. -/
theorem fold_bounds {l : List (Vec3 (Val b32))} (hl : ∀ v ∈ l, FiniteVec v) {s : VBox (Val b32)} (hs : BoxFinite s) :
    (∀ lo, lo ≤ valueOf s.minX → (∀ v ∈ l, lo ≤ valueOf v.1) → lo ≤ valueOf (l.foldl boxStep s).minX) ∧
    (∀ hi, valueOf s.maxX ≤ hi → valueOf s.maxY ≤ hi → (∀ v ∈ l, valueOf v.1 ≤ hi ∧ valueOf v.2.1 ≤ hi) →
      valueOf (l.foldl boxStep s).maxX ≤ hi ∧ valueOf (l.foldl boxStep s).maxY ≤ hi) ∧
    (∀ lo, lo ≤ valueOf s.minY → lo ≤ valueOf s.minZ → (∀ v ∈ l, lo ≤ valueOf v.2.1 ∧ lo ≤ valueOf v.2.2) →
      lo ≤ valueOf (l.foldl boxStep s).minY ∧ lo ≤ valueOf (l.foldl boxStep s).minZ) ∧
    (∀ hi, valueOf s.maxZ ≤ hi → (∀ v ∈ l, valueOf v.2.2 ≤ hi) → valueOf (l.foldl boxStep s).maxZ ≤ hi) := by
  induction l generalizing s with
  | nil => exact ⟨fun _ h _ => h, fun _ h h' _ => ⟨h, h'⟩, fun _ h h' _ => ⟨h, h'⟩, fun _ h _ => h⟩
  | cons v l ih =>
    have hv := hl v List.mem_cons_self
    obtain ⟨e1, e2, e3, e4, e5, e6⟩ := boxStep_values hs hv
    obtain ⟨i1, i2, i3, i4⟩ := ih (fun x hx => hl x (List.mem_cons_of_mem _ hx)) (boxStep_finite hs hv)
    simp only [List.foldl_cons]
    refine ⟨fun lo h ha => i1 lo ?_ (fun x hx => ha x (List.mem_cons_of_mem _ hx)),
      fun hi h h' ha => i2 hi ?_ ?_ (fun x hx => ha x (List.mem_cons_of_mem _ hx)),
      fun lo h h' ha => i3 lo ?_ ?_ (fun x hx => ha x (List.mem_cons_of_mem _ hx)),
      fun hi h ha => i4 hi ?_ (fun x hx => ha x (List.mem_cons_of_mem _ hx))⟩
    · rw [e1]; exact le_min h (ha v List.mem_cons_self)
    · rw [e2]; exact max_le h' (ha v List.mem_cons_self).2
    · rw [e4]; exact max_le (max_le h' (ha v List.mem_cons_self).2) (ha v List.mem_cons_self).1
    · rw [e3]; exact le_min h' (ha v List.mem_cons_self).2
    · rw [e5]; exact le_min (le_min h' (ha v List.mem_cons_self).2) (ha v List.mem_cons_self).1
    · rw [e6]; exact max_le h (ha v List.mem_cons_self)

/-- The box of an array: finite; it contains every vertex but possibly the last; and its sides. -/
theorem vertexBox_spec (lib : Libm) {l : List (Vec3 (Val b32))} {s : VBox (Val b32)} (h : vertexBox (ops lib) l = .ok s)
    (hl : ∀ v ∈ l, FiniteVec v) :
    BoxFinite s ∧ (∀ v ∈ l.dropLast, Inside s v) ∧
    (∀ v ∈ l, valueOf s.minX ≤ valueOf v.1 ∧ valueOf v.2.1 ≤ valueOf s.maxY ∧ valueOf s.minZ ≤ valueOf v.2.2 ∧
      valueOf v.2.2 ≤ valueOf s.maxZ) ∧
    (∀ lo, (∀ v ∈ l, lo ≤ valueOf v.1) → lo ≤ valueOf s.minX) ∧
    (∀ hi, (∀ v ∈ l, valueOf v.1 ≤ hi ∧ valueOf v.2.1 ≤ hi) → valueOf s.maxX ≤ hi ∧ valueOf s.maxY ≤ hi) ∧
    (∀ lo, (∀ v ∈ l, lo ≤ valueOf v.2.1 ∧ lo ≤ valueOf v.2.2) → lo ≤ valueOf s.minY ∧ lo ≤ valueOf s.minZ) ∧
    (∀ hi, (∀ v ∈ l, valueOf v.2.2 ≤ hi) → valueOf s.maxZ ≤ hi) := by
  cases l with
  | nil => cases h
  | cons v0 rest =>
    rw [vertexBox, step_ops lib] at h
    have h := Outcome.ok.inj h
    obtain ⟨f1, f2, f3⟩ := hl v0 List.mem_cons_self
    have hs0 : BoxFinite (⟨v0.1, v0.1, v0.2.1, v0.2.1, v0.2.2, v0.2.2⟩ : VBox (Val b32)) := ⟨f1, f1, f2, f2, f3, f3⟩
    obtain ⟨g1, g2, g3⟩ := fold_seen hl hs0
    obtain ⟨b1, b2, b3, b4⟩ := fold_bounds hl hs0
    have hmem0 : v0 ∈ v0 :: rest := List.mem_cons_self
    have hin : ∀ v ∈ (v0 :: rest).dropLast, Inside ((v0 :: rest).foldl boxStep ⟨v0.1, v0.1, v0.2.1, v0.2.1, v0.2.2, v0.2.2⟩) v := by
      have hne : v0 :: rest ≠ [] := by simp
      intro v hv
      have hsplit := List.dropLast_append_getLast hne
      have hfin : ∀ w ∈ (v0 :: rest).dropLast, FiniteVec w := fun w hw => hl w (List.dropLast_subset _ hw)
      obtain ⟨k1, _, k3⟩ := fold_seen hfin hs0
      have hlast := boxStep_seen k1 (hl _ (List.getLast_mem hne))
      have e : (v0 :: rest).foldl boxStep ⟨v0.1, v0.1, v0.2.1, v0.2.1, v0.2.2, v0.2.2⟩ =
          boxStep ((v0 :: rest).dropLast.foldl boxStep ⟨v0.1, v0.1, v0.2.1, v0.2.1, v0.2.2, v0.2.2⟩)
            ((v0 :: rest).getLast hne) := by
        conv_lhs => rw [← hsplit]
        rw [List.foldl_append]
        rfl
      rw [e]
      exact (hlast.2 v (k3 v hv)).2
    rw [← h]
    refine ⟨g1, hin, fun v hv => ⟨(g3 v hv).minX, (g3 v hv).maxYy, (g3 v hv).minZz, (g3 v hv).maxZ⟩,
      fun lo ha => b1 lo (ha v0 hmem0) ha, fun hi ha => b2 hi (ha v0 hmem0).1 (ha v0 hmem0).2 ha,
      fun lo ha => b3 lo (ha v0 hmem0).1 (ha v0 hmem0).2 ha, fun hi ha => b4 hi (ha v0 hmem0) ha⟩

/-! ### One coordinate -/

theorem code_le_mask {p : Nat} (hp1 : 1 ≤ p) (hp : p ≤ 24) {t size : Val b32} (ht : isFinite t = true)
    (hsz : isFinite size = true) (h0 : 0 ≤ valueOf t) (hspos : 0 < valueOf size) (hts : valueOf t ≤ valueOf size) :
    toU64 (mul (div t size) (ofNat (2 ^ p - 1))) ≤ 2 ^ p - 1 := by
  have hP : 0 < b32.prec := by decide
  have hm24 : 2 ^ p - 1 ≤ 2 ^ 24 := by
    have : 2 ^ p ≤ 2 ^ 24 := Nat.pow_le_pow_right (by omega) hp
    omega
  have hmc : ((2 ^ p - 1 : Nat) : ℚ) = 2 ^ p - 1 := by
    rw [Nat.cast_sub Nat.one_le_two_pow]; push_cast; rfl
  have hm1 : (1 : ℚ) ≤ 2 ^ p - 1 := by
    have : (2 : ℚ) ^ 1 ≤ 2 ^ p := pow_le_pow_right₀ (by norm_num) hp1
    linarith
  have hm2 : (2 : ℚ) ^ p - 1 ≤ 2 ^ 24 := by rw [← hmc]; exact_mod_cast hm24
  have hmax := maxV32
  have hq1 : valueOf t / valueOf size ≤ 1 := (div_le_one hspos).mpr hts
  have hq0 : 0 ≤ valueOf t / valueOf size := div_nonneg h0 hspos.le
  have hmx1 : (1 : ℚ) ≤ maxV b32 := le_trans (by norm_num) hmax
  have hq := div_value hP ht hsz hspos.ne' (by rw [abs_of_nonneg hq0]; linarith)
  have hone := ofNat_value (c := 1) (by norm_num)
  have hqle : valueOf (div t size) ≤ 1 := by
    rw [hq.2, ← Nat.cast_one (R := ℚ), ← hone.2]
    exact rnd_le_valueOf hP (by rw [hone.2, Nat.cast_one]; exact hq1)
  have hqnn : 0 ≤ valueOf (div t size) := by rw [hq.2]; exact rnd_nonneg hq0
  have hmv := ofNat_value hm24
  have hwm : valueOf (div t size) * valueOf (ofNat (2 ^ p - 1) : Val b32) ≤ valueOf (ofNat (2 ^ p - 1) : Val b32) := by
    rw [hmv.2, hmc]; nlinarith
  have hw0 : 0 ≤ valueOf (div t size) * valueOf (ofNat (2 ^ p - 1) : Val b32) := by
    rw [hmv.2]; positivity
  have hw := mul_value hP hq.1 hmv.1 (by
    rw [abs_of_nonneg hw0]
    refine le_trans hwm ?_
    rw [hmv.2, hmc]
    exact le_trans hm2 (le_trans (by norm_num) hmax))
  have hwle : valueOf (mul (div t size) (ofNat (2 ^ p - 1))) ≤ ((2 ^ p - 1 : Nat) : ℚ) := by
    rw [hw.2, ← hmv.2]
    exact rnd_le_valueOf hP hwm
  have hwnn : 0 ≤ valueOf (mul (div t size) (ofNat (2 ^ p - 1))) := by rw [hw.2]; exact rnd_nonneg hw0
  obtain ⟨hc1, _⟩ := toU64_value hw.1 hwnn (lt_of_le_of_lt (le_trans hwle (le_of_eq_of_le hmc hm2)) (by norm_num))
  have := le_trans hc1 hwle
  exact_mod_cast this

/-- The size used by the writer. -/
def sizeOf (mn mx : Val b32) : Val b32 := Ieee.max (sub mx mn) (lit 1 6)

/-- A coordinate written and read back. -/
def coordQ (p : Nat) (mn mx x : Val b32) : Val b32 :=
  add (mul (div (ofNat (toU64 (mul (div (sub x mn) (sizeOf mn mx)) (ofNat (2 ^ p - 1))) % 2 ^ p)) (ofNat (2 ^ p - 1)))
    (sub mx mn)) mn

theorem eps_value : isFinite (lit 1 6 : Val b32) = true ∧ 0 < valueOf (lit 1 6 : Val b32) ∧
    valueOf (lit 1 6 : Val b32) < 1 / 999999 := by
  have h := rounded_value (f := b32) (by decide) false (num := 1 * 2 ^ b32.scale) (den := 10 ^ 6) (v := 1 / 10 ^ 6) (by norm_num)
    (by
      simp only [sgn, Bool.false_eq_true, if_false, one_mul]
      rw [show b32.scale = 149 from rfl, Nat.cast_pow, Nat.cast_pow]
      norm_num)
    (le_trans (by rw [abs_of_nonneg (by norm_num)]; norm_num) maxV32)
  have he := rnd32_error (1 / 10 ^ 6)
  refine ⟨h.1, ?_, ?_⟩
  · show 0 < valueOf (rounded false (1 * 2 ^ b32.scale) (10 ^ 6) : Val b32)
    rw [h.2]
    rw [abs_le] at he
    have : |(1 : ℚ) / 10 ^ 6| = 1 / 10 ^ 6 := abs_of_nonneg (by norm_num)
    rw [this] at he
    linarith [show (1 : ℚ) / 2 ^ 24 * (1 / 10 ^ 6) + 1 / 2 ^ 150 < 1 / 10 ^ 6 by norm_num]
  · show valueOf (rounded false (1 * 2 ^ b32.scale) (10 ^ 6) : Val b32) < 1 / 999999
    rw [h.2]
    rw [abs_le] at he
    have : |(1 : ℚ) / 10 ^ 6| = 1 / 10 ^ 6 := abs_of_nonneg (by norm_num)
    rw [this] at he
    linarith [show (1 : ℚ) / 10 ^ 6 + (1 / 2 ^ 24 * (1 / 10 ^ 6) + 1 / 2 ^ 150) < 1 / 999999 by norm_num]

/-- A coordinate in the box comes back within a step of the box, or a millionth, plus rounding. -/
theorem coordQ_near {p : Nat} (hp1 : 1 ≤ p) (hp : p ≤ 24) {x mn mx : Val b32} {M : ℚ} (hx : isFinite x = true)
    (hmn : isFinite mn = true) (hmx : isFinite mx = true) (h0 : valueOf mn ≤ valueOf x) (h1 : valueOf x ≤ valueOf mx)
    (hM1 : |valueOf mn| ≤ M) (hM2 : |valueOf mx| ≤ M) (hM : M ≤ 2 ^ 120) :
    isFinite (coordQ p mn mx x) = true ∧
    |valueOf (coordQ p mn mx x) - valueOf x| ≤
      Max.max ((valueOf mx - valueOf mn) / (2 ^ p - 1)) (1 / 999999) + M / 2 ^ 19 + 1 / 2 ^ 148 := by
  have hP : 0 < b32.prec := by decide
  have hM0 : 0 ≤ M := le_trans (abs_nonneg _) hM1
  have hS0 : 0 ≤ valueOf mx - valueOf mn := by linarith
  have hSM : valueOf mx - valueOf mn ≤ 2 * M := by rw [abs_le] at hM1 hM2; linarith
  have hS127 : valueOf mx - valueOf mn ≤ 2 ^ 127 := by linarith [show (2 : ℚ) * 2 ^ 120 ≤ 2 ^ 127 by norm_num]
  have hspan := sub_value (f := b32) hP hmx hmn (by rw [abs_of_nonneg hS0]; exact le_trans hS127 maxV32)
  obtain ⟨heps, heps0, heps1⟩ := eps_value
  have hszv := max_value hspan.1 heps
  rcases le_or_gt (valueOf (lit 1 6 : Val b32)) (valueOf (sub mx mn)) with hc | hc
  · have hsz : valueOf (sizeOf mn mx) = rnd b32 (valueOf mx - valueOf mn) := by
      rw [sizeOf, hszv.2, max_eq_left hc, hspan.2]
    have hlt : valueOf mn < valueOf mx := by
      by_contra hle
      have : valueOf mx - valueOf mn = 0 := by linarith
      rw [hspan.2, this, rnd_zero hP] at hc
      linarith
    have := coord_near hp1 hp hx hmn hmx hszv.1 hsz h0 h1 hlt hM1 hM2 hM
    refine ⟨this.1, le_trans this.2 ?_⟩
    have := le_max_left ((valueOf mx - valueOf mn) / (2 ^ p - 1)) (1 / 999999)
    show _ ≤ _
    linarith
  · have hsz : valueOf (sizeOf mn mx) = valueOf (lit 1 6 : Val b32) := by rw [sizeOf, hszv.2, max_eq_right hc.le]
    have hX0 : 0 ≤ valueOf x - valueOf mn := by linarith
    have ht := sub_value (f := b32) hP hx hmn (by
      rw [abs_of_nonneg hX0]; exact le_trans (by linarith) (le_trans hS127 maxV32))
    have hts : valueOf (sub x mn) ≤ valueOf (sizeOf mn mx) := by
      rw [hsz]
      refine le_trans ?_ hc.le
      rw [ht.2, hspan.2]
      exact rnd_mono hP (by linarith)
    have hcode := code_le_mask hp1 hp ht.1 hszv.1 (by rw [ht.2]; exact rnd_nonneg hX0)
      (by show 0 < valueOf (sizeOf mn mx); rw [hsz]; exact heps0) hts
    have hS1 : valueOf mx - valueOf mn < 1 / 999999 := by
      by_contra hcon
      push Not at hcon
      have := valueOf_le_rnd hP (x := (lit 1 6 : Val b32)) (v := valueOf mx - valueOf mn) (by linarith)
      rw [← hspan.2] at this
      linarith
    rw [coordQ]
    change toU64 (mul (div (sub x mn) (sizeOf mn mx)) (ofNat (2 ^ p - 1))) ≤ 2 ^ p - 1 at hcode
    generalize toU64 (mul (div (sub x mn) (sizeOf mn mx)) (ofNat (2 ^ p - 1))) = c at *
    have hpow : 1 ≤ 2 ^ p := Nat.one_le_two_pow
    rw [Nat.mod_eq_of_lt (show c < 2 ^ p by omega)]
    obtain ⟨hD0, hD1⟩ := frac_bounds hp1 hcode
    have hm24 : 2 ^ p - 1 ≤ 2 ^ 24 := by
      have : 2 ^ p ≤ 2 ^ 24 := Nat.pow_le_pow_right (by omega) hp
      omega
    have hmc : ((2 ^ p - 1 : Nat) : ℚ) = 2 ^ p - 1 := by
      rw [Nat.cast_sub Nat.one_le_two_pow]; push_cast; rfl
    have hm1 : (1 : ℚ) ≤ 2 ^ p - 1 := by
      have : (2 : ℚ) ^ 1 ≤ 2 ^ p := pow_le_pow_right₀ (by norm_num) hp1
      linarith
    have hcv := ofNat_value (c := c) (by omega)
    have hmv := ofNat_value hm24
    obtain ⟨hf, he⟩ := decode_value (f := b32) hP (u := 1 / 2 ^ 24) (η := 1 / 2 ^ 150) (D := (c : ℚ) / (2 ^ p - 1)) (M := M)
      rfl (by norm_num) rfl (by norm_num) (o := ofNat 1) (by rw [(ofNat_value (c := 1) (by norm_num)).2, Nat.cast_one])
      hcv.1 hmv.1 (by rw [hmv.2, hmc]; linarith) (by rw [hcv.2, hmv.2, hmc]) hD0 hD1 hmn hmx (by linarith) hM1 hM2
      (le_trans (by linarith [show (8 : ℚ) * 2 ^ 120 + 8 ≤ 2 ^ 127 by norm_num]) maxV32)
    refine ⟨hf, ?_⟩
    generalize (c : ℚ) / (2 ^ p - 1) = D at *
    generalize valueOf (add (mul (div (ofNat c) (ofNat (2 ^ p - 1))) (sub mx mn)) mn : Val b32) = y at *
    have hmid : |D * (valueOf mx - valueOf mn) + valueOf mn - valueOf x| ≤ 1 / 999999 := by
      rw [abs_le]
      constructor <;> nlinarith
    have h5 := abs_add_le (y - (D * (valueOf mx - valueOf mn) + valueOf mn)) (D * (valueOf mx - valueOf mn) + valueOf mn - valueOf x)
    rw [sub_add_sub_cancel] at h5
    have h6 := le_max_right ((valueOf mx - valueOf mn) / (2 ^ p - 1)) (1 / 999999)
    have e1 : (15 : ℚ) * (1 / 2 ^ 24) * M ≤ M / 2 ^ 19 := by
      rw [mul_comm, ← mul_div_assoc]; nlinarith
    have e3 : (3 : ℚ) * (1 / 2 ^ 150) ≤ 1 / 2 ^ 148 := by norm_num
    linarith

end Tmf.Ieee
