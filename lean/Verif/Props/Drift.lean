import Verif.Lemmas.DriftBound
import Verif.Lemmas.Nearest
import Verif.Props.Defaults
/-
C92: normals that are saved and loaded again and again.
-/

set_option exponentiation.threshold 2000

namespace Tmf.Props
open Spec Ieee Geometry

variable {lib : Libm}

/-! ### Nine cycles -/

/-- The angle of row `i`, in units. -/
def tM (i : Nat) : Nat := [12139252, 12035498, 11931743, 11827989, 11724235, 11620481, 11516726, 11412972, 11309218, 11205464].getD i 0
@[inherit_doc tM]
def tU (i : Nat) : Nat := tM i * 2 ^ 126
/-- The sine of the angle of row `i`, in units. -/
def sM (i : Nat) : Nat := [16649051, 16622178, 16592762, 16560808, 16526321, 16489305, 16449766, 16407712, 16363147, 16316080].getD i 0
@[inherit_doc sM]
def sU (i : Nat) : Nat := sM i * 2 ^ 125
/-- The cosine of the angle of row `i`, in units. -/
def cM (i : Nat) : Nat := [16558389, 18204462, 19847768, 21488020, 23124986, 24758414, 26388070, 28013674, 29634992, 31251778].getD i 0
@[inherit_doc cM]
def cU (i : Nat) : Nat := cM i * 2 ^ 122
/-- The x of row `i`, in units. -/
def xM (i : Nat) : Nat := [15069072, 15044749, 15018125, 14989203, 14957989, 14924485, 14888699, 14850636, 14810300, 14767699].getD i 0
@[inherit_doc xM]
def xU (i : Nat) : Nat := xM i * 2 ^ 125
/-- The y of row `i`, in units. -/
def yM (i : Nat) : Nat := [14987013, 16476876, 17964234, 19448828, 20930446, 22408864, 23883868, 25355202, 26822660, 28286014].getD i 0
@[inherit_doc yM]
def yU (i : Nat) : Nat := yM i * 2 ^ 122
/-- The quotient of row `i`, in units. -/
def qM (i : Nat) : Nat := [16649051, 16622178, 16592761, 16560808, 16526320, 16489304, 16449766, 16407711, 16363147, 16316080].getD i 0
@[inherit_doc qM]
def qU (i : Nat) : Nat := qM i * 2 ^ 125
/-- The arcsine of the quotient of row `i`, in units. -/
def aM (i : Nat) : Nat := [12139251, 12035497, 11931739, 11827988, 11724233, 11620478, 11516725, 11412970, 11309217, 11205465].getD i 0
@[inherit_doc aM]
def aU (i : Nat) : Nat := aM i * 2 ^ 126
/-- The height, 54 steps of 127. -/
def zU : Nat := 14267239 * 2 ^ 124

/-- The normal of row `i`: height 54, angle `117 - i` steps of 127. -/
def driftRow (i : Nat) : Vec3 (Val b32) := (pack false (xU i), pack false (yU i), pack false zU)

theorem half_way {m : Nat} (e d : Nat) : ((m * 2 ^ e : Nat) : ℚ) / 2 ^ (e + d) = m / 2 ^ d := by
  push_cast
  rw [pow_add, mul_comm, mul_div_mul_left _ _ (by positivity)]

theorem drift_sines : ∀ i < 10, ((tM i : ℚ) / 2 ^ 23 ≤ 2) ∧ (sM i : ℚ) / 2 ^ 24 - sineQ ((tM i : ℚ) / 2 ^ 23) + 1 / 10 ^ 13 < 1 / 2 ^ 25 ∧
    sineQ ((tM i : ℚ) / 2 ^ 23) - (sM i : ℚ) / 2 ^ 24 + 1 / 10 ^ 13 < 1 / 2 ^ 25 := by
  intro i hi
  interval_cases i <;> norm_num [tM, sM, sineQ]

theorem drift_cosines : ∀ i < 10, (cM i : ℚ) / 2 ^ 27 - cosineQ ((tM i : ℚ) / 2 ^ 23) + 1 / 10 ^ 13 < 1 / 2 ^ (if i = 0 then 28 else 27) ∧
    cosineQ ((tM i : ℚ) / 2 ^ 23) - (cM i : ℚ) / 2 ^ 27 + 1 / 10 ^ 13 < 1 / 2 ^ (if i = 0 then 28 else 27) := by
  intro i hi
  interval_cases i <;> norm_num [tM, cM, cosineQ]

theorem drift_arcs : ∀ i < 9, (aM i : ℚ) / 2 ^ 23 + 1 / 2 ^ 24 ≤ 1.57 ∧ sineQ ((aM i : ℚ) / 2 ^ 23 - 1 / 2 ^ 24) + 1 / 10 ^ 13 < (qM i : ℚ) / 2 ^ 24 ∧
    (qM i : ℚ) / 2 ^ 24 < sineQ ((aM i : ℚ) / 2 ^ 23 + 1 / 2 ^ 24) - 1 / 10 ^ 13 := by
  intro i hi
  interval_cases i <;> norm_num [qM, aM, sineQ]

theorem drift_grid : ∀ i < 10, b32.Rep (tU i) ∧ b32.Rep (sU i) ∧ 2 ^ (125 + 23) < sU i ∧ sU i % 2 ^ 125 = 0 ∧
    b32.Rep (cU i) ∧ 2 ^ ((if i = 0 then 122 else 123) + 23) < cU i ∧ cU i % 2 ^ (if i = 0 then 122 else 123) = 0 ∧
    b32.Rep (qU i) ∧ qU i ≤ 2 ^ 149 ∧ b32.Rep (aU i) ∧ 2 ^ (126 + 23) < aU i ∧ aU i % 2 ^ 126 = 0 := by decide +kernel

theorem drift_sine {i : Nat} (hi : i < 10) : SineIs (tU i) (sU i) 125 := by
  obtain ⟨g1, g2, g3, g4, -⟩ := drift_grid i hi
  obtain ⟨h1, h2, h3⟩ := drift_sines i hi
  have ht : (tU i : ℚ) / 2 ^ 149 = (tM i : ℚ) / 2 ^ 23 := half_way 126 23
  have hs : (sU i : ℚ) / 2 ^ 149 = (sM i : ℚ) / 2 ^ 24 := half_way 125 24
  refine ⟨g1, by rw [ht]; exact h1, g2, g3, g4, ?_⟩
  rw [hs, ht, show (2 : ℚ) ^ 125 / 2 ^ 150 = 1 / 2 ^ 25 by norm_num, ← lt_sub_iff_add_lt, abs_lt]
  constructor <;> linarith

theorem drift_cosine {i : Nat} (hi : i < 10) : CosineIs (tU i) (cU i) (if i = 0 then 122 else 123) := by
  obtain ⟨g1, -, -, -, g2, g3, g4, -⟩ := drift_grid i hi
  obtain ⟨h1, -⟩ := drift_sines i hi
  obtain ⟨h2, h3⟩ := drift_cosines i hi
  have ht : (tU i : ℚ) / 2 ^ 149 = (tM i : ℚ) / 2 ^ 23 := half_way 126 23
  have hs : (cU i : ℚ) / 2 ^ 149 = (cM i : ℚ) / 2 ^ 27 := half_way 122 27
  refine ⟨g1, by rw [ht]; exact h1, g2, g3, g4, ?_⟩
  have hw : (2 : ℚ) ^ (if i = 0 then 122 else 123) / 2 ^ 150 = 1 / 2 ^ (if i = 0 then 28 else 27) := by split <;> norm_num
  rw [hs, ht, hw, ← lt_sub_iff_add_lt, abs_lt]
  constructor <;> linarith

theorem drift_arcsine {i : Nat} (hi : i < 9) : ArcsineIs (qU i) (aU i) 126 := by
  obtain ⟨-, -, -, -, -, -, -, g1, g2, g3, g4, g5⟩ := drift_grid i (by omega)
  obtain ⟨h1, h2, h3⟩ := drift_arcs i hi
  have hq : (qU i : ℚ) / 2 ^ 149 = (qM i : ℚ) / 2 ^ 24 := half_way 125 24
  have ha : (aU i : ℚ) / 2 ^ 149 = (aM i : ℚ) / 2 ^ 23 := half_way 126 23
  have hh : (2 : ℚ) ^ 126 / 2 / 2 ^ 149 = 1 / 2 ^ 24 := by norm_num
  refine ⟨g1, g2, g3, g4, g5, ?_, ?_, ?_⟩
  · rw [add_div, ha, hh]; exact h1
  · rw [sub_div, ha, hh, hq]; exact h2
  · rw [add_div, ha, hh, hq]; exact h3

/-- The square of x of row `i`, in units. -/
def xxU (i : Nat) : Nat := ([443509637120, 442079051776, 440515788800, 438820700160, 436994998272, 435039567872, 432955785216, 430744895488, 428408176640, 425947136000].getD i 0) * 2 ^ 110
/-- The square of y of row `i`, in units. -/
def yyU (i : Nat) : Nat := ([6854570496, 8285139456, 9848440832, 11543484416, 13369249792, 15324620800, 17408421888, 19619332096, 21956026368, 24417071104].getD i 0) * 2 ^ 110
/-- The sum of the squares of row `i`, in units. -/
def wwU (i : Nat) : Nat := ([450364211200, 450364178432, 450364243968, 450364178432, 450364243968, 450364178432, 450364211200, 450364243968, 450364211200, 450364211200].getD i 0) * 2 ^ 110
/-- The root of the sum of row `i`, in units. -/
def ggU (i : Nat) : Nat := ([497584504832, 497584504832, 497584537600, 497584504832, 497584537600, 497584504832, 497584504832, 497584537600, 497584504832, 497584504832].getD i 0) * 2 ^ 110
/-- The fraction of a quarter turn of row `i`, in units. -/
def ffU (i : Nat) : Nat := ([506467909632, 502139125760, 497810210816, 493481558016, 489152741376, 484823924736, 480495173632, 476166356992, 471837638656, 467508953088].getD i 0) * 2 ^ 110
/-- The fraction after storing of row `i`, in units. -/
def uuU (i : Nat) : Nat := ([502139158528, 497810374656, 493481590784, 489152806912, 484824023040, 480495239168, 476166455296, 471837671424, 467508887552, 467508887552].getD i 0) * 2 ^ 110
/-- The square root of one less the square of the height, in units. -/
def rU : Nat := 497584504832 * 2 ^ 110

theorem drift_squares : ∀ i < 9, mul (Ieee.abs (pack false (xU i))) (Ieee.abs (pack false (xU i))) = (pack false (xxU i) : Val b32) ∧
    mul (Ieee.abs (pack false (yU i))) (Ieee.abs (pack false (yU i))) = (pack false (yyU i) : Val b32) ∧
    add (pack false (xxU i)) (pack false (yyU i)) = (pack false (wwU i) : Val b32) := by decide +kernel

theorem drift_roots : ∀ i < 9, sqrt (pack false (wwU i)) = (pack false (ggU i) : Val b32) := by decide +kernel

theorem drift_quotients : ∀ i < 9, div (Ieee.abs (pack false (xU i))) (pack false (ggU i)) = (pack false (qU i) : Val b32) ∧
    div (pack false (aU i)) halfPi32 = (pack false (ffU i) : Val b32) := by decide +kernel

theorem drift_stored : ∀ i < 9, unitQ 7 (pack false (ffU i)) = (pack false (uuU i) : Val b32) ∧
    mul (pack false (uuU i)) halfPi32 = (pack false (tU (i + 1)) : Val b32) := by decide +kernel

theorem drift_products : ∀ i < 9, mul (pack false (sU (i + 1))) (pack false rU) = (pack false (xU (i + 1)) : Val b32) ∧
    mul (pack false (cU (i + 1))) (pack false rU) = (pack false (yU (i + 1)) : Val b32) ∧
    lt (pack false (xU i)) (lit 0 0 : Val b32) = false ∧ lt (pack false (yU i)) (lit 0 0 : Val b32) = false := by decide +kernel

theorem drift_height : unitQ 7 (Ieee.abs (pack false zU)) = pack false zU ∧ lt (pack false zU) (lit 0 0 : Val b32) = false ∧
    magQ (pack false zU) = (pack false rU : Val b32) := by decide +kernel

theorem drift_step (hlib : CorrectLibm lib) {i : Nat} (hi : i < 9) : quantNormal (ops lib) 7 (driftRow i) = driftRow (i + 1) := by
  obtain ⟨a1, a2, a3⟩ := drift_squares i hi
  have a4 := drift_roots i hi
  obtain ⟨a5, a6⟩ := drift_quotients i hi
  obtain ⟨a7, a8⟩ := drift_stored i hi
  obtain ⟨a9, a10, a11, a12⟩ := drift_products i hi
  obtain ⟨h1, h2, h3⟩ := drift_height
  have ha := arcsine_is hlib (drift_arcsine hi)
  have hm : magXY (driftRow i) = pack false (ggU i) := by
    rw [magXY, show (driftRow i).1 = pack false (xU i) from rfl, show (driftRow i).2.1 = pack false (yU i) from rfl, a1, a2, a3, a4]
  rw [quantNormal_eq lib (by decide), angleQ, angleFrac, hm]
  rw [show (driftRow i).1 = pack false (xU i) from rfl, show (driftRow i).2.1 = pack false (yU i) from rfl,
    show (driftRow i).2.2 = pack false zU from rfl, a5, ha, a6, a7, a8, sine_is hlib (drift_sine (i := i + 1) (by omega)),
    cosine_is hlib (drift_cosine (i := i + 1) (by omega)), h1, h3, a9, a10, a11, a12, h2, driftRow]
  simp only [setSign, Bool.false_eq_true, if_false]

theorem drift_cycle (hlib : CorrectLibm lib) {b : Build} {i : Nat} (hi : i < 9) : NormalCycle (ops lib) b 7 [driftRow i] [driftRow (i + 1)] := by
  obtain ⟨bytes, hs, hr⟩ := readNormals_saved (fo := ops lib) (b := b) (l := [driftRow i]) (p := 7) (by decide) (.inr (by decide))
    (by show 1 ≤ 2 ^ 31; decide)
  have := hr []
  rw [List.append_nil, List.map_cons, List.map_nil, drift_step hlib hi] at this
  exact ⟨bytes, hs, this⟩

theorem drift_cycles (hlib : CorrectLibm lib) {b : Build} : ∀ k i, i + k ≤ 9 → NormalCycles (ops lib) b 7 k [driftRow i] [driftRow (i + k)]
  | 0, _, _ => .none _
  | k + 1, i, h => .more (drift_cycle hlib (by omega)) (by
      have := drift_cycles hlib (b := b) k (i + 1) (by omega)
      rwa [show i + 1 + k = i + (k + 1) by omega] at this)

theorem drift_reps : b32.Rep (xU 0) ∧ b32.Rep (yU 0) ∧ b32.Rep zU ∧ b32.Rep (xU 9) ∧ b32.Rep (yU 9) := by decide +kernel

theorem value_pack {n : Nat} (h : b32.Rep n) : valueOf (pack false n : Val b32) = (n : ℚ) / 2 ^ 149 := by
  rw [pack, dif_pos h, valueOf_pos, show b32.scale = 149 from rfl]

theorem drift_values : valueOf (pack false (xU 0) : Val b32) = 15069072 / 2 ^ 24 ∧ valueOf (pack false (yU 0) : Val b32) = 14987013 / 2 ^ 27 ∧
    valueOf (pack false zU : Val b32) = 14267239 / 2 ^ 25 ∧ valueOf (pack false (xU 9) : Val b32) = 14767699 / 2 ^ 24 ∧
    valueOf (pack false (yU 9) : Val b32) = 28286014 / 2 ^ 27 := by
  obtain ⟨h1, h2, h3, h4, h5⟩ := drift_reps
  rw [value_pack h1, value_pack h2, value_pack h3, value_pack h4, value_pack h5]
  simp only [xU, yU, xM, yM, zU, List.getD_cons_zero, List.getD_cons_succ]
  push_cast
  norm_num

theorem drift_unit (i : Nat) (h : i = 0 ∨ i = 9) : UnitNormal (driftRow i) := by
  obtain ⟨h1, h2, h3, h4, h5⟩ := drift_reps
  obtain ⟨v1, v2, v3, v4, v5⟩ := drift_values
  rcases h with rfl | rfl
  · refine ⟨⟨pack_finite h1, pack_finite h2, pack_finite h3⟩, ?_, ?_⟩
    · rw [AlmostUnit]
      dsimp only [driftRow]
      rw [v1, v2, v3, abs_le]
      norm_num
    · dsimp only [driftRow]
      rw [v3, abs_le]
      norm_num
  · refine ⟨⟨pack_finite h4, pack_finite h5, pack_finite h3⟩, ?_, ?_⟩
    · rw [AlmostUnit]
      dsimp only [driftRow]
      rw [v4, v5, v3, abs_le]
      norm_num
    · dsimp only [driftRow]
      rw [v3, abs_le]
      norm_num

theorem drift_angle : ¬ AngleAtMost (degrees 5) (driftRow 0) (driftRow 9) := by
  obtain ⟨v1, v2, v3, v4, v5⟩ := drift_values
  rw [AngleAtMost, not_le]
  have hs : scalar (driftRow 0) (driftRow 9) ≤ 995 / 1000 := by
    rw [scalar]
    dsimp only [driftRow, realOf]
    rw [v1, v2, v3, v4, v5]
    push_cast
    norm_num
  have l1 := almost_length (drift_unit 0 (.inl rfl)).unit (by norm_num)
  have l2 := almost_length (drift_unit 9 (.inr rfl)).unit (by norm_num)
  push_cast at l1 l2
  have l3 : (99999 / 100000 : ℝ) * (99999 / 100000) ≤ lengthOf (driftRow 0) * lengthOf (driftRow 9) :=
    mul_le_mul (by norm_num at *; linarith) (by norm_num at *; linarith) (by norm_num) (by norm_num at *; linarith)
  have hc : (996 / 1000 : ℝ) ≤ Real.cos (degrees 5) := by
    refine le_trans ?_ (Real.one_sub_sq_div_two_le_cos)
    have h2 := Real.pi_lt_d6
    have h0 := Real.pi_pos
    have a : degrees 5 ≤ 873 / 10000 := by rw [degrees]; norm_num at *; linarith
    have a0 : 0 ≤ degrees 5 := by rw [degrees]; positivity
    have := pow_le_pow_left₀ a0 a 2
    norm_num at *
    linarith
  refine lt_of_le_of_lt hs (lt_of_lt_of_le ?_ (mul_le_mul hc l3 (by norm_num) (by linarith)))
  norm_num

/-- C92 is false even with a libm without errors: with seven bits, the default, this normal (which has been loaded from a file) turns one step
of the angle in every cycle, and is more than five degrees off after nine. -/
theorem C92_violated (hlib : CorrectLibm lib) {b : Build} :
    ∃ n w, UnitNormal n ∧ NormalCycles (ops lib) b 7 9 [n] [w] ∧ ¬ AngleAtMost (degrees 5) n w :=
  ⟨driftRow 0, driftRow 9, drift_unit 0 (.inl rfl), drift_cycles hlib 9 0 (by decide), drift_angle⟩

/-! ### There is such a libm -/

theorem nearest_exists (r : ℝ) : ∃ v : Val b32, NearestVal r v := by
  have hfin : {v : Val b32 | isFinite v = true}.Finite := by
    refine Set.Finite.subset (Set.finite_range (fun q : Bool × Fin (2 ^ 278) => (pack q.1 q.2.1 : Val b32))) ?_
    intro v hv
    match v, hv with
    | .fin s n h, _ =>
      have hb : n < 2 ^ 278 := lt_of_le_of_lt ((rep_iff b32 (by decide)).mp h).2 (by decide +kernel)
      exact ⟨(s, ⟨n, hb⟩), dif_pos h⟩
  obtain ⟨v, h1, h2⟩ := Set.exists_min_image _ (fun v => |realOf v - r|) hfin ⟨vOne, rfl⟩
  exact ⟨v, h1, h2⟩

theorem correct_exists : ∃ lib, CorrectLibm lib := by
  choose f hf using nearest_exists
  exact ⟨{ asin := fun x => f (Real.arcsin (realOf x)), sin := fun x => f (Real.sin (realOf x)), cos := fun x => f (Real.cos (realOf x)), log2 := id }, ⟨fun _ _ => hf _, fun _ _ => hf _, fun _ _ => hf _⟩⟩

example : ∃ lib n w, UnitNormal n ∧ NormalCycles (ops lib) .checked 7 9 [n] [w] ∧ ¬ AngleAtMost (degrees 5) n w := by
  obtain ⟨lib, h⟩ := correct_exists
  exact ⟨lib, C92_violated h⟩

/-! ### Any number of cycles -/

theorem cycle_eq {fo : FloatOps} {b : Build} {p : Nat} (hp : p ≤ 30) {l l' : List (Vec3 fo.F)} (hl : l.length ≤ 2 ^ 31)
    (h : NormalCycle fo b p l l') : l' = l.map (quantNormal fo p) := by
  obtain ⟨bytes, h1, h2⟩ := h
  obtain ⟨bytes', hs, hr⟩ := readNormals_saved (fo := fo) (b := b) (l := l) (p := p) (by omega) (.inr hp) hl
  rw [hs] at h1
  cases h1
  have := hr []
  rw [List.append_nil, h2] at this
  cases this
  rfl

theorem cycles_eq {fo : FloatOps} {b : Build} {p : Nat} (hp : p ≤ 30) {k : Nat} {l l' : List (Vec3 fo.F)} (hl : l.length ≤ 2 ^ 31)
    (h : NormalCycles fo b p k l l') : l' = l.map (quantNormal fo p)^[k] := by
  induction h with
  | none l => rw [Function.iterate_zero, List.map_id]
  | more h1 _ ih =>
    have e := cycle_eq hp hl h1
    rw [ih (by rw [e, List.length_map]; exact hl), e, List.map_map, Function.iterate_succ]

/-- The part of C92 that holds: from the first loaded mesh on, the height of a normal never changes again, and every further cycle moves
its end by at most one step of the angle, `1.5708 / (2^p - 1)`, and `1/256` for rounding errors.
What is missing is that it does not move at all, see `C92_violated`. -/
theorem C92_partial (hlib : AccurateLibm lib) {b : Build} {p k : Nat} (hp1 : 1 ≤ p) (hp : p ≤ 24) {l l₁ l₂ : List (Vec3 (Val b32))}
    (hl : l.length ≤ 2 ^ 31) (hn : ∀ n ∈ l, UnitNormal n) (h₁ : NormalCycle (ops lib) b p l l₁) (h₂ : NormalCycles (ops lib) b p k l₁ l₂) :
    List.Forall₂ (fun v w => valueOf w.2.2 = valueOf v.2.2 ∧ chord v w ≤ k * (1.5708 * codeStep p + 1 / 2 ^ 8)) l₁ l₂ := by
  have e₁ := cycle_eq (by omega) hl h₁
  have e₂ := cycles_eq (by omega) (by rw [e₁, List.length_map]; exact hl) h₂
  rw [e₂, e₁, List.map_map, List.forall₂_map_left_iff, List.forall₂_map_right_iff, List.forall₂_same]
  intro n hmem
  have hu := hn n hmem
  exact cycles_near hlib hp1 hp k n (loaded_again hlib hp1 hp hu.finite (hu.unit.trans (by norm_num)) hu.z_le)

/-- Any number of cycles can be run. -/
theorem cycles_exist {fo : FloatOps} {b : Build} {p : Nat} (hp : p ≤ 30) : ∀ (k : Nat) (l : List (Vec3 fo.F)), l.length ≤ 2 ^ 31 →
    ∃ l', NormalCycles fo b p k l l'
  | 0, l, _ => ⟨l, .none l⟩
  | k + 1, l, hl => by
    obtain ⟨bytes, hs, hr⟩ := readNormals_saved (fo := fo) (b := b) (l := l) (p := p) (by omega) (.inr hp) hl
    obtain ⟨l', h'⟩ := cycles_exist hp k (l.map (quantNormal fo p)) (by rw [List.length_map]; exact hl)
    have := hr []
    rw [List.append_nil] at this
    exact ⟨l', .more ⟨bytes, hs, this⟩ h'⟩

example : ∃ l₁ l₂ : List (Vec3 (Val b32)), NormalCycle (ops someLibm) .checked 7 [(minusThreeFifths, vZero, fourFifths)] l₁ ∧
    NormalCycles (ops someLibm) .checked 7 5 l₁ l₂ ∧
    List.Forall₂ (fun v w => valueOf w.2.2 = valueOf v.2.2 ∧ chord v w ≤ 5 * (1.5708 * codeStep 7 + 1 / 2 ^ 8)) l₁ l₂ := by
  obtain ⟨bytes, hs, hr⟩ := readNormals_saved (fo := ops someLibm) (b := .checked) (l := [(minusThreeFifths, vZero, fourFifths)]) (p := 7)
    (by decide) (.inr (by decide)) (by decide)
  have hc := hr []
  rw [List.append_nil] at hc
  obtain ⟨l₂, h₂⟩ := cycles_exist (fo := ops someLibm) (b := .checked) (p := 7) (by decide) 5
    ([(minusThreeFifths, vZero, fourFifths)].map (quantNormal (ops someLibm) 7)) (by decide)
  refine ⟨_, l₂, ⟨bytes, hs, hc⟩, h₂, ?_⟩
  exact_mod_cast C92_partial someLibm_accurate (by decide) (by decide) (l := [(minusThreeFifths, vZero, fourFifths)]) (by decide)
    (by intro n hn; rw [List.mem_singleton] at hn; rw [hn]; exact unit_example) ⟨bytes, hs, hc⟩ h₂

end Tmf.Props
