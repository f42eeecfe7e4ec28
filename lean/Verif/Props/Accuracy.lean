import Verif.Lemmas.AccuracyHigh
import Verif.Lemmas.WideArrays
import Verif.Lemmas.FileRoundTrip
import Verif.Lemmas.LibmWitness
/-
C36, C40, C41: how far saved uv coordinates and colours are from the originals, with f32 and f64
arithmetic as IEEE 754 prescribes it.
-/

set_option exponentiation.threshold 2000

namespace Tmf.Props
open Spec Ieee

variable (lib : Libm)

/-! ### Values used in the examples -/

/-- `9/64`. -/
def nine64 : Val b32 := .fin false (9 * 2 ^ 143) (by decide +kernel)
/-- `3/2`. -/
def threeHalves : Val b32 := .fin false (3 * 2 ^ 148) (by decide +kernel)
/-- `1`. -/
def vOne : Val b32 := .fin false (2 ^ 149) (by decide +kernel)
/-- `0`. -/
def vZero : Val b32 := .fin false 0 (by decide +kernel)
/-- `2^64`. -/
def vHuge : Val b32 := .fin false (2 ^ 213) (by decide +kernel)

theorem valueOf_pos {f : Fmt} {n : Nat} (h : f.Rep n) : valueOf (.fin false n h : Val f) = (n : ℚ) / 2 ^ f.scale := by
  simp only [valueOf, signed, Bool.false_eq_true, if_false, Int.cast_natCast]

theorem valueOf_nine64 : valueOf nine64 = 9 / 64 := by
  rw [nine64, valueOf_pos, show b32.scale = 149 from rfl]; norm_num

theorem valueOf_threeHalves : valueOf threeHalves = 3 / 2 := by
  rw [threeHalves, valueOf_pos, show b32.scale = 149 from rfl]; norm_num

theorem valueOf_vOne : valueOf vOne = 1 := by
  rw [vOne, valueOf_pos, show b32.scale = 149 from rfl]; norm_num

theorem valueOf_vZero : valueOf vZero = 0 := by
  rw [vZero, valueOf_pos, Nat.cast_zero, zero_div]

theorem storable_nine64 (p : Nat) : Storable p nine64 :=
  ⟨⟨rfl, by rw [valueOf_nine64]; norm_num, by rw [valueOf_nine64]; norm_num⟩, .inr (by rw [valueOf_nine64]; norm_num)⟩

/-! ### C36 -/

/-- C36 (for up to 30 bits, and 31 without overflow checks; the full claim is for every coordinate in
[0,1], see `C36_one_violated`, `C36_collapse_violated` and `C36_pixel_violated`). Every coordinate comes back, less than one step
`1 / (2^p - 1)` below its original and never above it. -/
theorem C36_within_step_partial {b : Build} {l : List (Vec2 (Val b32))} {p : Nat} (hp1 : 1 ≤ p) (hp : Writable b p)
    (hl : l.length ≤ 2 ^ 31) (hu : ∀ uv ∈ l, Storable p uv.1 ∧ Storable p uv.2) :
    ∃ bytes l', saveUvs (ops lib) b l p = .ok bytes ∧ readUvs (ops lib) bytes = .ok l' ∧
      List.Forall₂ (fun uv uv' => StepBelow p uv.1 uv'.1 ∧ StepBelow p uv.2 uv'.2) l l' := by
  obtain ⟨bytes, hs, hr⟩ := readUvs_writable (fo := ops lib) (b := b) (l := l) hp hl
  refine ⟨bytes, _, hs, hr, ?_⟩
  have hp := hp.le
  clear hr hs hl
  induction l with
  | nil => exact .nil
  | cons uv l ih =>
    refine .cons ?_ (ih (fun x hx => hu x (List.mem_cons_of_mem _ hx)))
    obtain ⟨h1, h2⟩ := hu uv List.mem_cons_self
    rw [quantUv_unitQ lib hp1]
    exact ⟨unitQ_stepBelow hp1 hp h1.1 h1.2, unitQ_stepBelow hp1 hp h2.1 h2.2⟩

example (b : Build) : ∃ bytes l', saveUvs (ops lib) b [(nine64, nine64), (nine64, nine64)] 3 = .ok bytes ∧
    readUvs (ops lib) bytes = .ok l' ∧ List.Forall₂ (fun uv uv' => StepBelow 3 uv.1 uv'.1 ∧ StepBelow 3 uv.2 uv'.2)
      [(nine64, nine64), (nine64, nine64)] l' :=
  C36_within_step_partial lib (by decide) (.inl (by decide)) (by show 2 ≤ 2 ^ 31; decide)
    (fun _ h => by
      simp only [List.mem_cons, List.not_mem_nil, or_false, or_self] at h
      subst h
      exact ⟨storable_nine64 3, storable_nine64 3⟩)

theorem unitQ_one_wide : ∀ p < 32, 25 ≤ p → unitQ p vOne = vZero := by decide +kernel

/-- C36 is false with 25 to 30 bits (and 31, without overflow checks): the coordinate 1 comes back as 0. -/
theorem C36_one_violated {b : Build} {p : Nat} (h1 : 25 ≤ p) (h2 : Writable b p) :
    UnitValue vOne ∧ valueOf vOne = 1 ∧
    ∃ bytes y, saveUvs (ops lib) b [(vOne, vOne)] p = .ok bytes ∧ readUvs (ops lib) bytes = .ok [(y, y)] ∧
      valueOf y = 0 ∧ ¬ StepBelow p vOne y := by
  refine ⟨⟨rfl, by rw [valueOf_vOne]; norm_num, by rw [valueOf_vOne]⟩, valueOf_vOne, ?_⟩
  obtain ⟨bytes, hs, hr⟩ := readUvs_writable (fo := ops lib) (b := b) (l := [(vOne, vOne)]) h2 (by show 1 ≤ 2 ^ 31; decide)
  have this := hr
  rw [List.map_cons, List.map_nil, quantUv_unitQ lib (by omega)] at this
  dsimp only at this
  rw [unitQ_one_wide p (Nat.lt_succ_of_le h2.le) h1] at this
  refine ⟨bytes, vZero, hs, this, valueOf_vZero, ?_⟩
  rintro ⟨_, _, h⟩
  rw [valueOf_vOne, valueOf_vZero, sub_zero, lt_div_iff₀, one_mul] at h
  · have h3 : (2 : ℚ) ^ 25 ≤ 2 ^ p := pow_le_pow_right₀ (by norm_num) h1
    linarith [show (2 : ℚ) < 2 ^ 25 by norm_num]
  · have h3 : (2 : ℚ) ^ 25 ≤ 2 ^ p := pow_le_pow_right₀ (by norm_num) h1
    linarith [show (2 : ℚ) < 2 ^ 25 by norm_num]

example : (25 ≤ 27 ∧ Writable .checked 27) ∧ 25 ≤ 31 ∧ Writable .wrapping 31 := ⟨⟨by decide, .inl (by decide)⟩, by decide, .inr ⟨rfl, rfl⟩⟩

/-- Coordinates above 1 wrap around: 3/2 with two bits comes back as 0. -/
theorem C36_above_one_violated {b : Build} :
    ∃ bytes y, saveUvs (ops lib) b [(threeHalves, threeHalves)] 2 = .ok bytes ∧
      readUvs (ops lib) bytes = .ok [(y, y)] ∧ valueOf threeHalves = 3 / 2 ∧ valueOf y = 0 := by
  obtain ⟨bytes, hs, hr⟩ := readUvs_saved (fo := ops lib) (b := b) (l := [(threeHalves, threeHalves)]) (p := 2) (by decide) (by show 1 ≤ 2 ^ 31; decide)
  have := hr []
  rw [List.append_nil, List.map_cons, List.map_nil, quantUv_unitQ lib (by omega)] at this
  dsimp only at this
  rw [show unitQ 2 threeHalves = vZero by decide +kernel] at this
  exact ⟨bytes, vZero, hs, this, valueOf_threeHalves, valueOf_vZero⟩

/-- C36, pixels (the full claim, a loss of at most `1 / r` pixels where `r` is the resolution
divided by the pixels of deviation asked for, is false, see `C36_pixel_violated`). The loss is less
than `2^p / (2^p - 1)` times the one asked for (and the error of `log2`), and less than it if `r` is
at most `2^p - 1`. -/
theorem C36_pixel_partial (hlog : AccurateLog2 lib) {b : Build} {l : List (Vec2 (Val b32))} {res dev : Val b32}
    (hp1 : 1 ≤ uvPrecFromTexture (ops lib) res dev) (hp : uvPrecFromTexture (ops lib) res dev ≤ 24)
    (hl : l.length ≤ 2 ^ 31) (hu : ∀ uv ∈ l, UnitValue uv.1 ∧ UnitValue uv.2) :
    ∃ bytes l', saveUvs (ops lib) b l (uvPrecFromTexture (ops lib) res dev) = .ok bytes ∧
      readUvs (ops lib) bytes = .ok l' ∧
      List.Forall₂ (fun uv uv' =>
        (valueOf uv.1 - valueOf uv'.1) * valueOf (div res dev) <
          2 ^ uvPrecFromTexture (ops lib) res dev * (1 + 1 / 2 ^ 17) / (2 ^ uvPrecFromTexture (ops lib) res dev - 1) ∧
        (valueOf uv.2 - valueOf uv'.2) * valueOf (div res dev) <
          2 ^ uvPrecFromTexture (ops lib) res dev * (1 + 1 / 2 ^ 17) / (2 ^ uvPrecFromTexture (ops lib) res dev - 1) ∧
        (valueOf (div res dev) ≤ 2 ^ uvPrecFromTexture (ops lib) res dev - 1 →
          (valueOf uv.1 - valueOf uv'.1) * valueOf (div res dev) < 1 ∧
          (valueOf uv.2 - valueOf uv'.2) * valueOf (div res dev) < 1)) l l' := by
  generalize hpe : uvPrecFromTexture (ops lib) res dev = p at *
  have hr : valueOf (div res dev) ≤ 2 ^ p * (1 + 1 / 2 ^ 17) := bits_le hlog hpe (by omega)
  have hpos : 0 < valueOf (div res dev) := by linarith [(bits_pos hlog hpe hp1 (by omega)).2]
  generalize valueOf (div res dev) = r at *
  obtain ⟨bytes, l', hs, hrd, hf⟩ := C36_within_step_partial lib (b := b) (l := l) hp1 (.inl (by omega)) hl
    (fun uv h => ⟨⟨(hu uv h).1, .inl hp⟩, ⟨(hu uv h).2, .inl hp⟩⟩)
  refine ⟨bytes, l', hs, hrd, hf.imp ?_⟩
  have hm : (0 : ℚ) < 2 ^ p - 1 := by
    have : (1 : ℚ) < 2 ^ p := one_lt_pow₀ (by norm_num) (by omega)
    linarith
  have main : ∀ d : ℚ, d < 1 / (2 ^ p - 1) → d * r < 2 ^ p * (1 + 1 / 2 ^ 17) / (2 ^ p - 1) ∧ (r ≤ 2 ^ p - 1 → d * r < 1) := by
    intro d hd
    have h1 : d * r < 1 / (2 ^ p - 1) * r := mul_lt_mul_of_pos_right hd hpos
    constructor
    · refine lt_of_lt_of_le h1 ?_
      rw [div_mul_eq_mul_div, one_mul]
      exact div_le_div_of_nonneg_right hr hm.le
    · intro hle
      refine lt_of_lt_of_le h1 ?_
      rw [div_mul_eq_mul_div, one_mul, div_le_one hm]
      exact hle
  rintro uv uv' ⟨⟨_, _, h1⟩, _, _, h2⟩
  exact ⟨(main _ h1).1, (main _ h2).1, fun hle => ⟨(main _ h1).2 hle, (main _ h2).2 hle⟩⟩

/-- C36, pixels, when no bits are needed: every coordinate comes back as 0, and the loss is at most the
one asked for (and the error of `log2`). -/
theorem C36_pixel_zero (hlog : AccurateLog2 lib) {b : Build} {l : List (Vec2 (Val b32))} {res dev : Val b32}
    (hp : uvPrecFromTexture (ops lib) res dev = 0) (hl : l.length ≤ 2 ^ 31) (hu : ∀ uv ∈ l, UnitValue uv.1 ∧ UnitValue uv.2) :
    ∃ bytes l', saveUvs (ops lib) b l (uvPrecFromTexture (ops lib) res dev) = .ok bytes ∧
      readUvs (ops lib) bytes = .ok l' ∧
      List.Forall₂ (fun uv uv' =>
        (valueOf uv.1 - valueOf uv'.1) * valueOf (div res dev) ≤ 1 + 1 / 2 ^ 17 ∧
        (valueOf uv.2 - valueOf uv'.2) * valueOf (div res dev) ≤ 1 + 1 / 2 ^ 17) l l' := by
  have hr : valueOf (div res dev) ≤ 2 ^ 0 * (1 + 1 / 2 ^ 17) := bits_le hlog hp (by omega)
  rw [pow_zero, one_mul] at hr
  generalize valueOf (div res dev) = r at *
  rw [hp]
  obtain ⟨bytes, hs, hrd⟩ := readUvs_saved (fo := ops lib) (b := b) (l := l) (p := 0) (by decide) hl
  have := hrd []
  rw [List.append_nil] at this
  refine ⟨bytes, _, hs, this, ?_⟩
  rw [List.forall₂_map_right_iff, List.forall₂_same]
  intro uv huv
  have hz : quantUv (ops lib) 0 uv = (vZero, vZero) := by
    show ((lit 0 0 : Val b32), (lit 0 0 : Val b32)) = _
    decide +kernel
  rw [hz]
  dsimp only
  rw [valueOf_vZero, sub_zero, sub_zero]
  have main : ∀ v : ℚ, 0 ≤ v → v ≤ 1 → v * r ≤ 1 + 1 / 2 ^ 17 := by
    intro v h0 h1
    have h2 := mul_le_mul_of_nonneg_left hr h0
    have h3 : v * (1 + 1 / 2 ^ 17) ≤ 1 * (1 + 1 / 2 ^ 17) := mul_le_mul_of_nonneg_right h1 (by norm_num)
    linarith
  exact ⟨main _ (hu uv huv).1.2.1 (hu uv huv).1.2.2, main _ (hu uv huv).2.2.1 (hu uv huv).2.2.2⟩

/-- One pixel and a deviation of two. -/
example : AccurateLog2 someLibm ∧ uvPrecFromTexture (ops someLibm) (lit 1 0) (lit 2 0) = 0 := by
  refine ⟨someLibm_log2, ?_⟩
  show bitsFor someLibm (div (lit 1 0) (lit 2 0) : Val b32) = 0
  rw [bits_clear someLibm_log2] <;> decide +kernel

theorem prec_1000 (hlog : AccurateLog2 lib) : uvPrecFromTexture (ops lib) (lit 1000 0) (lit 1 0) = 10 := by
  show bitsFor lib (div (lit 1000 0) (lit 1 0) : Val b32) = 10
  rw [bits_clear hlog] <;> decide +kernel

/-- A texture of 1000 pixels and one pixel of deviation meet the hypotheses. -/
example : AccurateLog2 someLibm ∧ 1 ≤ uvPrecFromTexture (ops someLibm) (lit 1000 0) (lit 1 0) ∧
    uvPrecFromTexture (ops someLibm) (lit 1000 0) (lit 1 0) ≤ 24 := by
  rw [prec_1000 _ someLibm_log2]; exact ⟨someLibm_log2, by decide, by decide⟩

/-- C36 is false for pixels: with a resolution of 8 pixels and one pixel of deviation, 9/64 comes
back as 0, which is more than one pixel away. -/
theorem C36_pixel_violated (hlog : AccurateLog2 lib) {b : Build} :
    uvPrecFromTexture (ops lib) (lit 8 0) (lit 1 0) = 3 ∧
    ∃ bytes y, saveUvs (ops lib) b [(nine64, nine64)] 3 = .ok bytes ∧ readUvs (ops lib) bytes = .ok [(y, y)] ∧
      UnitValue nine64 ∧ 1 < (valueOf nine64 - valueOf y) * 8 := by
  constructor
  · show bitsFor lib (div (lit 8 0) (lit 1 0) : Val b32) = 3
    rw [bits_clear hlog] <;> decide +kernel
  obtain ⟨bytes, hs, hr⟩ := readUvs_saved (fo := ops lib) (b := b) (l := [(nine64, nine64)]) (p := 3) (by decide) (by show 1 ≤ 2 ^ 31; decide)
  have := hr []
  rw [List.append_nil, List.map_cons, List.map_nil, quantUv_unitQ lib (by omega)] at this
  dsimp only at this
  rw [show unitQ 3 nine64 = vZero by decide +kernel] at this
  refine ⟨bytes, vZero, hs, this, (storable_nine64 3).1, ?_⟩
  rw [valueOf_nine64, valueOf_vZero]
  norm_num

/-! ### C41 -/

/-- One cycle: `l` is saved with `p` bits and `l'` read back. -/
def UvCycle (fo : FloatOps) (b : Build) (p : Nat) (l l' : List (Vec2 fo.F)) : Prop :=
  ∃ bytes, saveUvs fo b l p = .ok bytes ∧ readUvs fo bytes = .ok l'

theorem UvCycle.eq {fo : FloatOps} {b : Build} {p : Nat} {l l' : List (Vec2 fo.F)} (hp : Writable b p) (hl : l.length ≤ 2 ^ 31)
    (h : UvCycle fo b p l l') : l' = l.map (quantUv fo p) := by
  obtain ⟨bytes, hs, hr⟩ := h
  obtain ⟨bytes', hs', hr'⟩ := readUvs_writable (fo := fo) (b := b) (l := l) hp hl
  rw [hs] at hs'
  cases hs'
  rw [hr] at hr'
  exact Outcome.ok.inj hr'

theorem UvCycle.exists {fo : FloatOps} {b : Build} {p : Nat} {l : List (Vec2 fo.F)} (hp : Writable b p) (hl : l.length ≤ 2 ^ 31) :
    ∃ l', UvCycle fo b p l l' ∧ l'.length = l.length := by
  obtain ⟨bytes, hs, hr⟩ := readUvs_writable (fo := fo) (b := b) (l := l) hp hl
  exact ⟨_, ⟨bytes, hs, hr⟩, by simp⟩

/-- C41 for uv coordinates (the full claim includes colours and float data, for which it is false:
`C41_color_width_violated`, `C41_color_value_violated`). With up to 24 bits, whatever the
coordinates are, all cycles after the first change nothing; with up to 30 bits (31 without overflow
checks) this holds for coordinates in [0,1]. -/
theorem C41_uv_partial {b : Nat → Build} {p : Nat} (hp : ∀ i, Writable (b i) p) (s : Nat → List (Vec2 (Val b32)))
    (hl : (s 0).length ≤ 2 ^ 31) (hu : p ≤ 24 ∨ ∀ uv ∈ s 0, UnitValue uv.1 ∧ UnitValue uv.2)
    (h : ∀ i, UvCycle (ops lib) (b i) p (s i) (s (i + 1))) : ∀ n, s (n + 1) = s 1 := by
  have h1 := (h 0).eq (hp 0) hl
  have hidem : ∀ uv ∈ s 0, quantUv (ops lib) p (quantUv (ops lib) p uv) = quantUv (ops lib) p uv := by
    intro uv huv
    rcases hu with h | h
    · exact quantUv_idem lib h uv
    · exact quantUv_idem_unit lib (hp 0).le (h uv huv).1 (h uv huv).2
  intro n
  induction n with
  | zero => rfl
  | succ n ih =>
    have hlen : (s 1).length ≤ 2 ^ 31 := by rw [h1, List.length_map]; exact hl
    have := (h (n + 1)).eq (hp _) (by rw [ih]; exact hlen)
    rw [this, ih, h1, List.map_map]
    exact List.map_congr_left hidem

/-- A sequence of cycles exists for every array. -/
theorem C41_uv_cycles {fo : FloatOps} (b : Nat → Build) {p : Nat} (hp : ∀ i, Writable (b i) p) (l : List (Vec2 fo.F)) (hl : l.length ≤ 2 ^ 31) :
    ∃ s : Nat → List (Vec2 fo.F), s 0 = l ∧ ∀ i, UvCycle fo (b i) p (s i) (s (i + 1)) := by
  refine ⟨fun n => Nat.rec l (fun _ x => x.map (quantUv fo p)) n, rfl, fun i => ?_⟩
  have hlen : ∀ n, (Nat.rec (motive := fun _ => List (Vec2 fo.F)) l (fun _ x => x.map (quantUv fo p)) n).length ≤ 2 ^ 31 := by
    intro n
    induction n with
    | zero => exact hl
    | succ n ih => simpa using ih
  obtain ⟨l', h, _⟩ := UvCycle.exists (fo := fo) (b := b i) (hp i) (hlen i)
  have e := h.eq (hp i) (hlen i)
  show UvCycle fo (b i) p _ (List.map (quantUv fo p) _)
  rw [← e]
  exact h

example : ∃ s : Nat → List (Vec2 (Val b32)), s 0 = [(nine64, threeHalves)] ∧
    ∀ i, UvCycle (ops lib) .checked 7 (s i) (s (i + 1)) :=
  C41_uv_cycles (fo := ops lib) (fun _ => .checked) (fun _ => .inl (by decide)) _ (by show 1 ≤ 2 ^ 31; decide)

theorem unitQ_huge : ∀ p < 32, 25 ≤ p → unitQ p vHuge = vOne := by decide +kernel

/-- C41 is false for uv coordinates far outside [0,1] with 25 to 30 bits (and 31, without overflow
checks): `2^64` is read as 1 after
the first cycle and as 0 after the second. -/
theorem C41_uv_violated {b : Build} {p : Nat} (h1 : 25 ≤ p) (h2 : Writable b p) :
    UvCycle (ops lib) b p [(vHuge, vHuge)] [(vOne, vOne)] ∧
    UvCycle (ops lib) b p [(vOne, vOne)] [(vZero, vZero)] ∧ vOne ≠ vZero := by
  refine ⟨?_, ?_, by decide +kernel⟩
  · obtain ⟨bytes, hs, hr⟩ := readUvs_writable (fo := ops lib) (b := b) (l := [(vHuge, vHuge)]) h2 (by show 1 ≤ 2 ^ 31; decide)
    have this := hr
    rw [List.map_cons, List.map_nil, quantUv_unitQ lib (by omega)] at this
    dsimp only at this
    rw [unitQ_huge p (Nat.lt_succ_of_le h2.le) h1] at this
    exact ⟨bytes, hs, this⟩
  · obtain ⟨bytes, hs, hr⟩ := readUvs_writable (fo := ops lib) (b := b) (l := [(vOne, vOne)]) h2 (by show 1 ≤ 2 ^ 31; decide)
    have this := hr
    rw [List.map_cons, List.map_nil, quantUv_unitQ lib (by omega)] at this
    dsimp only at this
    rw [unitQ_one_wide p (Nat.lt_succ_of_le h2.le) h1] at this
    exact ⟨bytes, hs, this⟩

example : (25 ≤ 30 ∧ Writable .checked 30) ∧ 25 ≤ 31 ∧ Writable .wrapping 31 := ⟨⟨by decide, .inl (by decide)⟩, by decide, .inr ⟨rfl, rfl⟩⟩

theorem ops_min : (ops lib).min = Ieee.min := rfl
theorem ops_lit : (ops lib).lit = lit := rfl

/-- The precision attached to colours read with `p` bits. -/
def colorPrec32 (p : Nat) : Val b32 := mul (convert (div (ofNat 1) (ofNat (2 ^ p)) : Val b64)) (lit 99999 5)

theorem colorLoadedPrec_ops (p : Nat) : colorLoadedPrec (ops lib) (2 ^ p) = colorPrec32 p := by
  rw [colorLoadedPrec, ops_mul lib, ops_ofD lib, ops_dDiv lib, ops_dOfNat lib, ops_lit lib, colorPrec32]

/-- The quotient whose logarithm gives the width of colours. -/
def colorSteps (prec : Val b32) : Val b32 := div (lit 1 0) (Ieee.min prec (lit 1 0))

def colorBits (prec : Val b32) : Nat := bitsFor lib (colorSteps prec)

theorem colorPrec_ops (prec : Val b32) : colorPrec (ops lib) prec = colorBits lib prec := by
  show bitsFor lib (div (FloatOps.one (ops lib)) (Ieee.min prec (FloatOps.one (ops lib)))) = _
  rfl

theorem colorBits_clear (hlog : AccurateLog2 lib) {prec : Val b32} (h : clear (colorSteps prec) = true) :
    colorBits lib prec = exactBits (colorSteps prec) := bits_clear hlog h

theorem colorSteps_grow : ∀ p < 31, clear (colorSteps (colorPrec32 p)) = true ∧ exactBits (colorSteps (colorPrec32 p)) = p + 1 := by
  decide +kernel

theorem colorBits_grow (hlog : AccurateLog2 lib) : ∀ p < 31, colorBits lib (colorPrec32 p) = p + 1 := fun p hp => by
  rw [colorBits_clear lib hlog (colorSteps_grow p hp).1, (colorSteps_grow p hp).2]

/-- C41 is false for colours: what was stored in `p` bits per channel is stored in `p + 1` the next
time. -/
theorem C41_color_width_violated (hlog : AccurateLog2 lib) {b b' : Build} {data : List (Vec4 (Val b32))} {prec : Val b32}
    (hp : colorPrec (ops lib) prec ≤ 30) (hl : data.length ≤ 2 ^ 31) :
    ∃ bytes data' prec', saveColors (ops lib) b data prec = .ok bytes ∧
      readColors (ops lib) b' bytes = .ok (.color data' prec') ∧
      colorPrec (ops lib) prec' = colorPrec (ops lib) prec + 1 := by
  obtain ⟨bytes, hs, hr⟩ := readColors_saved (fo := ops lib) (b := b) (b' := b') hp hl
  have := hr []
  rw [List.append_nil] at this
  refine ⟨bytes, _, _, hs, this, ?_⟩
  rw [colorLoadedPrec_ops lib, colorPrec_ops lib]
  exact colorBits_grow lib hlog _ (by omega)

/-- Saved with 30 bits per channel and loaded, colours cannot be saved again by a build with overflow
checks. -/
theorem C41_color_panic_violated (hlog : AccurateLog2 lib) {b b' : Build} {data : List (Vec4 (Val b32))} {prec : Val b32}
    (hp : colorPrec (ops lib) prec = 30) (hl : data.length ≤ 2 ^ 31) :
    ∃ bytes data' prec', saveColors (ops lib) b data prec = .ok bytes ∧
      readColors (ops lib) b' bytes = .ok (.color data' prec') ∧
      saveColors (ops lib) .checked data' prec' = .panic := by
  obtain ⟨bytes, data', prec', hs, hr, hw⟩ := C41_color_width_violated lib hlog (b := b) (b' := b') (prec := prec) (by omega) hl
  refine ⟨bytes, data', prec', hs, hr, ?_⟩
  rw [saveColors, hw, hp]
  rfl

def prec30 : Val b32 := .fin false (2 ^ 119) (by decide +kernel)
theorem prec30_bits (hlog : AccurateLog2 lib) : colorPrec (ops lib) prec30 = 30 := by
  rw [colorPrec_ops lib, colorBits_clear lib hlog] <;> decide +kernel

example (hlog : AccurateLog2 lib) (b b' : Build) : ∃ bytes data' prec', saveColors (ops lib) b [(nine64, nine64, nine64, nine64)] prec30 = .ok bytes ∧
    readColors (ops lib) b' bytes = .ok (.color data' prec') ∧ saveColors (ops lib) .checked data' prec' = .panic :=
  C41_color_panic_violated lib hlog (prec30_bits lib hlog) (by show 1 ≤ 2 ^ 31; decide)

/-- 1/2. -/
def vHalf : Val b32 := .fin false (2 ^ 148) (by decide +kernel)
/-- 1/4. -/
def vQuarter : Val b32 := .fin false (2 ^ 147) (by decide +kernel)

/-- One channel stored in `p` bits. -/
def channelQ (p : Nat) (x : Val b32) : Val b32 :=
  convert (div (ofNat (toU64 (mul x (ofNat (2 ^ p - 1))) % 2 ^ p)) (ofNat (2 ^ p - 1)) : Val b64)

theorem quantChannel_ops (p : Nat) (x : Val b32) : quantChannel (ops lib) p x = channelQ p x := by
  rw [quantChannel, channelOfCode, ops_ofD lib, ops_dDiv lib, ops_dOfNat lib, ops_toU64 lib, ops_mul lib, ops_ofNat lib, channelQ]

theorem quantColor_ops (p : Nat) (x : Val b32) :
    quantColor (ops lib) p (x, x, x, x) = (channelQ p x, channelQ p x, channelQ p x, channelQ p x) := by
  rw [quantColor]
  simp only [quantChannel_ops lib]

/-- C41 is false for colours: the second cycle changes the value. 1/2 is read as 1/3 with two bits,
then as 2/7. -/
theorem C41_color_value_violated (hlog : AccurateLog2 lib) {b b' : Build} :
    ∃ (bytes bytes' : List UInt8) (y z prec' prec'' : Val b32),
      saveColors (ops lib) b [(vHalf, vHalf, vHalf, vHalf)] vQuarter = .ok bytes ∧
      readColors (ops lib) b' bytes = .ok (.color [(y, y, y, y)] prec') ∧
      saveColors (ops lib) b [(y, y, y, y)] prec' = .ok bytes' ∧
      readColors (ops lib) b' bytes' = .ok (.color [(z, z, z, z)] prec'') ∧ z ≠ y := by
  have hp : colorPrec (ops lib) vQuarter = 2 := by
    rw [colorPrec_ops lib, colorBits_clear lib hlog] <;> decide +kernel
  obtain ⟨bytes, hs, hr⟩ := readColors_saved (fo := ops lib) (b := b) (b' := b') (data := [(vHalf, vHalf, vHalf, vHalf)])
    (prec := vQuarter) (by rw [hp]; decide) (by show 1 ≤ 2 ^ 31; decide)
  have h1 := hr []
  rw [List.append_nil, quantColors, hp, List.map_cons, List.map_nil, quantColor_ops lib, colorLoadedPrec_ops lib] at h1
  have hp2 : colorPrec (ops lib) (colorPrec32 2) = 3 := by
    rw [colorPrec_ops lib, colorBits_clear lib hlog] <;> decide +kernel
  obtain ⟨bytes', hs', hr'⟩ := readColors_saved (fo := ops lib) (b := b) (b' := b')
    (data := [(channelQ 2 vHalf, channelQ 2 vHalf, channelQ 2 vHalf, channelQ 2 vHalf)])
    (prec := colorPrec32 2) (by rw [hp2]; decide) (by show 1 ≤ 2 ^ 31; decide)
  have h2 := hr' []
  rw [List.append_nil, quantColors, hp2, List.map_cons, List.map_nil, quantColor_ops lib, colorLoadedPrec_ops lib] at h2
  exact ⟨bytes, bytes', _, _, _, _, hs, h1, hs', h2, by decide +kernel⟩

/-! ### C40, colours -/

/-- C40 for colours, in up to 30 bits, and 31 without overflow checks (the full claim is for every precision and every channel in [0,1]; see the
counterexamples below, and for float data `C40_float_partial`). -/
theorem C40_color_partial {b b' : Build} {data : List (Vec4 (Val b32))} {prec : Val b32}
    (hp1 : 1 ≤ colorPrec (ops lib) prec) (hp : Writable b (colorPrec (ops lib) prec)) (hl : data.length ≤ 2 ^ 31)
    (hu : ∀ c ∈ data, Storable (colorPrec (ops lib) prec) c.1 ∧ Storable (colorPrec (ops lib) prec) c.2.1 ∧
      Storable (colorPrec (ops lib) prec) c.2.2.1 ∧ Storable (colorPrec (ops lib) prec) c.2.2.2) :
    ∃ bytes data' prec', saveColors (ops lib) b data prec = .ok bytes ∧
      readColors (ops lib) b' bytes = .ok (.color data' prec') ∧
      List.Forall₂ (fun c c' => StepBelow (colorPrec (ops lib) prec) c.1 c'.1 ∧
        StepBelow (colorPrec (ops lib) prec) c.2.1 c'.2.1 ∧ StepBelow (colorPrec (ops lib) prec) c.2.2.1 c'.2.2.1 ∧
        StepBelow (colorPrec (ops lib) prec) c.2.2.2 c'.2.2.2) data data' := by
  obtain ⟨bytes, hs, hr⟩ := readColors_writable (fo := ops lib) (b := b) (b' := b') hp hl
  refine ⟨bytes, _, _, hs, hr, ?_⟩
  have hp := hp.le
  clear hr hs hl
  generalize colorPrec (ops lib) prec = p at *
  induction data with
  | nil => exact .nil
  | cons c l ih =>
    refine .cons ?_ (ih (fun x hx => hu x (List.mem_cons_of_mem _ hx)))
    obtain ⟨h1, h2, h3, h4⟩ := hu c List.mem_cons_self
    exact ⟨quantChannel_stepBelow lib hp1 hp h1.1 h1.2, quantChannel_stepBelow lib hp1 hp h2.1 h2.2,
      quantChannel_stepBelow lib hp1 hp h3.1 h3.2, quantChannel_stepBelow lib hp1 hp h4.1 h4.2⟩

example (hlog : AccurateLog2 lib) (b : Build) : ∃ bytes, saveColors (ops lib) b [(nine64, nine64, nine64, nine64)] prec30 = .ok bytes := by
  obtain ⟨bytes, _, _, h, _⟩ := C40_color_partial lib (b := b) (b' := b) (data := [(nine64, nine64, nine64, nine64)])
    (prec := prec30) (by rw [prec30_bits lib hlog]; decide) (.inl (by rw [prec30_bits lib hlog])) (by show 1 ≤ 2 ^ 31; decide)
    (fun c hc => by
      simp only [List.mem_cons, List.not_mem_nil, or_false] at hc
      subst hc
      exact ⟨storable_nine64 _, storable_nine64 _, storable_nine64 _, storable_nine64 _⟩)
  exact ⟨bytes, h⟩

theorem channelQ_zero (x : Val b32) : channelQ 0 x = .nan := by
  rw [channelQ, show (2 ^ 0 - 1 : Nat) = 0 from rfl, show (2 ^ 0 : Nat) = 1 from rfl, Nat.mod_one]
  decide +kernel

/-- C40 is false for a precision of 1 or more: every channel is stored in no bits and comes back as
NaN. -/
theorem C40_color_zero_violated (hlog : AccurateLog2 lib) {b b' : Build} (x : Val b32) :
    ∃ bytes prec', saveColors (ops lib) b [(x, x, x, x)] (lit 1 0) = .ok bytes ∧
      readColors (ops lib) b' bytes = .ok (.color [(.nan, .nan, .nan, .nan)] prec') := by
  have hp : colorPrec (ops lib) (lit 1 0) = 0 := by
    rw [colorPrec_ops lib, colorBits_clear lib hlog] <;> decide +kernel
  obtain ⟨bytes, hs, hr⟩ := readColors_saved (fo := ops lib) (b := b) (b' := b') (data := [(x, x, x, x)])
    (prec := lit 1 0) (by rw [hp]; decide) (by show 1 ≤ 2 ^ 31; decide)
  have h1 := hr []
  rw [List.append_nil, quantColors, hp, List.map_cons, List.map_nil, quantColor_ops lib, channelQ_zero] at h1
  exact ⟨bytes, _, hs, h1⟩

theorem channelQ_one_wide : ∀ p < 32, 25 ≤ p → channelQ p vOne = vZero := by decide +kernel

/-- C40 is false with 25 to 30 bits (and 31, without overflow checks): the channel value 1 comes back as 0. -/
theorem C40_color_one_violated {b b' : Build} {prec : Val b32} (h1 : 25 ≤ colorPrec (ops lib) prec)
    (h2 : Writable b (colorPrec (ops lib) prec)) :
    ∃ bytes prec', saveColors (ops lib) b [(vOne, vOne, vOne, vOne)] prec = .ok bytes ∧
      readColors (ops lib) b' bytes = .ok (.color [(vZero, vZero, vZero, vZero)] prec') ∧
      valueOf vOne = 1 ∧ valueOf vZero = 0 := by
  obtain ⟨bytes, hs, hr⟩ := readColors_writable (fo := ops lib) (b := b) (b' := b') (data := [(vOne, vOne, vOne, vOne)])
    (prec := prec) h2 (by show 1 ≤ 2 ^ 31; decide)
  have h3 := hr
  rw [quantColors, List.map_cons, List.map_nil, quantColor_ops lib, channelQ_one_wide _ (Nat.lt_succ_of_le h2.le) h1] at h3
  exact ⟨bytes, _, hs, h3, valueOf_vOne, valueOf_vZero⟩

example (hlog : AccurateLog2 lib) (b : Build) : 25 ≤ colorPrec (ops lib) prec30 ∧ Writable b (colorPrec (ops lib) prec30) := by
  rw [prec30_bits lib hlog]; exact ⟨by decide, .inl (by decide)⟩

end Tmf.Props
