import Verif.Props.FileAccuracy
import Verif.Props.Precision
import Verif.Spec.CustomPrecision
/-
C60: custom float and colour data keep the precision their owner asked for.

The precision attached to an array is turned into a number of bits (`floatPrec`, `colorPrec`), and the
array is divided into `2^p - 1` steps. The number of bits is the fewest that give `span / prec` steps
(`FewestBits`), but because there is one step less than there are codes, a step can be up to twice as
large as the precision; it is hardly larger when the array has many steps.
-/

set_option exponentiation.threshold 2000

namespace Tmf.Props
open Spec Ieee

variable {lib : Libm}

/-- The ends of a float array, and their rounded difference. -/
theorem range_span {data : List (Val b32)} {lo hi : ℚ} (he : Extent data lo hi) (hlt : lo < hi)
    (hlo : |lo| ≤ 2 ^ 120) (hhi : |hi| ≤ 2 ^ 120) :
    isFinite (sub (rangeOf data).2 (rangeOf data).1) = true ∧
    |valueOf (sub (rangeOf data).2 (rangeOf data).1) - (hi - lo)| ≤ (hi - lo) / 2 ^ 24 := by
  obtain ⟨x0, hx0, e0⟩ := he.lo_mem
  obtain ⟨x1, hx1, e1⟩ := he.hi_mem
  have hbig : (2 : ℚ) ^ 120 < maxV b32 := lt_of_lt_of_le (by norm_num) maxV32
  have hsmall : ∀ x ∈ data, isFinite x = true ∧ |valueOf x| < maxV b32 := by
    intro x hx
    obtain ⟨a, c⟩ := he.bounds x hx
    rw [abs_le] at hlo hhi
    exact ⟨he.finite x hx, lt_of_le_of_lt (abs_le.mpr ⟨by linarith, by linarith⟩) hbig⟩
  obtain ⟨m1, m2, hb⟩ := rangeOf_value (List.ne_nil_of_mem hx0) hsmall
  have v1 : valueOf (rangeOf data).1 = lo := le_antisymm (by rw [← e0]; exact (hb x0 hx0).1) (he.bounds _ m1).1
  have v2 : valueOf (rangeOf data).2 = hi := le_antisymm (he.bounds _ m2).2 (by rw [← e1]; exact (hb x1 hx1).2)
  obtain ⟨k1, hk1⟩ := units_valueOf (rangeOf data).1
  obtain ⟨k2, hk2⟩ := units_valueOf (rangeOf data).2
  have hd : 0 < hi - lo := by linarith
  obtain ⟨hf, hv⟩ := sub_value (f := b32) (by decide) (he.finite _ m2) (he.finite _ m1) (by
    rw [v1, v2, abs_of_pos hd]
    rw [abs_le] at hlo hhi
    have : (2 : ℚ) ^ 121 ≤ maxV b32 := le_trans (by norm_num) maxV32
    have e : (2 : ℚ) ^ 121 = 2 ^ 120 + 2 ^ 120 := by norm_num
    linarith)
  refine ⟨hf, ?_⟩
  rw [hv, v1, v2]
  have := rnd_error_units (f := b32) (by decide) (v := hi - lo) (k := k2 - k1) (by
    rw [← v1, ← v2, sub_mul, hk1, hk2]; push_cast; rfl)
  rwa [abs_of_pos hd] at this

/-- The width of a float array, against the exact range. -/
theorem float_bits (hlog : AccurateLog2 lib) {data : List (Val b32)} {prec : Val b32} {lo hi : ℚ} (he : Extent data lo hi)
    (hlt : lo < hi) (hlo : |lo| ≤ 2 ^ 120) (hhi : |hi| ≤ 2 ^ 120) (hf : isFinite prec = true) (h0 : 0 < valueOf prec)
    (hm : (hi - lo) / valueOf prec ≤ 2 ^ 120) :
    1 ≤ floatPrec (ops lib) data prec ∧
    (hi - lo) / valueOf prec ≤ 2 ^ floatPrec (ops lib) data prec * (1 + 1 / 2 ^ 17) * (1 + 1 / 2 ^ 21) ∧
    (1 < floatPrec (ops lib) data prec →
      2 ^ (floatPrec (ops lib) data prec - 1) * (1 - 1 / 2 ^ 17) * (1 - 1 / 2 ^ 21) < (hi - lo) / valueOf prec) := by
  obtain ⟨hs, hd⟩ := range_span he hlt hlo hhi
  rw [floatPrec_ops lib, floatBits]
  generalize sub (rangeOf data).2 (rangeOf data).1 = s at *
  obtain ⟨d1, d2⟩ := abs_le.mp hd
  have hpos : 0 < hi - lo := by linarith
  have hs0 : 0 < valueOf s := by linarith
  have q1 : (hi - lo) / valueOf prec * (1 - 1 / 2 ^ 24) ≤ valueOf s / valueOf prec := by
    rw [div_mul_eq_mul_div]
    exact div_le_div_of_nonneg_right (by linarith) h0.le
  have q2 : valueOf s / valueOf prec ≤ (hi - lo) / valueOf prec * (1 + 1 / 2 ^ 24) := by
    rw [div_mul_eq_mul_div]
    exact div_le_div_of_nonneg_right (by linarith) h0.le
  obtain ⟨_, b2, b3⟩ := quotient_bits hlog hs hf hs0 h0 (by
    refine le_trans q2 (le_trans (mul_le_mul_of_nonneg_right hm (by norm_num)) ?_)
    norm_num)
  generalize bitsFor lib (div s prec) = p at *
  have hq0 : 0 < (hi - lo) / valueOf prec := div_pos hpos h0
  generalize (hi - lo) / valueOf prec = q at *
  generalize valueOf s / valueOf prec = r at *
  refine ⟨le_max_right _ _, ?_, fun h => ?_⟩
  · have hP : (2 : ℚ) ^ p ≤ 2 ^ Max.max p 1 := pow_le_pow_right₀ (by norm_num) (le_max_left _ _)
    have h : (0 : ℚ) < 2 ^ p := by positivity
    generalize (2 : ℚ) ^ Max.max p 1 = P at *
    norm_num at b2 q1 ⊢
    linarith
  · have hp : Max.max p 1 = p := by omega
    rw [hp] at h ⊢
    have h4 := lt_of_lt_of_le (b3 (by omega)) q2
    have h : (0 : ℚ) < 2 ^ (p - 1) := by positivity
    generalize (2 : ℚ) ^ (p - 1) = P at *
    norm_num at h4 ⊢
    linarith

theorem fewest_rat {least p : Nat} {q : ℚ} (hl : least ≤ p) (h1 : q ≤ 2 ^ p * (1 + 1 / 2 ^ 17) * (1 + 1 / 2 ^ 21))
    (h2 : least < p → 2 ^ (p - 1) * (1 - 1 / 2 ^ 17) * (1 - 1 / 2 ^ 21) < q) : FewestBits least p q := by
  refine fewest_of hl ?_ fun h => ?_
  · have := (Rat.cast_le (K := ℝ)).mpr h1
    push_cast at this ⊢
    exact this
  · have := (Rat.cast_lt (K := ℝ)).mpr (h2 h)
    push_cast at this ⊢
    exact this

/-- C60, bits of float data: at least one, and the fewest that divide the range into steps no larger
than the precision asked for. -/
theorem C60_float_bits (hlog : AccurateLog2 lib) {data : List (Val b32)} {prec : Val b32} {lo hi : ℚ} (he : Extent data lo hi)
    (hlt : lo < hi) (hlo : |lo| ≤ 2 ^ 120) (hhi : |hi| ≤ 2 ^ 120) (hf : isFinite prec = true) (h0 : 0 < valueOf prec)
    (hm : (hi - lo) / valueOf prec ≤ 2 ^ 120) :
    FewestBits 1 (floatPrec (ops lib) data prec) ((hi - lo) / valueOf prec : ℚ) := by
  obtain ⟨h1, h2, h3⟩ := float_bits hlog he hlt hlo hhi hf h0 hm
  exact fewest_rat h1 h2 h3

/-- The precision asked for, and the rounding allowed for in C60. -/
theorem float_step {p : Nat} {s d : ℚ} (hd : 0 < d) (hs : 0 < s) (hp : 1 ≤ p)
    (h : s / d ≤ 2 ^ p * (1 + 1 / 2 ^ 17) * (1 + 1 / 2 ^ 21)) :
    s / (2 ^ p - 1) ≤ 2 * (d * (1 + 1 / 2 ^ 16)) ∧
    (d * (1 + 1 / 2 ^ 16) < s → s / (2 ^ p - 1) ≤ d * (1 + 1 / 2 ^ 16) * (s / (s - d * (1 + 1 / 2 ^ 16)))) := by
  have hP : (2 : ℚ) ≤ 2 ^ p := by
    calc (2 : ℚ) = 2 ^ 1 := by norm_num
      _ ≤ 2 ^ p := pow_le_pow_right₀ (by norm_num) hp
  rw [div_le_iff₀ hd] at h
  generalize (2 : ℚ) ^ p = P at *
  have hle : s ≤ P * (d * (1 + 1 / 2 ^ 16)) := by
    refine le_trans h ?_
    rw [show P * (1 + 1 / 2 ^ 17) * (1 + 1 / 2 ^ 21) * d = P * (d * ((1 + 1 / 2 ^ 17) * (1 + 1 / 2 ^ 21))) by ring]
    refine mul_le_mul_of_nonneg_left (mul_le_mul_of_nonneg_left ?_ hd.le) (by linarith)
    norm_num
  have he : 0 < d * (1 + 1 / 2 ^ 16) := by positivity
  generalize d * (1 + 1 / 2 ^ 16) = e at *
  refine ⟨?_, fun hes => ?_⟩
  · rw [div_le_iff₀ (by linarith)]
    nlinarith
  · have h1 : 0 < s - e := by linarith
    rw [div_le_iff₀ (by linarith), ← mul_div_assoc, div_mul_eq_mul_div, le_div_iff₀ h1]
    nlinarith

/-- C60 for float data (the full claim, that no number moves by more than the precision, is false, see
`C60_float_violated`): every number of the array comes back within twice the precision asked for, up to
the rounding of the f32 arithmetic; and when the range `hi - lo` has many steps the factor is
`span / (span - prec)`, which tends to one. -/
theorem C60_float_partial (hlog : AccurateLog2 lib) {fb : F64Bytes (ops lib)} {b : Build} {data : List (Val b32)} {prec : Val b32}
    {lo hi d : ℚ} (he : Extent data lo hi) (hlt : lo < hi) (hlo : |lo| ≤ 2 ^ 120) (hhi : |hi| ≤ 2 ^ 120)
    (hf : isFinite prec = true) (h0 : 0 < valueOf prec) (hm : (hi - lo) / valueOf prec ≤ 2 ^ 23) (hl : data.length ≤ 2 ^ 31)
    (hd : d = valueOf prec * (1 + 1 / 2 ^ 16)) :
    ∃ bytes data' prec', saveFloats (ops lib) fb b data prec = .ok bytes ∧
      readFloats (ops lib) fb bytes = .ok (.float data' prec') ∧
      List.Forall₂ (Within (2 * d + Max.max |lo| |hi| / 2 ^ 19 + 1 / 2 ^ 148)) data data' ∧
      (d < hi - lo → List.Forall₂ (Within (d * ((hi - lo) / (hi - lo - d)) + Max.max |lo| |hi| / 2 ^ 19 + 1 / 2 ^ 148)) data data') := by
  obtain ⟨h1, h2, h3⟩ := float_bits hlog he hlt hlo hhi hf h0 (le_trans hm (by norm_num))
  have hp : floatPrec (ops lib) data prec ≤ 24 := by
    by_contra hc
    have h4 := lt_of_lt_of_le (h3 (by omega)) hm
    have : (2 : ℚ) ^ 24 ≤ 2 ^ (floatPrec (ops lib) data prec - 1) := pow_le_pow_right₀ (by norm_num) (by omega)
    generalize (2 : ℚ) ^ (floatPrec (ops lib) data prec - 1) = P at *
    norm_num at h4 this
    linarith
  obtain ⟨bytes, data', prec', hw, hr, hk⟩ := C40_float_partial lib (fb := fb) (b := b) he hlt hlo hhi hp hl
  obtain ⟨s1, s2⟩ := float_step h0 (by linarith : 0 < hi - lo) h1 h2
  rw [← hd] at s1 s2
  exact ⟨bytes, data', prec', hw, hr, hk.imp fun _ _ h => ⟨h.1, le_trans h.2 (by linarith)⟩,
    fun hds => hk.imp fun _ _ h => ⟨h.1, le_trans h.2 (by linarith [s2 hds])⟩⟩

/-- 1, 9/64 and 3/2 with the precision 1/100. -/
example (hlog : AccurateLog2 lib) (fb : F64Bytes (ops lib)) (b : Build) : ∃ bytes data' prec',
    saveFloats (ops lib) fb b [vOne, nine64, threeHalves] (lit 1 2) = .ok bytes ∧
    readFloats (ops lib) fb bytes = .ok (.float data' prec') ∧
    List.Forall₂ (Within (101 / 10000)) [vOne, nine64, threeHalves] data' := by
  have hv : (lit 1 2 : Val b32) = .fin false (10737418 * 2 ^ 119) (by decide +kernel) := by decide +kernel
  have hval : valueOf (lit 1 2 : Val b32) = 10737418 / 2 ^ 30 := by
    rw [hv, valueOf_fin, show b32.scale = 149 from rfl]; norm_num [sgn]
  obtain ⟨bytes, data', prec', hw, hr, _, hk⟩ := C60_float_partial hlog (fb := fb) (b := b) (prec := lit 1 2) extent_example
    (by norm_num) (by rw [abs_of_nonneg] <;> norm_num) (by rw [abs_of_nonneg] <;> norm_num) (by rw [hv]; rfl)
    (by rw [hval]; norm_num) (by rw [hval]; norm_num) (by show 3 ≤ 2 ^ 31; decide) rfl
  refine ⟨bytes, data', prec', hw, hr, (hk (by rw [hval]; norm_num)).imp fun _ _ h => ⟨h.1, le_trans h.2 ?_⟩⟩
  rw [hval, abs_of_nonneg (by norm_num : (0 : ℚ) ≤ 9 / 64), abs_of_nonneg (by norm_num : (0 : ℚ) ≤ 3 / 2)]
  norm_num

/-- Three quarters. -/
def threeQ : Val b32 := .fin false (3 * 2 ^ 147) (by decide +kernel)
theorem valueOf_threeQ : valueOf threeQ = 3 / 4 := by
  rw [threeQ, valueOf_fin, show b32.scale = 149 from rfl]; norm_num [sgn]
theorem valueOf_vHalf' : valueOf vHalf = 1 / 2 := by
  rw [vHalf, valueOf_fin, show b32.scale = 149 from rfl]; norm_num [sgn]
theorem rangeOf_threeQ : rangeOf [vZero, threeQ, vOne] = (vZero, vOne) := by decide +kernel
theorem floatQ_threeQ : floatQ 1 vZero vOne threeQ = vZero := by decide +kernel

theorem floatBits_threeQ (hlog : AccurateLog2 lib) : floatBits lib [vZero, threeQ, vOne] vHalf = 1 := by
  rw [floatBits_clear lib hlog] <;> decide +kernel

/-- C60 is false without the factor two: `0, 3/4, 1` saved with precision 1/2 come back as `0, 0, 1`. -/
theorem C60_float_violated (hlog : AccurateLog2 lib) {fb : F64Bytes (ops lib)} {b : Build} :
    ∃ bytes x z prec', saveFloats (ops lib) fb b [vZero, threeQ, vOne] vHalf = .ok bytes ∧
      readFloats (ops lib) fb bytes = .ok (.float [x, vZero, z] prec') ∧
      valueOf vHalf < |valueOf vZero - valueOf threeQ| := by
  have hp : floatPrec (ops lib) [vZero, threeQ, vOne] vHalf = 1 := by
    rw [floatPrec_ops lib, floatBits_threeQ hlog]
  obtain ⟨bytes, hs, hr⟩ := readFloats_saved (fo := ops lib) (fb := fb) (b := b) (data := [vZero, threeQ, vOne]) (prec := vHalf)
    (by rw [hp]; decide) (by show 3 ≤ 2 ^ 31; decide)
  have h := hr []
  rw [List.append_nil, quantFloats, floatRange_ops lib, hp, rangeOf_threeQ, List.map_cons, List.map_cons, List.map_cons,
    List.map_nil, quantFloat_ops lib, quantFloat_ops lib, quantFloat_ops lib] at h
  dsimp only at h
  rw [floatQ_threeQ] at h
  refine ⟨bytes, _, _, _, hs, h, ?_⟩
  rw [valueOf_vHalf', valueOf_vZero, valueOf_threeQ, zero_sub, abs_neg, abs_of_pos (by norm_num)]
  norm_num

/-! ### Colours -/

theorem color_bits (hlog : AccurateLog2 lib) {prec : Val b32} (hf : isFinite prec = true) (h0 : 1 / 2 ^ 120 ≤ valueOf prec)
    (h1 : valueOf prec < 1) :
    1 / valueOf prec ≤ 2 ^ colorPrec (ops lib) prec * (1 + 1 / 2 ^ 17) * (1 + 1 / 2 ^ 21) ∧
    (0 < colorPrec (ops lib) prec →
      2 ^ (colorPrec (ops lib) prec - 1) * (1 - 1 / 2 ^ 17) * (1 - 1 / 2 ^ 21) < 1 / valueOf prec) := by
  have hpos : 0 < valueOf prec := lt_of_lt_of_le (by positivity) h0
  have hone : (lit 1 0 : Val b32) = vOne := by decide +kernel
  have hmin : Ieee.min prec vOne = prec := by
    rcases min_cases hf (show isFinite vOne = true from rfl) with ⟨h, _⟩ | ⟨h, h'⟩
    · exact h
    · rw [valueOf_vOne] at h'
      linarith
  rw [colorPrec_ops lib, colorBits, colorSteps, hone, hmin]
  obtain ⟨_, b2, b3⟩ := quotient_bits hlog (a := vOne) (d := prec) rfl hf (by rw [valueOf_vOne]; norm_num) hpos (by
    rw [valueOf_vOne, div_le_iff₀ hpos]
    refine le_trans ?_ (mul_le_mul_of_nonneg_left h0 (by positivity))
    norm_num)
  rw [valueOf_vOne] at b2 b3
  refine ⟨le_trans b2 ?_, fun h => lt_of_le_of_lt ?_ (b3 h)⟩
  · have : (0 : ℚ) < 2 ^ bitsFor lib (div vOne prec) := by positivity
    norm_num
  · have : (0 : ℚ) < 2 ^ (bitsFor lib (div vOne prec) - 1) := by positivity
    norm_num

/-- C60, bits of colours: the fewest that divide [0,1] into steps no larger than the precision asked
for. -/
theorem C60_color_bits (hlog : AccurateLog2 lib) {prec : Val b32} (hf : isFinite prec = true) (h0 : 1 / 2 ^ 120 ≤ valueOf prec)
    (h1 : valueOf prec < 1) : FewestBits 0 (colorPrec (ops lib) prec) (1 / valueOf prec : ℚ) := by
  obtain ⟨h2, h3⟩ := color_bits hlog hf h0 h1
  exact fewest_rat (Nat.zero_le _) h2 h3

/-- C60 for colours (the full claim, that no channel moves by more than the precision, is false, see
`C60_color_violated`; a precision of 1 or more loses the colours, see `C40_color_zero_violated`): every
channel comes back at most `prec / (1 - prec)` below the original, up to a part in `2^16` of `prec`. -/
theorem C60_color_partial (hlog : AccurateLog2 lib) {b b' : Build} {data : List (Vec4 (Val b32))} {prec : Val b32} {d : ℚ}
    (hf : isFinite prec = true) (h0 : 1 / 2 ^ 23 ≤ valueOf prec) (h1 : valueOf prec ≤ 1 / 2) (hl : data.length ≤ 2 ^ 31)
    (hu : ∀ c ∈ data, UnitValue c.1 ∧ UnitValue c.2.1 ∧ UnitValue c.2.2.1 ∧ UnitValue c.2.2.2)
    (hd : d = valueOf prec * (1 + 1 / 2 ^ 16)) :
    ∃ bytes data' prec', saveColors (ops lib) b data prec = .ok bytes ∧
      readColors (ops lib) b' bytes = .ok (.color data' prec') ∧
      List.Forall₂ (fun c c' => Below (d / (1 - d)) c.1 c'.1 ∧ Below (d / (1 - d)) c.2.1 c'.2.1 ∧
        Below (d / (1 - d)) c.2.2.1 c'.2.2.1 ∧ Below (d / (1 - d)) c.2.2.2 c'.2.2.2) data data' := by
  have hpos : 0 < valueOf prec := lt_of_lt_of_le (by positivity) h0
  obtain ⟨h2, h3⟩ := color_bits hlog hf (le_trans (by norm_num) h0) (by linarith)
  have hq1 : 2 ≤ 1 / valueOf prec := by rw [le_div_iff₀ hpos]; linarith
  have hq2 : 1 / valueOf prec ≤ 2 ^ 23 := by
    rw [div_le_iff₀ hpos]
    have := mul_le_mul_of_nonneg_left h0 (by positivity : (0 : ℚ) ≤ 2 ^ 23)
    norm_num at this ⊢
    linarith
  have hp1 : 1 ≤ colorPrec (ops lib) prec := by
    by_contra hc
    have hz : colorPrec (ops lib) prec = 0 := by omega
    rw [hz] at h2
    norm_num at h2 hq1
    linarith
  have hp : colorPrec (ops lib) prec ≤ 24 := by
    by_contra hc
    have h4 := lt_of_lt_of_le (h3 (by omega)) hq2
    have : (2 : ℚ) ^ 24 ≤ 2 ^ (colorPrec (ops lib) prec - 1) := pow_le_pow_right₀ (by norm_num) (by omega)
    generalize (2 : ℚ) ^ (colorPrec (ops lib) prec - 1) = P at *
    norm_num at h4 this
    linarith
  obtain ⟨_, s2⟩ := float_step hpos (by norm_num : (0 : ℚ) < 1) hp1 h2
  rw [← hd] at s2
  have hd1 : d < 1 := by rw [hd]; norm_num; linarith
  have hstep : 1 / (2 ^ colorPrec (ops lib) prec - 1) ≤ d / (1 - d) := by
    have := s2 hd1
    rwa [mul_one_div] at this
  obtain ⟨bytes, data', prec', hw, hr, hk⟩ := C40_color_partial lib (b := b) (b' := b') hp1 (.inl (by omega)) hl (fun c hc =>
    ⟨⟨(hu c hc).1, .inl hp⟩, ⟨(hu c hc).2.1, .inl hp⟩, ⟨(hu c hc).2.2.1, .inl hp⟩, ⟨(hu c hc).2.2.2, .inl hp⟩⟩)
  have up : ∀ {x y : Val b32}, StepBelow (colorPrec (ops lib) prec) x y → Below (d / (1 - d)) x y :=
    fun h => ⟨h.1, h.2.1, lt_of_lt_of_le h.2.2 hstep⟩
  exact ⟨bytes, data', prec', hw, hr, hk.imp fun c c' h => ⟨up h.1, up h.2.1, up h.2.2.1, up h.2.2.2⟩⟩

/-- A colour and the default precision of 1/100. -/
example : isFinite (lit 1 2 : Val b32) = true ∧ 1 / 2 ^ 23 ≤ valueOf (lit 1 2 : Val b32) ∧ valueOf (lit 1 2 : Val b32) ≤ 1 / 2 ∧
    UnitValue nine64 ∧ UnitValue threeQ := by
  have hv : (lit 1 2 : Val b32) = .fin false (10737418 * 2 ^ 119) (by decide +kernel) := by decide +kernel
  have hval : valueOf (lit 1 2 : Val b32) = 10737418 / 2 ^ 30 := by
    rw [hv, valueOf_fin, show b32.scale = 149 from rfl]; norm_num [sgn]
  refine ⟨by rw [hv]; rfl, by rw [hval]; norm_num, by rw [hval]; norm_num, (storable_nine64 1).1, rfl, ?_⟩
  rw [valueOf_threeQ]; norm_num

theorem channelQ_threeQ : channelQ 1 threeQ = vZero := by decide +kernel

/-- C60 is false for colours: the channel 3/4 saved with precision 1/2 comes back as 0. -/
theorem C60_color_violated (hlog : AccurateLog2 lib) {b b' : Build} :
    ∃ bytes prec', saveColors (ops lib) b [(threeQ, threeQ, threeQ, threeQ)] vHalf = .ok bytes ∧
      readColors (ops lib) b' bytes = .ok (.color [(vZero, vZero, vZero, vZero)] prec') ∧
      valueOf vHalf < valueOf threeQ - valueOf vZero := by
  have hp : colorPrec (ops lib) vHalf = 1 := by
    rw [colorPrec_ops lib, colorBits_clear lib hlog] <;> decide +kernel
  obtain ⟨bytes, hs, hr⟩ := readColors_saved (fo := ops lib) (b := b) (b' := b') (data := [(threeQ, threeQ, threeQ, threeQ)])
    (prec := vHalf) (by rw [hp]; decide) (by show 1 ≤ 2 ^ 31; decide)
  have h1 := hr []
  rw [List.append_nil, quantColors, hp, List.map_cons, List.map_nil, quantColor_ops lib, channelQ_threeQ] at h1
  refine ⟨bytes, _, hs, h1, ?_⟩
  rw [valueOf_vHalf', valueOf_vZero, valueOf_threeQ]
  norm_num

end Tmf.Props
