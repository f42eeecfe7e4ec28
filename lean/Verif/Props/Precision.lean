import Verif.Lemmas.Log2
import Verif.Lemmas.LibmWitness
import Verif.Lemmas.FileRoundTrip
import Verif.Spec.Precision
/-
C52: the number of bits chosen for a requested deviation.
-/

set_option exponentiation.threshold 2000

namespace Tmf.Props
open Spec Ieee

variable {lib : Libm}

/-- The bits for the rounded quotient of two positive numbers. -/
theorem quotient_bits (hlog : AccurateLog2 lib) {a d : Val b32} (ha : isFinite a = true) (hd : isFinite d = true)
    (ha0 : 0 < valueOf a) (hd0 : 0 < valueOf d) (hm : valueOf a / valueOf d ≤ 2 ^ 127) :
    bitsFor lib (div a d) < 255 ∧ valueOf a / valueOf d ≤ 2 ^ bitsFor lib (div a d) * (1 + 1 / 2 ^ 17) * (1 + 1 / 2 ^ 22) ∧
    (0 < bitsFor lib (div a d) →
      2 ^ (bitsFor lib (div a d) - 1) * (1 - 1 / 2 ^ 17) * (1 - 1 / 2 ^ 22) < valueOf a / valueOf d) := by
  have hq : 0 < valueOf a / valueOf d := div_pos ha0 hd0
  obtain ⟨hf, hv⟩ := div_value (f := b32) (by decide) ha hd hd0.ne' (by
    rw [abs_of_pos hq]
    refine le_trans hm ?_
    rw [maxV, le_div_iff₀ (units_pos _)]
    have : 2 ^ 127 * 2 ^ b32.scale ≤ b32.max := by decide +kernel
    exact_mod_cast this)
  generalize valueOf a / valueOf d = q at *
  generalize div a d = r at *
  have herr := rnd_error (f := b32) (by decide) q
  rw [abs_of_pos hq, ← hv, show b32.prec = 24 from rfl, show b32.scale = 149 from rfl] at herr
  obtain ⟨e1, e2⟩ := abs_le.mp herr
  have tiny : (1 : ℚ) / 2 ^ (149 + 1) ≤ 1 / 2 ^ 24 * (1 / 2) := by norm_num
  have hlt : bitsFor lib r < 255 := by
    rcases lt_or_ge (valueOf r) 1 with h1 | h1
    · by_contra hc
      have hle := (bits_pos hlog (r := r) (p := bitsFor lib r) rfl)
      have hr0 : 0 ≤ valueOf r := by rw [hv]; exact rnd_nonneg hq.le
      rcases hr0.eq_or_lt with h | h
      · obtain ⟨s, n, hn, rfl⟩ := finite_cases hf
        have hn0 : n = 0 := by
          have := abs_valueOf_fin s n hn
          rw [← h, abs_zero, eq_comm, div_eq_zero_iff] at this
          rcases this with h | h
          · exact_mod_cast h
          · exact absurd h (units_pos _).ne'
        subst hn0
        apply hc
        show ceilU8 (lib.log2 _) < 255
        rw [hlog.zero]
        decide
      · obtain ⟨hf', hle'⟩ := hlog.below_one r hf h h1
        have := (ceilU8_le_iff hf' (k := 0) (by norm_num)).mpr (by exact_mod_cast hle')
        exact hc (lt_of_le_of_lt this (by decide))
    · refine lt_of_le_of_lt ((bits_spec hlog hf h1 (k := 128) (by norm_num)).2 ?_) (by norm_num)
      have : valueOf r ≤ 2 ^ 127 * (1 + 1 / 2 ^ 24) + 1 := by
        have := div_le_div_of_nonneg_right hm (show (0 : ℚ) ≤ 2 ^ 24 by norm_num)
        have : (2 : ℚ) ^ 127 * (1 + 1 / 2 ^ 24) = 2 ^ 127 + 2 ^ 127 / 2 ^ 24 := by ring
        linarith
      refine le_trans this ?_
      norm_num
  refine ⟨hlt, ?_, ?_⟩
  · have hle := bits_le hlog (r := r) (p := bitsFor lib r) rfl hlt
    have hP : (1 : ℚ) ≤ 2 ^ bitsFor lib r := one_le_pow₀ (by norm_num)
    generalize (2 : ℚ) ^ bitsFor lib r = P at *
    have h1 : q * (1 - 1 / 2 ^ 24) ≤ P * (1 + 1 / 2 ^ 17) + P * (1 / 2 ^ 24 * (1 / 2)) := by
      have e : q * (1 - 1 / 2 ^ 24) = q - q / 2 ^ 24 := by ring
      have : (1 : ℚ) / 2 ^ 24 * (1 / 2) ≤ P * (1 / 2 ^ 24 * (1 / 2)) := le_mul_of_one_le_left (by norm_num) hP
      linarith
    norm_num at h1 ⊢
    linarith
  · intro hp
    obtain ⟨_, h1⟩ := bits_pos hlog (r := r) (p := bitsFor lib r) rfl hp hlt
    by_contra hc
    push Not at hc
    generalize hk : bitsFor lib r = p at *
    have hP : (1 : ℚ) ≤ 2 ^ (p - 1) := one_le_pow₀ (by norm_num)
    have := (bits_spec hlog hf h1 (k := p - 1) (by omega)).2 (by
      generalize (2 : ℚ) ^ (p - 1) = P at *
      have h2 : valueOf r ≤ q * (1 + 1 / 2 ^ 24) + 1 / 2 ^ 25 := by
        have e : q * (1 + 1 / 2 ^ 24) = q + q / 2 ^ 24 := by ring
        norm_num at tiny e2 e ⊢
        linarith
      norm_num at h2 hc ⊢
      linarith)
    have hk' : ceilU8 (lib.log2 r) = p := hk
    omega

/-- A bound that fits `FewestBits`. -/
theorem fewest_of {least p : Nat} {q : ℝ} (hl : least ≤ p) (h1 : q ≤ 2 ^ p * (1 + 1 / 2 ^ 17) * (1 + 1 / 2 ^ 21))
    (h2 : least < p → 2 ^ (p - 1) * (1 - 1 / 2 ^ 17) * (1 - 1 / 2 ^ 21) < q) : FewestBits least p q := by
  refine ⟨hl, ?_, fun h => lt_of_le_of_lt ?_ (h2 h)⟩
  · refine le_trans h1 ?_
    have : (0 : ℝ) < 2 ^ p := by positivity
    norm_num
    linarith
  · have : (0 : ℝ) < 2 ^ (p - 1) := by positivity
    norm_num
    linarith

theorem real_quotient (a d : Val b32) : ((valueOf a / valueOf d : ℚ) : ℝ) = realOf a / realOf d := by
  rw [realOf, realOf]; push_cast; rfl

theorem bits_real (hlog : AccurateLog2 lib) {a d : Val b32} (ha : isFinite a = true) (hd : isFinite d = true)
    (ha0 : 0 < valueOf a) (hd0 : 0 < valueOf d) (hm : valueOf a / valueOf d ≤ 2 ^ 127) :
    bitsFor lib (div a d) < 255 ∧ realOf a / realOf d ≤ 2 ^ bitsFor lib (div a d) * (1 + 1 / 2 ^ 17) * (1 + 1 / 2 ^ 22) ∧
    (0 < bitsFor lib (div a d) →
      2 ^ (bitsFor lib (div a d) - 1) * (1 - 1 / 2 ^ 17) * (1 - 1 / 2 ^ 22) < realOf a / realOf d) := by
  obtain ⟨h1, h2, h3⟩ := quotient_bits hlog ha hd ha0 hd0 hm
  rw [← real_quotient]
  refine ⟨h1, ?_, fun h => ?_⟩
  · have := (Rat.cast_le (K := ℝ)).mpr h2
    push_cast at this ⊢
    exact this
  · have := (Rat.cast_lt (K := ℝ)).mpr (h3 h)
    push_cast at this ⊢
    exact this

theorem ninety_value : isFinite (lit 90 0 : Val b32) = true ∧ valueOf (lit 90 0 : Val b32) = 90 := by
  have h : (lit 90 0 : Val b32) = .fin false (90 * 2 ^ 149) (by decide +kernel) := by decide +kernel
  rw [h, valueOf_fin]
  refine ⟨rfl, ?_⟩
  rw [show b32.scale = 149 from rfl]
  simp only [sgn, Bool.false_eq_true, if_false, one_mul]
  norm_num

/-- C52, degrees: at least one bit, and the fewest that divide a right angle into steps no larger than
the deviation asked for. -/
theorem C52_degrees (hlog : AccurateLog2 lib) {deg : Val b32} (hd : isFinite deg = true) (h0 : 1 / 2 ^ 120 ≤ valueOf deg) :
    FewestBits 1 (normalPrecFromDeg (ops lib) deg) (90 / realOf deg) := by
  obtain ⟨hf, hv⟩ := ninety_value
  have hpos : 0 < valueOf deg := lt_of_lt_of_le (by positivity) h0
  obtain ⟨_, h2, h3⟩ := bits_real hlog hf hd (by rw [hv]; norm_num) hpos (by
    rw [hv, div_le_iff₀ hpos]
    refine le_trans ?_ (mul_le_mul_of_nonneg_left h0 (by positivity))
    norm_num)
  have h90 : realOf (lit 90 0 : Val b32) = 90 := by rw [realOf, hv]; norm_num
  rw [h90] at h2 h3
  have hp : normalPrecFromDeg (ops lib) deg = max (bitsFor lib (div (lit 90 0) deg)) 1 := rfl
  rw [hp]
  generalize bitsFor lib (div (lit 90 0) deg) = p at *
  refine fewest_of (le_max_right _ _) ?_ ?_
  · refine le_trans h2 ?_
    have : (2 : ℝ) ^ p ≤ 2 ^ max p 1 := pow_le_pow_right₀ (by norm_num) (le_max_left _ _)
    have h : (0 : ℝ) < 2 ^ p := by positivity
    norm_num
    linarith
  · intro h
    have hp1 : max p 1 = p := by omega
    rw [hp1] at h ⊢
    refine lt_trans ?_ (h3 (by omega))
    have : (0 : ℝ) < 2 ^ (p - 1) := by positivity
    norm_num

/-- A tenth of a degree. -/
example : AccurateLog2 someLibm ∧ isFinite (lit 1 1 : Val b32) = true ∧ 1 / 2 ^ 120 ≤ valueOf (lit 1 1 : Val b32) ∧
    normalPrecFromDeg (ops someLibm) (lit 1 1) = 10 := by
  have h : (lit 1 1 : Val b32) = .fin false (13421773 * 2 ^ 122) (by decide +kernel) := by decide +kernel
  refine ⟨someLibm_log2, by rw [h]; rfl, ?_, ?_⟩
  · rw [h, valueOf_fin, show b32.scale = 149 from rfl]; norm_num [sgn]
  · have h : bitsFor someLibm (div (lit 90 0) (lit 1 1)) = 10 := by rw [bits_clear someLibm_log2] <;> decide +kernel
    show Nat.max (bitsFor someLibm (div (lit 90 0) (lit 1 1))) 1 = 10
    rw [h]; rfl

/-- C52, radians (the full claim, that there is always at least one bit, is false, see
`C52_radians_violated`). -/
theorem C52_radians_partial (hlog : AccurateLog2 lib) {rad : Val b32} (hd : isFinite rad = true) (h0 : 1 / 2 ^ 120 ≤ valueOf rad) :
    FewestBits 0 (normalPrecFromRad (ops lib) rad) (Real.pi / 2 / realOf rad) := by
  have hv := realOf_halfPi
  have hvq : valueOf halfPi32 = 13176795 / 2 ^ 23 := by
    rw [realOf] at hv
    have : ((valueOf halfPi32 : ℚ) : ℝ) = ((13176795 / 2 ^ 23 : ℚ) : ℝ) := by rw [hv]; push_cast; rfl
    exact_mod_cast this
  have hf : isFinite halfPi32 = true := by decide +kernel
  have hpos : 0 < valueOf rad := lt_of_lt_of_le (by positivity) h0
  obtain ⟨_, h2, h3⟩ := bits_real hlog hf hd (by rw [hvq]; norm_num) hpos (by
    rw [hvq, div_le_iff₀ hpos]
    refine le_trans ?_ (mul_le_mul_of_nonneg_left h0 (by positivity))
    norm_num)
  have hp : normalPrecFromRad (ops lib) rad = bitsFor lib (div halfPi32 rad) := rfl
  rw [hp]
  generalize bitsFor lib (div halfPi32 rad) = p at *
  obtain ⟨a1, a2⟩ := halfPi_above
  have hr := realOf_pos hpos
  have hpi : (1 : ℝ) < Real.pi / 2 := by linarith [Real.pi_gt_three]
  have hlow : Real.pi / 2 / realOf rad ≤ realOf halfPi32 / realOf rad := div_le_div_of_nonneg_right a1.le hr.le
  have hhigh : realOf halfPi32 / realOf rad ≤ Real.pi / 2 / realOf rad * (1 + 1 / 2 ^ 24) := by
    rw [div_mul_eq_mul_div]
    refine div_le_div_of_nonneg_right ?_ hr.le
    have : (1 : ℝ) / 2 ^ 24 ≤ Real.pi / 2 * (1 / 2 ^ 24) := le_mul_of_one_le_left (by norm_num) hpi.le
    linarith
  refine fewest_of (Nat.zero_le _) ?_ ?_
  · refine le_trans hlow (le_trans h2 ?_)
    have h : (0 : ℝ) < 2 ^ p := by positivity
    norm_num
  · intro h
    have h4 := lt_of_lt_of_le (h3 h) hhigh
    have hP : (0 : ℝ) < 2 ^ (p - 1) := by positivity
    generalize (2 : ℝ) ^ (p - 1) = P at *
    generalize Real.pi / 2 / realOf rad = q at *
    norm_num at h4 ⊢
    linarith

/-- C52, uv coordinates: the fewest bits whose steps are no larger than the deviation asked for. -/
theorem C52_uv (hlog : AccurateLog2 lib) {res dev : Val b32} (hr : isFinite res = true) (hd : isFinite dev = true)
    (hr0 : 0 < valueOf res) (hd0 : 0 < valueOf dev) (hm : valueOf res / valueOf dev ≤ 2 ^ 127) :
    FewestBits 0 (uvPrecFromTexture (ops lib) res dev) (realOf res / realOf dev) := by
  obtain ⟨_, h2, h3⟩ := bits_real hlog hr hd hr0 hd0 hm
  have hp : uvPrecFromTexture (ops lib) res dev = bitsFor lib (div res dev) := rfl
  rw [hp]
  generalize bitsFor lib (div res dev) = p at *
  refine fewest_of (Nat.zero_le _) (le_trans h2 ?_) (fun h => lt_of_le_of_lt ?_ (h3 h))
  · have h : (0 : ℝ) < 2 ^ p := by positivity
    norm_num
  · have : (0 : ℝ) < 2 ^ (p - 1) := by positivity
    norm_num

/-- A texture of 1024 pixels and a tenth of a pixel, the default. -/
example : valueOf (lit 1024 0 : Val b32) / valueOf (lit 1 1 : Val b32) ≤ 2 ^ 127 ∧ 0 < valueOf (lit 1024 0 : Val b32) ∧
    0 < valueOf (lit 1 1 : Val b32) ∧ uvPrecFromTexture (ops someLibm) (lit 1024 0) (lit 1 1) = 14 := by
  have h : (lit 1 1 : Val b32) = .fin false (13421773 * 2 ^ 122) (by decide +kernel) := by decide +kernel
  have h' : (lit 1024 0 : Val b32) = .fin false (2 ^ 159) (by decide +kernel) := by decide +kernel
  have hb : bitsFor someLibm (div (lit 1024 0) (lit 1 1)) = 14 := by rw [bits_clear someLibm_log2] <;> decide +kernel
  refine ⟨?_, ?_, ?_, hb⟩ <;> simp only [h, h', valueOf_fin, show b32.scale = 149 from rfl, sgn] <;> norm_num

theorem rounded_cases {f : Fmt} (s : Bool) (num den : Nat) :
    (rounded s num den : Val f) = .inf s ∨ ∃ n h, (rounded s num den : Val f) = .fin s n h := by
  rw [rounded, pack]
  split
  · rename_i h; exact .inr ⟨_, h, rfl⟩
  · exact .inl rfl

/-- C52, other requests in degrees: one bit for a deviation that is not a number, negative, minus zero or
infinite; 255 for zero. -/
theorem C52_degrees_special (hlog : AccurateLog2 lib) {deg : Val b32} :
    ((deg = .nan ∨ (∃ s, deg = .inf s) ∨ ∃ n h, deg = .fin true n h) → normalPrecFromDeg (ops lib) deg = 1) ∧
    (∀ h, deg = .fin false 0 h → normalPrecFromDeg (ops lib) deg = 255) := by
  have hp : normalPrecFromDeg (ops lib) deg = Nat.max (ceilU8 (lib.log2 (div (lit 90 0) deg))) 1 := rfl
  have h90 : (lit 90 0 : Val b32) = .fin false (90 * 2 ^ 149) (by decide +kernel) := by decide +kernel
  rw [hp, h90]
  refine ⟨?_, ?_⟩
  · rintro (rfl | ⟨s, rfl⟩ | ⟨n, h, rfl⟩)
    · rw [show div (.fin false (90 * 2 ^ 149) _) .nan = (.nan : Val b32) from rfl, hlog.nan]
      rfl
    · rw [show div (.fin false (90 * 2 ^ 149) _) (.inf s) = (rounded (false != s) 0 1 : Val b32) from rfl,
        show (rounded (false != s) 0 1 : Val b32) = .fin (false != s) 0 (by decide +kernel) by cases s <;> decide +kernel, hlog.zero]
      rfl
    · have hneg : ∀ x : Val b32, (x = .inf true ∨ ∃ n h, x = .fin true n h) → Nat.max (ceilU8 (lib.log2 x)) 1 = 1 := by
        rintro x (rfl | ⟨n, h, rfl⟩)
        · rw [hlog.negative.1]; rfl
        · by_cases h0 : n = 0
          · subst h0; rw [hlog.zero]; rfl
          · rw [hlog.negative.2 n h h0]; rfl
      refine hneg _ ?_
      simp only [div]
      split
      · rw [if_neg (by norm_num)]; exact .inl rfl
      · exact rounded_cases _ _ _
  · rintro h rfl
    rw [show div (.fin false (90 * 2 ^ 149) _) (.fin false 0 h) = (.inf false : Val b32) from rfl, hlog.infinite]
    rfl

/-- C52 is false for radians: a deviation of two radians asks for no bits at all, and every unit normal comes
back with components of absolute value 1, so much too long. -/
theorem C52_radians_violated (hlog : AccurateLog2 lib) {b : Build} :
    normalPrecFromRad (ops lib) (lit 2 0) = 0 ∧
    ∀ l : List (Vec3 (Val b32)), l.length ≤ 2 ^ 31 → ∃ bytes l', saveNormals (ops lib) b l 0 = .ok bytes ∧
      readNormals (ops lib) bytes = .ok l' ∧ l'.length = l.length ∧ ∀ w ∈ l', lengthOf w = √3 := by
  constructor
  · show bitsFor lib (div halfPi32 (lit 2 0)) = 0
    rw [bits_clear hlog] <;> decide +kernel
  intro l hl
  obtain ⟨bytes, hs, hr⟩ := readNormals_saved (fo := ops lib) (b := b) (l := l) (p := 0) (by decide) (.inr (by decide)) hl
  have := hr []
  rw [List.append_nil] at this
  refine ⟨bytes, _, hs, this, List.length_map .., ?_⟩
  intro w hw
  obtain ⟨n, _, rfl⟩ := List.mem_map.mp hw
  have hval : valueOf oneV = 1 := by rw [oneV, valueOf_fin, show b32.scale = 149 from rfl]; norm_num [sgn]
  have hone : realOf oneV = 1 := by rw [realOf, hval]; norm_num
  have hsq : ∀ s : Bool, realOf (if s then neg oneV else oneV) ^ 2 = 1 := by
    intro s; cases s
    · rw [if_neg Bool.false_ne_true, hone]; norm_num
    · rw [if_pos rfl, realOf, (neg_value _).2, hval]; norm_num
  have he : quantNormal (ops lib) 0 n =
      (if (storedNormal (ops lib) 0 n).sx then neg oneV else oneV, if (storedNormal (ops lib) 0 n).sy then neg oneV else oneV,
        if (storedNormal (ops lib) 0 n).sz then neg oneV else oneV) := rfl
  rw [he, lengthOf, length3]
  dsimp only
  rw [hsq, hsq, hsq]
  norm_num

end Tmf.Props
