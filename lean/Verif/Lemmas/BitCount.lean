import Verif.Spec.BitCount
import Verif.Spec.OptVertices
import Verif.Lemmas.Log2
import Verif.Lemmas.LibmWitness
import Verif.Lemmas.RangeFold
/-
The bit counts of the vertex splitter: within `u8` and growing with the span.
-/

set_option exponentiation.threshold 2000

namespace Tmf.Ieee
open Spec

variable {lib : Libm}

theorem someLibm_monotone : MonotoneLog2 someLibm := by
  intro x y hx hy h1 hxy
  obtain ⟨_, bx, cx⟩ := someLog2_value hx h1
  obtain ⟨_, by', _⟩ := someLog2_value hy (le_trans h1 hxy)
  show valueOf (someLog2 x) ≤ valueOf (someLog2 y)
  rw [bx, by']
  refine div_le_div_of_nonneg_right ?_ (by positivity)
  have hr : realOf x ≤ realOf y := by simp only [realOf]; exact_mod_cast hxy
  have hp : 0 < realOf x := realOf_pos (by linarith)
  have hl : Real.logb 2 (realOf x) ≤ Real.logb 2 (realOf y) := (Real.logb_le_logb (by norm_num) hp (by linarith)).mpr hr
  exact_mod_cast Nat.floor_le_floor (mul_le_mul_of_nonneg_right hl (by norm_num))

/-- Rounding either gives the rounded value or, above all numbers, infinity. -/
theorem rounded_or (f : Fmt) (hp : 0 < f.prec) {num den : Nat} (hd : 0 < den) {v : ℚ} (hv : v = (num : ℚ) / den / 2 ^ f.scale) :
    (isFinite (rounded false num den : Val f) = true ∧ valueOf (rounded false num den : Val f) = rnd f v) ∨
      (rounded false num den : Val f) = .inf false := by
  have hnn : (0 : ℚ) ≤ v := by rw [hv]; positivity
  rw [rounded, pack]
  split
  · refine .inl ⟨rfl, ?_⟩
    rw [valueOf_fin, rnd_of_nonneg hnn, rndPos_eq hp hnn (num := num) hd (by rw [hv]; exact div_mul_cancel₀ _ (units_pos f).ne')]
    simp [sgn]
  · exact .inr rfl

theorem pos_cases {f : Fmt} {x : Val f} (hx : isFinite x = true) (h0 : 0 < valueOf x) : ∃ n hn, x = .fin false n hn ∧ n ≠ 0 := by
  obtain ⟨s, n, hn, rfl⟩ := finite_cases hx
  rw [valueOf_fin] at h0
  refine ⟨n, hn, ?_, ?_⟩
  · cases s with
    | false => rfl
    | true =>
      simp only [sgn, if_true] at h0
      have : (0 : ℚ) ≤ (n : ℚ) / 2 ^ f.scale := by positivity
      linarith
  · rintro rfl
    simp at h0

theorem div_or {f : Fmt} (hp : 0 < f.prec) {x y : Val f} (hx : isFinite x = true) (hy : isFinite y = true) (h0 : 0 < valueOf x)
    (h1 : 0 < valueOf y) :
    (isFinite (div x y) = true ∧ valueOf (div x y) = rnd f (valueOf x / valueOf y)) ∨ div x y = .inf false := by
  obtain ⟨n, hn, rfl, hn0⟩ := pos_cases hx h0
  obtain ⟨m, hm, rfl, hm0⟩ := pos_cases hy h1
  simp only [div, if_neg hm0]
  refine rounded_or f hp (by omega) ?_
  rw [valueOf_fin, valueOf_fin]
  simp only [sgn, Bool.false_eq_true, if_false, one_mul]
  have hS := units_pos f
  have hmq : (m : ℚ) ≠ 0 := by exact_mod_cast hm0
  push_cast
  field_simp

/-! ### Bits -/

theorem bits_small (hlog : AccurateLog2 lib) {x : Val b32} (hx : isFinite x = true) (h0 : 0 ≤ valueOf x) (h1 : valueOf x ≤ 1) :
    bitsFor lib x = 0 := by
  show ceilU8 (lib.log2 x) = 0
  rcases h0.eq_or_lt with h | h
  · obtain ⟨s, n, hn, rfl⟩ := finite_cases hx
    have hn0 : n = 0 := by
      have := abs_valueOf_fin s n hn
      rw [← h, abs_zero, eq_comm, div_eq_zero_iff] at this
      rcases this with h | h
      · exact_mod_cast h
      · exact absurd h (units_pos _).ne'
    subst hn0
    rw [hlog.zero]
    rfl
  · rcases h1.eq_or_lt with h' | h'
    · have hf := (hlog.near x hx (by rw [h'])).1
      have := hlog.power x hx 0 (by rw [h', pow_zero])
      exact Nat.le_zero.mp ((ceilU8_le_iff hf (k := 0) (by norm_num)).mpr (by rw [this]))
    · obtain ⟨hf, hle⟩ := hlog.below_one x hx h h'
      exact Nat.le_zero.mp ((ceilU8_le_iff hf (k := 0) (by norm_num)).mpr (by exact_mod_cast hle))

theorem bits_mono (hlog : AccurateLog2 lib) (hmono : MonotoneLog2 lib) {x y : Val b32} (hx : isFinite x = true)
    (hy : isFinite y = true) (h1 : 1 ≤ valueOf x) (hxy : valueOf x ≤ valueOf y) (hb : bitsFor lib y < 255) :
    bitsFor lib x ≤ bitsFor lib y := by
  have fx := (hlog.near x hx h1).1
  have fy := (hlog.near y hy (le_trans h1 hxy)).1
  exact (ceilU8_le_iff fx hb).mpr (le_trans (hmono x y hx hy h1 hxy) ((ceilU8_le_iff fy hb).mp (le_refl _)))

/-- The bits the splitter counts for an axis of extent `d`. -/
def axisBits (lib : Libm) (d : Val b32) : Nat := bitsFor lib (div (lit 1 0) (div (lit 1 2) d))

theorem one_lit : isFinite (lit 1 0 : Val b32) = true ∧ valueOf (lit 1 0 : Val b32) = 1 := by
  have hv : (lit 1 0 : Val b32) = .fin false (2 ^ 149) (by decide +kernel) := by decide +kernel
  rw [hv]
  refine ⟨rfl, ?_⟩
  rw [valueOf_fin, show b32.scale = 149 from rfl]
  simp only [sgn, Bool.false_eq_true, if_false, one_mul]
  norm_num

theorem lit_hundredth : isFinite (lit 1 2 : Val b32) = true ∧ valueOf (lit 1 2 : Val b32) = 10737418 / 2 ^ 30 := by
  have hv : (lit 1 2 : Val b32) = .fin false (10737418 * 2 ^ 119) (by decide +kernel) := by decide +kernel
  rw [hv]
  refine ⟨rfl, ?_⟩
  rw [valueOf_fin, show b32.scale = 149 from rfl, Nat.cast_mul, Nat.cast_pow]
  simp only [sgn, Bool.false_eq_true, if_false, one_mul]
  norm_num

/-- A power of two as a number. -/
theorem power_value {k : Nat} (hk : k < 270) : ∃ x : Val b32, isFinite x = true ∧ valueOf x = 2 ^ k / 2 ^ 149 := by
  have hr : b32.Rep (2 ^ k) := (rep_iff b32 (by decide)).mpr ⟨⟨1, k, by decide, by simp⟩,
    le_trans (Nat.pow_le_pow_right (by decide) hk.le) (by decide +kernel)⟩
  refine ⟨.fin false (2 ^ k) hr, rfl, ?_⟩
  rw [valueOf_fin, show b32.scale = 149 from rfl, Nat.cast_pow]
  simp [sgn]

theorem axis_small (hlog : AccurateLog2 lib) {d : Val b32} (hd : isFinite d = true) (h0 : 0 ≤ valueOf d)
    (h1 : valueOf d ≤ valueOf (lit 1 2 : Val b32)) : axisBits lib d = 0 := by
  obtain ⟨of, ov⟩ := one_lit
  obtain ⟨cf, cv⟩ := lit_hundredth
  have hc0 : 0 < valueOf (lit 1 2 : Val b32) := by rw [cv]; norm_num
  rw [axisBits]
  generalize (lit 1 2 : Val b32) = c at *
  generalize (lit 1 0 : Val b32) = o at *
  have hinf : ∀ s, bitsFor lib (div o (.inf s)) = 0 := by
    intro s
    obtain ⟨n, hn, rfl, _⟩ := pos_cases of (by rw [ov]; norm_num)
    have h := rounded_value (f := b32) (by decide) (false != s) (num := 0) (den := 1) (v := 0) (by decide) (by simp) (by
      rw [abs_zero]; exact le_trans (by norm_num) maxV32)
    simp only [div]
    exact bits_small hlog h.1 (by rw [h.2, rnd_zero (by decide)]) (by rw [h.2, rnd_zero (by decide)]; norm_num)
  rcases h0.eq_or_lt with h | h
  · obtain ⟨s, n, hn, rfl⟩ := finite_cases hd
    have hn0 : n = 0 := by
      have := abs_valueOf_fin s n hn
      rw [← h, abs_zero, eq_comm, div_eq_zero_iff] at this
      rcases this with h | h
      · exact_mod_cast h
      · exact absurd h (units_pos _).ne'
    subst hn0
    obtain ⟨m, hm, rfl, hm0⟩ := pos_cases cf hc0
    rw [show div (.fin false m hm : Val b32) (.fin s 0 hn) = .inf (false != s) by simp only [div, if_pos, if_neg hm0]]
    exact hinf _
  · rcases div_or (by decide) cf hd hc0 h with ⟨qf, qv⟩ | hq
    · have hq1 : 1 ≤ valueOf (div c d) := by
        rw [qv, ← ov]
        refine valueOf_le_rnd (by decide) ?_
        rw [ov, le_div_iff₀ h, one_mul]
        exact h1
      generalize div c d = q at *
      have hle : 1 / valueOf q ≤ 1 := by rw [div_le_iff₀ (by linarith), one_mul]; exact hq1
      have hnn : 0 ≤ 1 / valueOf q := by positivity
      obtain ⟨rf, rv⟩ := div_value (f := b32) (by decide) of qf (by linarith) (by
        rw [ov, abs_of_nonneg hnn]; exact le_trans hle (le_trans (by norm_num) maxV32))
      rw [ov] at rv
      refine bits_small hlog rf (by rw [rv]; exact rnd_nonneg hnn) ?_
      rw [rv, ← ov]
      exact rnd_le_valueOf (by decide) (by rw [ov]; exact hle)
    · rw [hq]; exact hinf _

/-- The numbers behind the bits of a larger extent. -/
theorem axis_large {d : Val b32} (hd : isFinite d = true) (h0 : valueOf (lit 1 2 : Val b32) ≤ valueOf d) (h1 : valueOf d ≤ 2 ^ 77) :
    isFinite (div (lit 1 0) (div (lit 1 2) d)) = true ∧ 1 ≤ valueOf (div (lit 1 0 : Val b32) (div (lit 1 2) d)) ∧
      valueOf (div (lit 1 0 : Val b32) (div (lit 1 2) d)) ≤ 2 ^ 84 ∧
      valueOf (div (lit 1 0 : Val b32) (div (lit 1 2) d)) = rnd b32 (1 / rnd b32 (valueOf (lit 1 2 : Val b32) / valueOf d)) ∧
      1 / 2 ^ 84 ≤ rnd b32 (valueOf (lit 1 2 : Val b32) / valueOf d) := by
  obtain ⟨of, ov⟩ := one_lit
  obtain ⟨cf, cv⟩ := lit_hundredth
  have hc0 : 0 < valueOf (lit 1 2 : Val b32) := by rw [cv]; norm_num
  have hlow : 1 / 2 ^ 84 ≤ valueOf (lit 1 2 : Val b32) / 2 ^ 77 := by rw [cv]; norm_num
  generalize (lit 1 2 : Val b32) = c at *
  generalize (lit 1 0 : Val b32) = o at *
  have hd0 : 0 < valueOf d := lt_of_lt_of_le hc0 h0
  have hq1 : valueOf c / valueOf d ≤ 1 := by rw [div_le_iff₀ hd0, one_mul]; exact h0
  have hq0 : 1 / 2 ^ 84 ≤ valueOf c / valueOf d := by
    refine le_trans hlow ?_
    exact div_le_div_of_nonneg_left hc0.le hd0 h1
  have hqp : 0 ≤ valueOf c / valueOf d := by positivity
  obtain ⟨qf, qv⟩ := div_value (f := b32) (by decide) cf hd hd0.ne' (by
    rw [abs_of_nonneg hqp]; exact le_trans hq1 (le_trans (by norm_num) maxV32))
  have hr1 : rnd b32 (valueOf c / valueOf d) ≤ 1 := by
    have := rnd_le_valueOf (f := b32) (by decide) (x := o) (v := valueOf c / valueOf d) (by rw [ov]; exact hq1)
    rw [ov] at this
    exact this
  have hr0 : 1 / 2 ^ 84 ≤ rnd b32 (valueOf c / valueOf d) := by
    obtain ⟨w, wf, wv⟩ := power_value (k := 65) (by norm_num)
    have e : valueOf w = 1 / 2 ^ 84 := by rw [wv]; norm_num
    rw [← e]
    exact valueOf_le_rnd (by decide) (by rw [e]; exact hq0)
  rw [← qv] at hr1 hr0 ⊢
  generalize div c d = q at *
  have hp : 0 < valueOf q := lt_of_lt_of_le (by norm_num) hr0
  have i1 : 1 ≤ 1 / valueOf q := by rw [le_div_iff₀ hp, one_mul]; exact hr1
  have i2 : 1 / valueOf q ≤ 2 ^ 84 := by
    rw [div_le_iff₀ hp]
    have := mul_le_mul_of_nonneg_left hr0 (show (0 : ℚ) ≤ 2 ^ 84 by positivity)
    rw [mul_one_div_cancel (by norm_num)] at this
    exact this
  obtain ⟨rf, rv⟩ := div_value (f := b32) (by decide) of qf hp.ne' (by
    rw [ov, abs_of_nonneg (by linarith)]; exact le_trans i2 (le_trans (by norm_num) maxV32))
  rw [ov] at rv
  refine ⟨rf, ?_, ?_, rv, hr0⟩
  · have := valueOf_le_rnd (f := b32) (by decide) (x := o) (v := 1 / valueOf q) (by rw [ov]; exact i1)
    rw [ov] at this
    rw [rv]; exact this
  · obtain ⟨w, wf, wv⟩ := power_value (k := 233) (by norm_num)
    have e : valueOf w = 2 ^ 84 := by rw [wv]; norm_num
    rw [rv, ← e]
    exact rnd_le_valueOf (by decide) (by rw [e]; exact i2)

theorem axis_le (hlog : AccurateLog2 lib) {d : Val b32} (hd : isFinite d = true) (h0 : 0 ≤ valueOf d) (h1 : valueOf d ≤ 2 ^ 77) :
    axisBits lib d ≤ 85 := by
  rcases le_total (valueOf d) (valueOf (lit 1 2 : Val b32)) with h | h
  · rw [axis_small hlog hd h0 h]; norm_num
  · obtain ⟨a, b, c, _, _⟩ := axis_large hd h h1
    refine (bits_spec hlog a b (k := 85) (by norm_num)).2 (le_trans c ?_)
    norm_num

theorem axis_mono (hlog : AccurateLog2 lib) (hmono : MonotoneLog2 lib) {d d' : Val b32} (hd : isFinite d = true)
    (hd' : isFinite d' = true) (h0 : 0 ≤ valueOf d) (hdd : valueOf d ≤ valueOf d') (h1 : valueOf d' ≤ 2 ^ 77) :
    axisBits lib d ≤ axisBits lib d' := by
  rcases le_total (valueOf d) (valueOf (lit 1 2 : Val b32)) with h | h
  · rw [axis_small hlog hd h0 h]; exact Nat.zero_le _
  · obtain ⟨a, b, c, e, g⟩ := axis_large hd h (le_trans hdd h1)
    obtain ⟨a', b', c', e', g'⟩ := axis_large hd' (le_trans h hdd) h1
    have hb := axis_le hlog hd' (le_trans h0 hdd) h1
    refine bits_mono hlog hmono a a' b ?_ (lt_of_le_of_lt hb (by norm_num))
    rw [e, e']
    have hc0 : 0 < valueOf (lit 1 2 : Val b32) := by rw [lit_hundredth.2]; norm_num
    refine rnd_mono (by decide) (div_le_div_of_nonneg_left (by norm_num) (lt_of_lt_of_le (by norm_num) g') ?_)
    exact rnd_mono (by decide) (div_le_div_of_nonneg_left hc0.le (lt_of_lt_of_le hc0 h) hdd)

/-! ### Spans -/

theorem span_fold (lib : Libm) (l : List (Vec3 (Val b32))) (s : Span (Val b32)) :
    l.foldl (expandSpan (ops lib)) s =
      (((l.map (·.1)).foldl Ieee.min s.1.1, (l.map (·.2.1)).foldl Ieee.min s.1.2.1, (l.map (·.2.2)).foldl Ieee.min s.1.2.2),
       ((l.map (·.1)).foldl Ieee.max s.2.1, (l.map (·.2.1)).foldl Ieee.max s.2.2.1, (l.map (·.2.2)).foldl Ieee.max s.2.2.2)) := by
  induction l generalizing s with
  | nil => rfl
  | cons v l ih =>
    rw [List.foldl_cons, ih]
    rfl

/-- The extent of numbers together with zero. -/
def extent (xs : List (Val b32)) : Val b32 := sub (xs.foldl Ieee.max (lit 0 0)) (xs.foldl Ieee.min (lit 0 0))

theorem zero_lit : isFinite (lit 0 0 : Val b32) = true ∧ valueOf (lit 0 0 : Val b32) = 0 := by
  have hv : (lit 0 0 : Val b32) = .fin false 0 (by decide +kernel) := by decide +kernel
  rw [hv]
  exact ⟨rfl, by rw [valueOf_fin]; simp⟩

theorem extent_value {xs ys : List (Val b32)} (hx : ∀ x ∈ xs ++ ys, isFinite x = true ∧ |valueOf x| ≤ 2 ^ 76) :
    (isFinite (extent xs) = true ∧ isFinite (extent (xs ++ ys)) = true) ∧ 0 ≤ valueOf (extent xs) ∧
      valueOf (extent xs) ≤ valueOf (extent (xs ++ ys)) ∧ valueOf (extent (xs ++ ys)) ≤ 2 ^ 77 := by
  obtain ⟨zf, zv⟩ := zero_lit
  have hxs : ∀ x ∈ xs, isFinite x = true := fun x h => (hx x (List.mem_append_left _ h)).1
  have hys : ∀ x ∈ ys, isFinite x = true := fun x h => (hx x (List.mem_append_right _ h)).1
  rw [extent, extent, List.foldl_append, List.foldl_append]
  generalize (lit 0 0 : Val b32) = z at *
  obtain ⟨a1, a2, a3, _⟩ := foldl_min_value hxs zf
  obtain ⟨b1, b2, b3, _⟩ := foldl_max_value hxs zf
  obtain ⟨c1, c2, c3, _⟩ := foldl_min_value hys a1
  obtain ⟨d1, d2, d3, _⟩ := foldl_max_value hys b1
  have small : ∀ w, w = z ∨ w ∈ xs ∨ w ∈ ys → |valueOf w| ≤ 2 ^ 76 := by
    rintro w (rfl | h | h)
    · rw [zv, abs_zero]; norm_num
    · exact (hx w (List.mem_append_left _ h)).2
    · exact (hx w (List.mem_append_right _ h)).2
  have sa := small _ (a2.imp id Or.inl)
  have sb := small _ (b2.imp id Or.inl)
  have sc : |valueOf (ys.foldl Ieee.min (xs.foldl Ieee.min z))| ≤ 2 ^ 76 := by
    rcases c2 with h | h
    · rw [h]; exact sa
    · exact small _ (.inr (.inr h))
  have sd : |valueOf (ys.foldl Ieee.max (xs.foldl Ieee.max z))| ≤ 2 ^ 76 := by
    rcases d2 with h | h
    · rw [h]; exact sb
    · exact small _ (.inr (.inr h))
  clear a2 b2 c2 d2 small
  generalize ys.foldl Ieee.min (xs.foldl Ieee.min z) = lo' at *
  generalize ys.foldl Ieee.max (xs.foldl Ieee.max z) = hi' at *
  generalize xs.foldl Ieee.min z = lo at *
  generalize xs.foldl Ieee.max z = hi at *
  rw [zv] at a3 b3
  have two : (2 : ℚ) ^ 77 = 2 ^ 76 + 2 ^ 76 := by norm_num
  have diff : ∀ {p q : Val b32}, isFinite p = true → isFinite q = true → |valueOf p| ≤ 2 ^ 76 → |valueOf q| ≤ 2 ^ 76 →
      isFinite (sub p q) = true ∧ valueOf (sub p q) = rnd b32 (valueOf p - valueOf q) := by
    intro p q hp hq h1 h2
    refine sub_value (by decide) hp hq (le_trans (abs_sub _ _) (le_trans ?_ maxV32))
    exact le_trans (add_le_add h1 h2) (by norm_num)
  obtain ⟨e1, e2⟩ := diff b1 a1 sb sa
  obtain ⟨e3, e4⟩ := diff d1 c1 sd sc
  refine ⟨⟨e1, e3⟩, ?_, ?_, ?_⟩
  · rw [e2]; exact rnd_nonneg (by linarith)
  · rw [e2, e4]; exact rnd_mono (by decide) (by linarith)
  · obtain ⟨w, wf, wv⟩ := power_value (k := 226) (by norm_num)
    have e : valueOf w = 2 ^ 77 := by rw [wv]; norm_num
    rw [e4, ← e]
    refine rnd_le_valueOf (by decide) ?_
    rw [e]
    have h1 := (abs_le.mp sd).2
    have h2 := (abs_le.mp sc).1
    linarith

theorem bitCount_span (lib : Libm) (b : Build) (l : List (Vec3 (Val b32))) :
    rangeToVertexBitCount (ops lib) b (spanOf (ops lib) l) ((ops lib).lit 1 2) = (do
      let s ← addU8 b (axisBits lib (extent (l.map (·.1)))) (axisBits lib (extent (l.map (·.2.1))))
      addU8 b s (axisBits lib (extent (l.map (·.2.1))))) := by
  rw [spanOf, span_fold]
  rfl

theorem bitCount_value {lib : Libm} (hlog : AccurateLog2 lib) {l : List (Vec3 (Val b32))} (hl : ∀ v ∈ l, WithinSpan v) (b : Build) :
    rangeToVertexBitCount (ops lib) b (spanOf (ops lib) l) ((ops lib).lit 1 2) =
      .ok (axisBits lib (extent (l.map (·.1))) + axisBits lib (extent (l.map (·.2.1))) + axisBits lib (extent (l.map (·.2.1)))) := by
  have hx := extent_value (xs := l.map (·.1)) (ys := []) (by
    intro x h
    rw [List.append_nil] at h
    obtain ⟨v, hv, rfl⟩ := List.mem_map.mp h
    exact ⟨(hl v hv).1.1, (hl v hv).2.1⟩)
  have hy := extent_value (xs := l.map (·.2.1)) (ys := []) (by
    intro x h
    rw [List.append_nil] at h
    obtain ⟨v, hv, rfl⟩ := List.mem_map.mp h
    exact ⟨(hl v hv).1.2.1, (hl v hv).2.2.1⟩)
  rw [List.append_nil] at hx hy
  have bx := axis_le hlog hx.1.1 hx.2.1 hx.2.2.2
  have b_y := axis_le hlog hy.1.1 hy.2.1 hy.2.2.2
  rw [bitCount_span]
  generalize axisBits lib (extent (l.map (·.1))) = p at *
  generalize axisBits lib (extent (l.map (·.2.1))) = q at *
  have h : ∀ x y, x + y < 256 → addU8 b x y = .ok (x + y) := fun x y h => by rw [addU8.eq_def, if_pos h]
  rw [h _ _ (by omega), Outcome.bind_ok, h _ _ (by omega)]

theorem countsFit_moderate (hlog : AccurateLog2 lib) (hmono : MonotoneLog2 lib) {vs : List (Vec3 (Val b32))}
    (h : ∀ v ∈ vs, WithinSpan v) : CountsFit (ops lib) vs where
  total l hl := ⟨_, bitCount_value hlog (fun v hv => h v (hl.subset hv)) .checked⟩
  mono := by
    intro l p hl hp n k hn hk
    have hml : ∀ v ∈ l, WithinSpan v := fun v hv => h v (hl.subset hv)
    obtain ⟨q, rfl⟩ := hp
    rw [bitCount_value hlog hml] at hn
    rw [bitCount_value hlog (fun v hv => hml v (List.mem_append_left _ hv))] at hk
    have hn := Outcome.ok.inj hn
    have hk := Outcome.ok.inj hk
    rw [List.map_append, List.map_append] at hn
    have hx := extent_value (xs := p.map (·.1)) (ys := q.map (·.1)) (by
      intro x h
      rw [← List.map_append] at h
      obtain ⟨v, hv, rfl⟩ := List.mem_map.mp h
      exact ⟨(hml v hv).1.1, (hml v hv).2.1⟩)
    have hy := extent_value (xs := p.map (·.2.1)) (ys := q.map (·.2.1)) (by
      intro x h
      rw [← List.map_append] at h
      obtain ⟨v, hv, rfl⟩ := List.mem_map.mp h
      exact ⟨(hml v hv).1.2.1, (hml v hv).2.2.1⟩)
    have mx := axis_mono hlog hmono hx.1.1 hx.1.2 hx.2.1 hx.2.2.1 hx.2.2.2
    have my := axis_mono hlog hmono hy.1.1 hy.1.2 hy.2.1 hy.2.2.1 hy.2.2.2
    rw [← hn, ← hk]
    exact Nat.add_le_add (Nat.add_le_add mx my) my

end Tmf.Ieee
