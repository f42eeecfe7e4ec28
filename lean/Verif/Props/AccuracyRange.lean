import Verif.Lemmas.CoordHigh
import Verif.Props.Accuracy
/-
C37, C40, C41: how far saved vertices and custom float data are from the originals, with f32 and f64
arithmetic as IEEE 754 prescribes it.
-/

set_option exponentiation.threshold 2000

namespace Tmf.Props
open Spec Ieee

variable (lib : Libm)

/-! ### C40, float data -/

/-- The range the code computes is that of the array. -/
theorem extent_range {data : List (Val b32)} {lo hi : ℚ} (he : Extent data lo hi) (hlo : |lo| ≤ 2 ^ 120) (hhi : |hi| ≤ 2 ^ 120) :
    (rangeOf data).1 ∈ data ∧ (rangeOf data).2 ∈ data ∧ valueOf (rangeOf data).1 = lo ∧ valueOf (rangeOf data).2 = hi := by
  obtain ⟨x0, hx0, e0⟩ := he.lo_mem
  obtain ⟨x1, hx1, e1⟩ := he.hi_mem
  have hbig : (2 : ℚ) ^ 120 < maxV b32 := lt_of_lt_of_le (by norm_num) maxV32
  have hsmall : ∀ x ∈ data, isFinite x = true ∧ |valueOf x| < maxV b32 := by
    intro x hx
    obtain ⟨a, c⟩ := he.bounds x hx
    rw [abs_le] at hlo hhi
    exact ⟨he.finite x hx, lt_of_le_of_lt (abs_le.mpr ⟨by linarith, by linarith⟩) hbig⟩
  obtain ⟨m1, m2, hb⟩ := rangeOf_value (List.ne_nil_of_mem hx0) hsmall
  have v1 : valueOf (rangeOf data).1 = lo := le_antisymm (by rw [← e0]; exact (hb x0 hx0).1) (he.bounds _ m1).1
  have v2 : valueOf (rangeOf data).2 = hi := le_antisymm (he.bounds _ m2).2 (by rw [← e1]; exact (hb x1 hx1).2)
  exact ⟨m1, m2, v1, v2⟩

/-- C40 for float data (the full claim is a deviation of at most one step `(hi - lo) / (2^p - 1)` for
every array; it is false, see `C40_float_violated`, `C40_float_top_violated` and
`C40_infinite_violated`). In an array that is not constant, with numbers up to `2^120`, stored in up to
30 bits per number (31 without overflow checks), a number comes back within one step and the rounding errors of the f32 arithmetic,
which are at most `1 / 2^19` of the largest absolute value; with 25 or more bits, only if it is below
the upper end by `1 / 2^21` of the extent. -/
theorem C40_float_wide_partial {fb : F64Bytes (ops lib)} {b : Build} {data : List (Val b32)} {prec : Val b32} {lo hi : ℚ}
    (he : Extent data lo hi) (hlt : lo < hi) (hlo : |lo| ≤ 2 ^ 120) (hhi : |hi| ≤ 2 ^ 120)
    (hp : Writable b (floatPrec (ops lib) data prec)) (hl : data.length ≤ 2 ^ 31) :
    ∃ bytes data' prec', saveFloats (ops lib) fb b data prec = .ok bytes ∧
      readFloats (ops lib) fb bytes = .ok (.float data' prec') ∧
      List.Forall₂ (fun x x' => (25 ≤ floatPrec (ops lib) data prec → valueOf x - lo ≤ (1 - 1 / 2 ^ 21) * (hi - lo)) →
        Within ((hi - lo) / (2 ^ floatPrec (ops lib) data prec - 1) + Max.max |lo| |hi| / 2 ^ 19 + 1 / 2 ^ 148) x x')
        data data' := by
  obtain ⟨bytes, hs, hr⟩ := readFloats_writable (fo := ops lib) (fb := fb) (b := b) (data := data) (prec := prec) hp hl
  have h := hr
  rw [quantFloats, floatRange_ops lib] at h
  refine ⟨bytes, _, _, hs, h, ?_⟩
  have hp := hp.le
  clear h hr hs hl
  have hp1 : 1 ≤ floatPrec (ops lib) data prec := le_max_right _ _
  generalize floatPrec (ops lib) data prec = p at *
  obtain ⟨m1, m2, v1, v2⟩ := extent_range he hlo hhi
  have hfin := he.finite
  have f1 := hfin _ m1
  have f2 := hfin _ m2
  have hb' := he.bounds
  clear he m1 m2
  generalize rangeOf data = r at *
  have key : ∀ x ∈ data, (25 ≤ p → valueOf x - lo ≤ (1 - 1 / 2 ^ 21) * (hi - lo)) →
      Within ((hi - lo) / (2 ^ p - 1) + Max.max |lo| |hi| / 2 ^ 19 + 1 / 2 ^ 148) x (quantFloat (ops lib) r p x) := by
    intro x hx hedge
    rw [quantFloat_ops lib, ← v1, ← v2]
    have hbx := hb' x hx
    rcases Nat.lt_or_ge 24 p with h24 | h24
    · exact floatQ_near_high h24 hp (hfin x hx) f1 f2 (by rw [v1]; exact hbx.1)
        (by rw [v1, v2]; exact hlt) (le_max_left _ _) (le_max_right _ _) (by rw [v1, v2]; exact max_le hlo hhi)
        (by rw [v1, v2]; exact hedge h24)
    exact float_near hp1 h24 (hfin x hx) f1 f2 (by rw [v1]; exact hbx.1) (by rw [v2]; exact hbx.2)
      (by rw [v1, v2]; exact hlt) (le_max_left _ _) (le_max_right _ _) (by rw [v1, v2]; exact max_le hlo hhi)
  clear hb' hfin
  induction data with
  | nil => exact .nil
  | cons x l ih =>
    exact .cons (key x List.mem_cons_self) (ih (fun y hy => key y (List.mem_cons_of_mem _ hy)))

/-- C40 for float data (the full claim is a deviation of at most one step `(hi - lo) / (2^p - 1)` for
every array; it is false, see `C40_float_violated`, `C40_float_top_violated` and
`C40_infinite_violated`). An array that is not constant, with numbers up to `2^120`, stored in up to
24 bits per number, comes back within one step and the rounding errors of the f32 arithmetic, which
are at most `1 / 2^19` of the largest absolute value. -/
theorem C40_float_partial {fb : F64Bytes (ops lib)} {b : Build} {data : List (Val b32)} {prec : Val b32} {lo hi : ℚ}
    (he : Extent data lo hi) (hlt : lo < hi) (hlo : |lo| ≤ 2 ^ 120) (hhi : |hi| ≤ 2 ^ 120)
    (hp : floatPrec (ops lib) data prec ≤ 24) (hl : data.length ≤ 2 ^ 31) :
    ∃ bytes data' prec', saveFloats (ops lib) fb b data prec = .ok bytes ∧
      readFloats (ops lib) fb bytes = .ok (.float data' prec') ∧
      List.Forall₂ (Within ((hi - lo) / (2 ^ floatPrec (ops lib) data prec - 1) + Max.max |lo| |hi| / 2 ^ 19 + 1 / 2 ^ 148))
        data data' := by
  obtain ⟨bytes, data', prec', hs, hr, h⟩ := C40_float_wide_partial lib (fb := fb) (b := b) (prec := prec) he hlt hlo hhi (.inl (by omega)) hl
  exact ⟨bytes, data', prec', hs, hr, forall₂_imp h fun x _ x' hx => hx (fun h25 => absurd h25 (by omega))⟩

/-- C40 is false with 25 to 30 bits (and 31, without overflow checks), for every array that is not constant: the largest number comes back
as the smallest. -/
theorem C40_float_top_violated {fb : F64Bytes (ops lib)} {b : Build} {data : List (Val b32)} {prec : Val b32} {lo hi : ℚ}
    (he : Extent data lo hi) (hlt : lo < hi) (hlo : |lo| ≤ 2 ^ 120) (hhi : |hi| ≤ 2 ^ 120)
    (h25 : 25 ≤ floatPrec (ops lib) data prec) (hp : Writable b (floatPrec (ops lib) data prec)) (hl : data.length ≤ 2 ^ 31) :
    ∃ bytes data' prec', saveFloats (ops lib) fb b data prec = .ok bytes ∧
      readFloats (ops lib) fb bytes = .ok (.float data' prec') ∧
      List.Forall₂ (fun x x' => valueOf x = hi → isFinite x' = true ∧ valueOf x' = lo) data data' := by
  obtain ⟨bytes, hs, hr⟩ := readFloats_writable (fo := ops lib) (fb := fb) (b := b) (data := data) (prec := prec) hp hl
  have h := hr
  rw [quantFloats, floatRange_ops lib] at h
  refine ⟨bytes, _, _, hs, h, ?_⟩
  have hp := hp.le
  obtain ⟨m1, m2, v1, v2⟩ := extent_range he hlo hhi
  refine forall₂_map fun x hx hv => ?_
  rw [quantFloat_ops lib]
  have hmax : valueOf (rangeOf data).2 - valueOf (rangeOf data).1 ≤ 2 ^ 127 := by
    rw [v1, v2]
    rw [abs_le] at hlo hhi
    linarith [show (2 : ℚ) ^ 120 + 2 ^ 120 ≤ 2 ^ 127 by norm_num]
  have := floatQ_top h25 hp (he.finite x hx) (he.finite _ m1) (he.finite _ m2) (by rw [v2, hv]) (by rw [v1, v2]; exact hlt) hmax
  rwa [v1] at this

/-- 9/64, 1 and 3/2 meet the hypotheses. -/
theorem extent_example : Extent [vOne, nine64, threeHalves] (9 / 64) (3 / 2) where
  finite := by
    intro x hx
    simp only [List.mem_cons, List.not_mem_nil, or_false] at hx
    rcases hx with rfl | rfl | rfl <;> rfl
  lo_mem := ⟨nine64, by simp, valueOf_nine64⟩
  hi_mem := ⟨threeHalves, by simp, valueOf_threeHalves⟩
  bounds := by
    intro x hx
    simp only [List.mem_cons, List.not_mem_nil, or_false] at hx
    rcases hx with rfl | rfl | rfl
    · rw [valueOf_vOne]; norm_num
    · rw [valueOf_nine64]; norm_num
    · rw [valueOf_threeHalves]; norm_num

/-- The width of a float array if `log2` leaves no doubt about it. -/
theorem floatBits_clear (hlog : AccurateLog2 lib) {data : List (Val b32)} {prec : Val b32}
    (h : clear (div (sub (rangeOf data).2 (rangeOf data).1) prec) = true) :
    floatBits lib data prec = Max.max (exactBits (div (sub (rangeOf data).2 (rangeOf data).1) prec)) 1 := by
  rw [floatBits, bits_clear hlog h]

theorem floatBits_example (hlog : AccurateLog2 lib) : floatBits lib [vOne, nine64, threeHalves] (lit 1 2) = 8 := by
  rw [floatBits_clear lib hlog] <;> decide +kernel

example (hlog : AccurateLog2 lib) (fb : F64Bytes (ops lib)) (b : Build) : ∃ bytes data' prec',
    saveFloats (ops lib) fb b [vOne, nine64, threeHalves] (lit 1 2) = .ok bytes ∧
    readFloats (ops lib) fb bytes = .ok (.float data' prec') ∧
    List.Forall₂ (Within ((3 / 2 - 9 / 64) / (2 ^ 8 - 1) + Max.max |9 / 64| |3 / 2| / 2 ^ 19 + 1 / 2 ^ 148))
      [vOne, nine64, threeHalves] data' := by
  have h8 : floatPrec (ops lib) [vOne, nine64, threeHalves] (lit 1 2) = 8 := by 
    rw [floatPrec_ops lib, floatBits_example lib hlog]
  have := C40_float_partial lib (fb := fb) (b := b) (prec := lit 1 2) extent_example (by norm_num)
    (by rw [abs_of_nonneg] <;> norm_num) (by rw [abs_of_nonneg] <;> norm_num) (by rw [h8]; decide) (by show 3 ≤ 2 ^ 31; decide)
  rw [h8] at this
  exact this

/-- `1 + 4 / 2^23`. -/
def vFour : Val b32 := .fin false (2 ^ 149 + 4 * 2 ^ 126) (by decide +kernel)
/-- `1 + 3 / 2^23`. -/
def vThree : Val b32 := .fin false (2 ^ 149 + 3 * 2 ^ 126) (by decide +kernel)
/-- `1 + 6 / 2^23`. -/
def vSix : Val b32 := .fin false (2 ^ 149 + 6 * 2 ^ 126) (by decide +kernel)
/-- `1 / 2^23`. -/
def vUlp : Val b32 := .fin false (2 ^ 126) (by decide +kernel)

theorem valueOf_vFour : valueOf vFour = 1 + 4 / 2 ^ 23 := by
  rw [vFour, valueOf_pos, show b32.scale = 149 from rfl]; norm_num
theorem valueOf_vThree : valueOf vThree = 1 + 3 / 2 ^ 23 := by
  rw [vThree, valueOf_pos, show b32.scale = 149 from rfl]; norm_num
theorem valueOf_vSix : valueOf vSix = 1 + 6 / 2 ^ 23 := by
  rw [vSix, valueOf_pos, show b32.scale = 149 from rfl]; norm_num

theorem floatBits_three (hlog : AccurateLog2 lib) : floatBits lib [vOne, vFour, vSix] vUlp = 3 := by
  rw [floatBits_clear lib hlog] <;> decide +kernel

/-- C40 is false without room for rounding: `1, 1 + 4u, 1 + 6u` with `u = 2^-23` and precision `u` are
stored in three bits, and the second comes back as `1 + 3u`, while one step is `6u / 7`. -/
theorem C40_float_violated (hlog : AccurateLog2 lib) {fb : F64Bytes (ops lib)} {b : Build} :
    Extent [vOne, vFour, vSix] 1 (1 + 6 / 2 ^ 23) ∧ floatPrec (ops lib) [vOne, vFour, vSix] vUlp = 3 ∧
    ∃ bytes x y z prec', saveFloats (ops lib) fb b [vOne, vFour, vSix] vUlp = .ok bytes ∧
      readFloats (ops lib) fb bytes = .ok (.float [x, y, z] prec') ∧
      (1 + 6 / 2 ^ 23 - 1) / (2 ^ 3 - 1) < |valueOf y - valueOf vFour| := by
  have hp : floatPrec (ops lib) [vOne, vFour, vSix] vUlp = 3 := by
    rw [floatPrec_ops lib, floatBits_three lib hlog]
  refine ⟨⟨?_, ⟨vOne, by simp, valueOf_vOne⟩, ⟨vSix, by simp, valueOf_vSix⟩, ?_⟩, hp, ?_⟩
  · intro x hx
    simp only [List.mem_cons, List.not_mem_nil, or_false] at hx
    rcases hx with rfl | rfl | rfl <;> rfl
  · intro x hx
    simp only [List.mem_cons, List.not_mem_nil, or_false] at hx
    rcases hx with rfl | rfl | rfl
    · rw [valueOf_vOne]; norm_num
    · rw [valueOf_vFour]; norm_num
    · rw [valueOf_vSix]; norm_num
  obtain ⟨bytes, hs, hr⟩ := readFloats_saved (fo := ops lib) (fb := fb) (b := b) (data := [vOne, vFour, vSix]) (prec := vUlp)
    (by rw [hp]; decide) (by show 3 ≤ 2 ^ 31; decide)
  have h := hr []
  rw [List.append_nil, quantFloats, floatRange_ops lib, hp, show rangeOf [vOne, vFour, vSix] = (vOne, vSix) by decide +kernel,
    List.map_cons, List.map_cons, List.map_cons, List.map_nil, quantFloat_ops lib, quantFloat_ops lib, quantFloat_ops lib,
    show floatQ 3 (vOne, vSix).1 (vOne, vSix).2 vFour = vThree by decide +kernel] at h
  refine ⟨bytes, _, vThree, _, _, hs, h, ?_⟩
  rw [valueOf_vFour, valueOf_vThree, abs_of_neg (by norm_num)]
  norm_num

theorem floatQ_wide : ∀ p < 31, 25 ≤ p → floatQ p vZero vOne vOne = vZero := by decide +kernel
theorem rangeOf_unit : rangeOf [vZero, vOne] = (vZero, vOne) := by decide +kernel

/-- C40 is false with 25 to 30 bits: the largest number comes back as the smallest. -/
theorem C40_float_wide_violated {fb : F64Bytes (ops lib)} {b : Build} {prec : Val b32}
    (h1 : 25 ≤ floatPrec (ops lib) [vZero, vOne] prec) (h2 : floatPrec (ops lib) [vZero, vOne] prec ≤ 30) :
    ∃ bytes x prec', saveFloats (ops lib) fb b [vZero, vOne] prec = .ok bytes ∧
      readFloats (ops lib) fb bytes = .ok (.float [x, vZero] prec') ∧ valueOf vOne = 1 ∧ valueOf vZero = 0 := by
  obtain ⟨bytes, hs, hr⟩ := readFloats_saved (fo := ops lib) (fb := fb) (b := b) (data := [vZero, vOne]) (prec := prec) h2
    (by show 2 ≤ 2 ^ 31; decide)
  have h := hr []
  rw [List.append_nil, quantFloats, floatRange_ops lib, rangeOf_unit, List.map_cons, List.map_cons, List.map_nil,
    quantFloat_ops lib, quantFloat_ops lib] at h
  dsimp only at h
  rw [floatQ_wide _ (by omega) h1] at h
  exact ⟨bytes, _, _, hs, h, valueOf_vOne, valueOf_vZero⟩

theorem floatBits_unit30 (hlog : AccurateLog2 lib) : floatBits lib [vZero, vOne] prec30 = 30 := by
  rw [floatBits_clear lib hlog] <;> decide +kernel

theorem floatBits_unit2 (hlog : AccurateLog2 lib) : floatBits lib [vZero, vOne] vQuarter = 2 := by
  rw [floatBits_clear lib hlog] <;> decide +kernel

example (hlog : AccurateLog2 lib) :
    25 ≤ floatPrec (ops lib) [vZero, vOne] prec30 ∧ floatPrec (ops lib) [vZero, vOne] prec30 ≤ 30 := by
  rw [floatPrec_ops lib, floatBits_unit30 lib hlog]; decide

theorem extent_unit : Extent [vZero, nine64, vOne] 0 1 where
  finite := by
    intro x hx
    simp only [List.mem_cons, List.not_mem_nil, or_false] at hx
    rcases hx with rfl | rfl | rfl <;> rfl
  lo_mem := ⟨vZero, by simp, valueOf_vZero⟩
  hi_mem := ⟨vOne, by simp, valueOf_vOne⟩
  bounds := by
    intro x hx
    simp only [List.mem_cons, List.not_mem_nil, or_false] at hx
    rcases hx with rfl | rfl | rfl
    · rw [valueOf_vZero]; norm_num
    · rw [valueOf_nine64]; norm_num
    · rw [valueOf_vOne]; norm_num

theorem floatBits_three30 (hlog : AccurateLog2 lib) : floatBits lib [vZero, nine64, vOne] prec30 = 30 := by
  rw [floatBits_clear lib hlog] <;> decide +kernel

/-- Of 0, 9/64, 1 in 30 bits, the second is kept and the third comes back as 0. -/
example (hlog : AccurateLog2 lib) (fb : F64Bytes (ops lib)) (b : Build) : ∃ bytes x y z prec',
    saveFloats (ops lib) fb b [vZero, nine64, vOne] prec30 = .ok bytes ∧
    readFloats (ops lib) fb bytes = .ok (.float [x, y, z] prec') ∧
    Within (1 / (2 ^ 30 - 1) + 1 / 2 ^ 19 + 1 / 2 ^ 148) nine64 y ∧ valueOf z = 0 := by
  have h30 : floatPrec (ops lib) [vZero, nine64, vOne] prec30 = 30 := by rw [floatPrec_ops lib, floatBits_three30 lib hlog]
  obtain ⟨bytes, d, pr, hs, hr, h⟩ := C40_float_wide_partial lib (fb := fb) (b := b) (prec := prec30) extent_unit (by norm_num)
    (by norm_num) (by norm_num) (.inl (by rw [h30])) (by show 3 ≤ 2 ^ 31; decide)
  obtain ⟨bytes', d', pr', hs', hr', h'⟩ := C40_float_top_violated lib (fb := fb) (b := b) (prec := prec30) extent_unit (by norm_num)
    (by norm_num) (by norm_num) (by rw [h30]; decide) (.inl (by rw [h30])) (by show 3 ≤ 2 ^ 31; decide)
  rw [hs] at hs'
  cases hs'
  rw [hr] at hr'
  cases hr'
  rw [h30] at h
  cases h with
  | cons _ h =>
  cases h with
  | cons hy h =>
  cases h with
  | cons _ h =>
  cases h
  cases h' with
  | cons _ h' =>
  cases h' with
  | cons _ h' =>
  cases h' with
  | cons hz _ =>
  refine ⟨bytes, _, _, _, _, hs, hr, ?_, (hz valueOf_vOne).2⟩
  have := hy (fun _ => by rw [valueOf_nine64]; norm_num)
  rwa [abs_zero, abs_one, max_eq_right zero_le_one, sub_zero] at this

/-- C40 is false for infinite numbers: a build with overflow checks cannot write the array. -/
theorem C40_infinite_violated (hlog : AccurateLog2 lib) {fb : F64Bytes (ops lib)} :
    saveFloats (ops lib) fb .checked [.inf false] (lit 1 2) = .panic := by
  rw [saveFloats, floatPrec_ops lib, show floatBits lib [.inf false] (lit 1 2) = 255 by
    rw [floatBits_clear lib hlog] <;> decide +kernel]
  rfl

theorem floatBits_nan (hlog : AccurateLog2 lib) : floatBits lib [.nan] (lit 1 2) = 1 := by
  rw [floatBits_clear lib hlog] <;> decide +kernel

/-- C40 is false for NaN: an array of NaN comes back as the largest finite number. -/
theorem C40_nan_violated (hlog : AccurateLog2 lib) {fb : F64Bytes (ops lib)} {b : Build} :
    ∃ bytes y prec', saveFloats (ops lib) fb b [.nan] (lit 1 2) = .ok bytes ∧
      readFloats (ops lib) fb bytes = .ok (.float [y] prec') ∧ isFinite y = true ∧ valueOf y = maxV b32 := by
  have hp : floatPrec (ops lib) [.nan] (lit 1 2) = 1 := by rw [floatPrec_ops lib, floatBits_nan lib hlog]
  obtain ⟨bytes, hs, hr⟩ := readFloats_saved (fo := ops lib) (fb := fb) (b := b) (data := [.nan]) (prec := lit 1 2)
    (by rw [hp]; decide) (by show 1 ≤ 2 ^ 31; decide)
  have h := hr []
  rw [List.append_nil, quantFloats, floatRange_ops lib, hp, List.map_cons, List.map_nil, quantFloat_ops lib,
    show floatQ 1 (rangeOf [.nan]).1 (rangeOf [.nan]).2 .nan = pack false b32.max by decide +kernel] at h
  exact ⟨bytes, _, _, hs, h, valueOf_pack_max.1, valueOf_pack_max.2⟩

/-! ### C40, constant arrays -/

theorem rangeOf_replicate {c : Val b32} (hc : isFinite c = true) (n : Nat) : 
    rangeOf (List.replicate (n + 1) c) = (c, c) := by
  have hmin : ∀ a : Val b32, Ieee.min c c = c := by
    intro _
    rcases min_cases hc hc with ⟨h, _⟩ | ⟨h, _⟩ <;> exact h
  have hmax : ∀ a : Val b32, Ieee.max c c = c := by
    intro _
    rcases max_cases hc hc with ⟨h, _⟩ | ⟨h, _⟩ <;> exact h
  have h1 : ∀ k, (List.replicate k c).foldl Ieee.min c = c := by
    intro k
    induction k with
    | zero => rfl
    | succ k ih => rw [List.replicate_succ, List.foldl_cons, hmin c, ih]
  have h2 : ∀ k, (List.replicate k c).foldl Ieee.max c = c := by
    intro k
    induction k with
    | zero => rfl
    | succ k ih => rw [List.replicate_succ, List.foldl_cons, hmax c, ih]
  have hle := abs_le.mp (abs_valueOf_le c)
  have e1 : Ieee.min (pack false b32.max) c = c := by
    rcases min_cases valueOf_pack_max.1 hc with ⟨h, h'⟩ | ⟨h, _⟩
    · rw [h]
      have hv : valueOf (pack false b32.max : Val b32) = valueOf c := by
        rw [valueOf_pack_max.2] at h' ⊢; linarith
      refine finite_ext valueOf_pack_max.1 hc ?_ hv
      rw [pack_max]
      obtain ⟨s, m, hm, rfl⟩ := finite_cases hc
      cases s with
      | false => rfl
      | true =>
        exfalso
        rw [valueOf_pack_max.2] at hv
        have := maxV32
        rw [valueOf_fin] at hv
        have h0 : (0 : ℚ) ≤ (m : ℚ) / 2 ^ b32.scale := div_nonneg (Nat.cast_nonneg _) (units_pos b32).le
        simp only [sgn, if_true] at hv
        have : (0 : ℚ) < 2 ^ 127 := by norm_num
        linarith
    · exact h
  have e2 : Ieee.max (pack true b32.max) c = c := by
    rcases max_cases valueOf_pack_min.1 hc with ⟨h, h'⟩ | ⟨h, _⟩
    · rw [h]
      have hv : valueOf (pack true b32.max : Val b32) = valueOf c := by
        rw [valueOf_pack_min.2] at h' ⊢; linarith
      refine finite_ext valueOf_pack_min.1 hc ?_ hv
      rw [pack_min]
      obtain ⟨s, m, hm, rfl⟩ := finite_cases hc
      cases s with
      | true => rfl
      | false =>
        exfalso
        rw [valueOf_pack_min.2] at hv
        have := maxV32
        rw [valueOf_fin] at hv
        have h0 : (0 : ℚ) ≤ (m : ℚ) / 2 ^ b32.scale := div_nonneg (Nat.cast_nonneg _) (units_pos b32).le
        simp only [sgn, Bool.false_eq_true, if_false] at hv
        have : (0 : ℚ) < 2 ^ 127 := by norm_num
        linarith
    · exact h
  rw [rangeOf, List.replicate_succ, List.foldl_cons, List.foldl_cons, e1, e2, h1, h2]

theorem sub_self_val {f : Fmt} {c : Val f} (hc : isFinite c = true) : sub c c = rounded false 0 1 := by
  obtain ⟨s, n, hn, rfl⟩ := finite_cases hc
  show (if signed s n + signed (!s) n = 0 then rounded (s && !s) 0 1 else _) = _
  rw [if_pos (by cases s <;> simp [signed]), Bool.and_not_self]

theorem finite_ext_ne {f : Fmt} {x y : Val f} (hx : isFinite x = true) (hy : isFinite y = true)
    (hv : valueOf x = valueOf y) (h0 : valueOf y ≠ 0) : x = y := by
  refine finite_ext hx hy ?_ hv
  obtain ⟨s, n, hn, rfl⟩ := finite_cases hx
  obtain ⟨t, m, hm, rfl⟩ := finite_cases hy
  show s = t
  rw [valueOf_fin] at hv h0
  rw [valueOf_fin] at hv
  have hn0 : (0 : ℚ) ≤ (n : ℚ) / 2 ^ f.scale := div_nonneg (Nat.cast_nonneg _) (units_pos f).le
  have hm0 : (0 : ℚ) ≤ (m : ℚ) / 2 ^ f.scale := div_nonneg (Nat.cast_nonneg _) (units_pos f).le
  generalize (n : ℚ) / 2 ^ f.scale = a at *
  generalize (m : ℚ) / 2 ^ f.scale = c at *
  cases s <;> cases t <;> simp only [sgn, Bool.false_eq_true, if_false, if_true] at * <;> try rfl
  · exact absurd (show -1 * c = 0 by linarith) h0
  · exact absurd (show 1 * c = 0 by linarith) h0

theorem bits_zero (hlog : AccurateLog2 lib) {y : Val b32} (hv : valueOf y = 0) (hi : ∀ s, y ≠ .inf s) : bitsFor lib y = 0 := by
  cases y with
  | nan => rw [bitsFor, hlog.nan]; rfl
  | inf s => exact absurd rfl (hi s)
  | fin s n hn =>
    have h := abs_valueOf_fin s n hn
    rw [hv, abs_zero, eq_comm, div_eq_zero_iff] at h
    have hn0 : n = 0 := by
      rcases h with h | h
      · exact_mod_cast h
      · exact absurd h (units_pos b32).ne'
    subst hn0
    rw [bitsFor, hlog.zero]; rfl

theorem zero_div_bits (hlog : AccurateLog2 lib) (prec : Val b32) : bitsFor lib (div (rounded false 0 1) prec) = 0 := by
  have hz : (rounded false 0 1 : Val b32) = vZero := by decide +kernel
  rw [hz]
  cases prec with
  | nan => rw [show div vZero .nan = (.nan : Val b32) from rfl, bitsFor, hlog.nan]; rfl
  | inf t =>
    cases t
    · rw [bits_clear hlog] <;> decide +kernel
    · rw [bits_clear hlog] <;> decide +kernel
  | fin t m hm =>
    by_cases h0 : m = 0
    · subst h0
      have : div vZero (.fin t 0 hm) = (.nan : Val b32) := by
        rw [vZero, div, if_pos rfl, if_pos rfl]
      rw [this, bitsFor, hlog.nan]
      rfl
    · have hne : valueOf (.fin t m hm : Val b32) ≠ 0 := by
        intro h
        have h' := abs_valueOf_fin t m hm
        rw [h, abs_zero, eq_comm, div_eq_zero_iff] at h'
        rcases h' with h' | h'
        · exact h0 (by exact_mod_cast h')
        · exact absurd h' (units_pos b32).ne'
      have hmx : (0 : ℚ) ≤ maxV b32 := le_trans (by norm_num) maxV32
      have hd := div_value (f := b32) (x := vZero) (y := .fin t m hm) (by decide) rfl rfl hne
        (by rw [valueOf_vZero, zero_div, abs_zero]; exact hmx)
      refine bits_zero lib hlog ?_ ?_
      · rw [hd.2, valueOf_vZero, zero_div, rnd_zero (by decide)]
      · intro s h
        rw [h] at hd
        exact Bool.noConfusion hd.1

theorem floatBits_replicate (hlog : AccurateLog2 lib) {c : Val b32} (hc : isFinite c = true) (n : Nat) (prec : Val b32) :
    floatBits lib (List.replicate (n + 1) c) prec = 1 := by
  rw [floatBits, rangeOf_replicate hc, sub_self_val hc, zero_div_bits lib hlog]
  rfl

theorem floatQ_self {c : Val b32} (hc : isFinite c = true) :
    isFinite (floatQ 1 c c c) = true ∧ valueOf (floatQ 1 c c c) = valueOf c := by
  have hw := widen_value hc
  rw [floatQ, sub_self_val hc, sub_self_val hw.1,
    show toU64 (mul (div (rounded false 0 1) (rounded false 0 1)) (ofNat (2 ^ 1 - 1)) : Val b32) % 2 ^ 1 = 0 by decide +kernel,
    show (mul (div (ofNat 0) (ofNat (2 ^ 1 - 1))) (rounded false 0 1) : Val b64) = .fin false 0 (by decide +kernel) by decide +kernel]
  have hz : valueOf (.fin false 0 (by decide +kernel) : Val b64) = 0 := by rw [valueOf_pos, Nat.cast_zero, zero_div]
  have ha := add_value (f := b64) (x := .fin false 0 (by decide +kernel)) (y := convert c) (by decide) rfl hw.1
    (by rw [hz, zero_add]; exact abs_valueOf_le _)
  rw [hz, zero_add, rnd_valueOf (by decide), hw.2] at ha
  have hn := convert_value (g := b32) (by decide) ha.1 (by rw [ha.2]; exact abs_valueOf_le _)
  refine ⟨hn.1, ?_⟩
  rw [hn.2, ha.2, rnd_valueOf (by decide)]

/-- C40, constant arrays: they come back exactly (as `0` if they are `-0`), for every precision. -/
theorem C40_constant (hlog : AccurateLog2 lib) {fb : F64Bytes (ops lib)} {b : Build} {data : List (Val b32)} {c prec : Val b32}
    (hne : data ≠ []) (hl : data.length ≤ 2 ^ 31) (hd : ∀ x ∈ data, x = c) (hc : isFinite c = true) :
    ∃ bytes data' prec', saveFloats (ops lib) fb b data prec = .ok bytes ∧
      readFloats (ops lib) fb bytes = .ok (.float data' prec') ∧ data'.length = data.length ∧
      (∀ y ∈ data', isFinite y = true ∧ valueOf y = valueOf c) ∧ (valueOf c ≠ 0 → data' = data) := by
  obtain ⟨n, hn⟩ : ∃ n, data = List.replicate (n + 1) c := by
    refine ⟨data.length - 1, ?_⟩
    have : data.length - 1 + 1 = data.length := Nat.sub_add_cancel (List.length_pos_of_ne_nil hne)
    rw [this]
    exact List.eq_replicate_of_mem hd
  subst hn
  have hp : floatPrec (ops lib) (List.replicate (n + 1) c) prec = 1 := by rw [floatPrec_ops lib, floatBits_replicate lib hlog hc]
  obtain ⟨bytes, hs, hr⟩ := readFloats_saved (fo := ops lib) (fb := fb) (b := b) (data := List.replicate (n + 1) c)
    (prec := prec) (by rw [hp]; decide) hl
  have h := hr []
  rw [List.append_nil, quantFloats, floatRange_ops lib, hp, rangeOf_replicate hc, List.map_replicate, quantFloat_ops lib] at h
  have hq := floatQ_self hc
  refine ⟨bytes, _, _, hs, h, by rw [List.length_replicate, List.length_replicate], fun y hy => ?_, fun h0 => ?_⟩
  · rw [List.eq_of_mem_replicate hy]; exact hq
  · exact congrArg _ (finite_ext_ne hq.1 hc hq.2 h0)

example (hlog : AccurateLog2 lib) (fb : F64Bytes (ops lib)) (b : Build) (prec : Val b32) : ∃ bytes prec',
    saveFloats (ops lib) fb b [nine64, nine64, nine64] prec = .ok bytes ∧
    readFloats (ops lib) fb bytes = .ok (.float [nine64, nine64, nine64] prec') := by
  obtain ⟨bytes, data', prec', h1, h2, _, _, h3⟩ := C40_constant lib hlog (fb := fb) (b := b) (data := [nine64, nine64, nine64])
    (c := nine64) (prec := prec) (by simp) (by show 3 ≤ 2 ^ 31; decide) (by simp) rfl
  rw [h3 (by rw [valueOf_nine64]; norm_num)] at h2
  exact ⟨bytes, prec', h1, h2⟩

/-! ### C41, float data -/

/-- The precision attached to float data read with `p` bits. -/
def floatPrec32 (mn mx : Val b32) (p : Nat) : Val b32 :=
  mul (convert (div (sub (convert mx) (convert mn)) (ofNat (2 ^ p)) : Val b64)) (lit 99999 5)

theorem floatLoadedPrec_ops (mn mx : Val b32) (p : Nat) :
    floatLoadedPrec (ops lib) (convert mn) (convert mx) p = floatPrec32 mn mx p := by
  rw [floatLoadedPrec, ops_mul lib, ops_ofD lib, ops_dDiv lib, ops_dOfNat lib, ops_dSub lib, ops_litOp lib, floatPrec32]

theorem floatSteps_grow : ∀ p < 25, 1 ≤ p →
    clear (div (sub (rangeOf [vZero, vOne]).2 (rangeOf [vZero, vOne]).1) (floatPrec32 vZero vOne p)) = true ∧
    Max.max (exactBits (div (sub (rangeOf [vZero, vOne]).2 (rangeOf [vZero, vOne]).1) (floatPrec32 vZero vOne p))) 1 = p + 1 := by
  decide +kernel

theorem floatBits_grow (hlog : AccurateLog2 lib) (p : Nat) (hp : p < 25) (h1 : 1 ≤ p) :
    floatBits lib [vZero, vOne] (floatPrec32 vZero vOne p) = p + 1 := by
  rw [floatBits_clear lib hlog (floatSteps_grow p hp h1).1, (floatSteps_grow p hp h1).2]
theorem floatQ_ends : ∀ p < 25, 1 ≤ p → floatQ p vZero vOne vZero = vZero ∧ floatQ p vZero vOne vOne = vOne := by decide +kernel

/-- C41 is false for float data: `0, 1` stored in `p` bits (1 to 24) is stored in `p + 1` the next
time. -/
theorem C41_float_width_violated (hlog : AccurateLog2 lib) {fb : F64Bytes (ops lib)} {b : Build} {prec : Val b32} {p : Nat}
    (hp : floatPrec (ops lib) [vZero, vOne] prec = p) (hp2 : p ≤ 24) :
    ∃ bytes prec', saveFloats (ops lib) fb b [vZero, vOne] prec = .ok bytes ∧
      readFloats (ops lib) fb bytes = .ok (.float [vZero, vOne] prec') ∧
      floatPrec (ops lib) [vZero, vOne] prec' = p + 1 := by
  have hp1 : 1 ≤ p := by rw [← hp]; exact le_max_right _ _
  obtain ⟨bytes, hs, hr⟩ := readFloats_saved (fo := ops lib) (fb := fb) (b := b) (data := [vZero, vOne])
    (prec := prec) (by rw [hp]; omega) (by show 2 ≤ 2 ^ 31; decide)
  have h := hr []
  rw [List.append_nil, quantFloats, floatRange_ops lib, hp, rangeOf_unit, List.map_cons, List.map_cons, List.map_nil,
    quantFloat_ops lib, quantFloat_ops lib] at h
  dsimp only at h
  rw [(floatQ_ends p (by omega) hp1).1, (floatQ_ends p (by omega) hp1).2, floatLoadedPrec_ops lib] at h
  refine ⟨bytes, _, hs, h, ?_⟩
  rw [floatPrec_ops lib, floatBits_grow lib hlog p (by omega) hp1]

example (hlog : AccurateLog2 lib) : floatPrec (ops lib) [vZero, vOne] vQuarter = 2 := by
  rw [floatPrec_ops lib, floatBits_unit2 lib hlog]

/-! ### C37 -/

/-- The deviation allowed for one axis: a step of `lo` to `hi` in `p` bits, at least a millionth, and
the rounding errors of numbers up to `M`. -/
def axisStep (p : Nat) (lo hi M : ℚ) : ℚ := Max.max ((hi - lo) / (2 ^ p - 1)) (1 / 999999) + M / 2 ^ 19 + 1 / 2 ^ 148

theorem axisStep_mono {p : Nat} {lo hi lo' hi' M : ℚ} (h1 : lo' ≤ lo) (h2 : hi ≤ hi') :
    axisStep p lo hi M ≤ axisStep p lo' hi' M := by
  have hm : (0 : ℚ) ≤ 2 ^ p - 1 := by
    have : (1 : ℚ) ≤ 2 ^ p := one_le_pow₀ (by norm_num)
    linarith
  have : (hi - lo) / (2 ^ p - 1) ≤ (hi' - lo') / (2 ^ p - 1) := div_le_div_of_nonneg_right (by linarith) hm
  rw [axisStep, axisStep]
  have := max_le_max this (le_refl (1 / 999999 : ℚ))
  linarith

/-- Within the steps of the three axes. The extent the code uses for x reaches up to the largest x or
y, the one for y from the smallest y or z to the largest x or y, the one for z starts at the smallest
y or z. -/
structure NearVertex (l : List (Vec3 (Val b32))) (p : Nat × Nat × Nat) (M : ℚ) (v v' : Vec3 (Val b32)) : Prop where
  x : ∀ lo hi, (∀ w ∈ l, lo ≤ valueOf w.1 ∧ valueOf w.1 ≤ hi ∧ valueOf w.2.1 ≤ hi) → Within (axisStep p.1 lo hi M) v.1 v'.1
  y : ∀ lo hi, (∀ w ∈ l, lo ≤ valueOf w.2.1 ∧ lo ≤ valueOf w.2.2 ∧ valueOf w.1 ≤ hi ∧ valueOf w.2.1 ≤ hi) →
    Within (axisStep p.2.1 lo hi M) v.2.1 v'.2.1
  z : ∀ lo hi, (∀ w ∈ l, lo ≤ valueOf w.2.1 ∧ lo ≤ valueOf w.2.2 ∧ valueOf w.2.2 ≤ hi) →
    Within (axisStep p.2.2 lo hi M) v.2.2 v'.2.2


/-- The coordinates stored in 25 bits or more are below the upper end of the box by `1 / 2^21` of its
extent, unless it is narrower than a millionth. -/
structure BelowTop (s : VBox (Val b32)) (p : Nat × Nat × Nat) (v : Vec3 (Val b32)) : Prop where
  x : 25 ≤ p.1 → 1 / 1000001 < valueOf s.maxX - valueOf s.minX →
    valueOf v.1 - valueOf s.minX ≤ (1 - 1 / 2 ^ 21) * (valueOf s.maxX - valueOf s.minX)
  y : 25 ≤ p.2.1 → 1 / 1000001 < valueOf s.maxY - valueOf s.minY →
    valueOf v.2.1 - valueOf s.minY ≤ (1 - 1 / 2 ^ 21) * (valueOf s.maxY - valueOf s.minY)
  z : 25 ≤ p.2.2 → 1 / 1000001 < valueOf s.maxZ - valueOf s.minZ →
    valueOf v.2.2 - valueOf s.minZ ≤ (1 - 1 / 2 ^ 21) * (valueOf s.maxZ - valueOf s.minZ)

/-- With up to 24 bits, every vertex counts as below the top. -/
theorem BelowTop.narrow {s : VBox (Val b32)} {p : Nat × Nat × Nat} (hx : p.1 ≤ 24) (hy : p.2.1 ≤ 24) (hz : p.2.2 ≤ 24)
    (v : Vec3 (Val b32)) : BelowTop s p v :=
  ⟨fun h => absurd h (by omega), fun h => absurd h (by omega), fun h => absurd h (by omega)⟩

theorem coordQ_near_any {p : Nat} (hp1 : 1 ≤ p) (hp : p ≤ 31) {x mn mx : Val b32} {M : ℚ} (hx : isFinite x = true)
    (hmn : isFinite mn = true) (hmx : isFinite mx = true) (h0 : valueOf mn ≤ valueOf x) (h1 : valueOf x ≤ valueOf mx)
    (hM1 : |valueOf mn| ≤ M) (hM2 : |valueOf mx| ≤ M) (hM : M ≤ 2 ^ 120)
    (hedge : 25 ≤ p → 1 / 1000001 < valueOf mx - valueOf mn →
      valueOf x - valueOf mn ≤ (1 - 1 / 2 ^ 21) * (valueOf mx - valueOf mn)) :
    isFinite (coordQ p mn mx x) = true ∧
    |valueOf (coordQ p mn mx x) - valueOf x| ≤
      Max.max ((valueOf mx - valueOf mn) / (2 ^ p - 1)) (1 / 999999) + M / 2 ^ 19 + 1 / 2 ^ 148 := by
  rcases Nat.lt_or_ge 24 p with h24 | h24
  · exact coordQ_near_high h24 hp hx hmn hmx h0 h1 hM1 hM2 hM (hedge h24)
  · exact coordQ_near hp1 h24 hx hmn hmx h0 h1 hM1 hM2 hM

/-- C37 (the full claim, that every coordinate comes back within one step of the extent of its own
axis, is false, see `C37_violated`, `C37_width_violated`, `C37_top_violated`). Finite vertices with
coordinates up to `2^120`, stored in up to 30 bits per coordinate (31 without overflow checks): every vertex but the last comes back
near its original, and so does the last one if it is inside the bounding box the code computes. With 25
bits or more, it must not lie at the upper end of the box (`BelowTop`). The extents are those the code
uses (`NearVertex`). -/
theorem C37_wide_partial {fb : F64Bytes (ops lib)} {b : Build} {l : List (Vec3 (Val b32))} {precision edge : Val b32} {M : ℚ}
    {s : VBox (Val b32)} (hs : vertexBox (ops lib) l = .ok s) (hl : l.length ≤ 2 ^ 31) (hfin : ∀ v ∈ l, FiniteVec v)
    (hM : ∀ v ∈ l, |valueOf v.1| ≤ M ∧ |valueOf v.2.1| ≤ M ∧ |valueOf v.2.2| ≤ M) (hM2 : M ≤ 2 ^ 120)
    (hx : Writable b (s.precs (ops lib) precision edge).1) (hy : Writable b (s.precs (ops lib) precision edge).2.1)
    (hz : Writable b (s.precs (ops lib) precision edge).2.2) :
    ∃ bytes l', saveVertices (ops lib) fb b l precision edge = .ok bytes ∧
      readVertices (ops lib) fb bytes = .ok l' ∧
      List.Forall₂ (fun v v' => Inside s v → BelowTop s (s.precs (ops lib) precision edge) v →
        NearVertex l (s.precs (ops lib) precision edge) M v v') l l' ∧
      ∀ v ∈ l.dropLast, Inside s v := by
  obtain ⟨bytes, hw, h⟩ := readVertices_writable (fo := ops lib) (fb := fb) (b := b) (l := l) (precision := precision) (edge := edge)
    hs hx hy hz hl
  have hx := hx.le
  have hy := hy.le
  have hz := hz.le
  obtain ⟨bf, hin, hall, b1, b2, b3, b4⟩ := vertexBox_spec lib hs hfin
  refine ⟨bytes, _, hw, h, ?_, hin⟩
  have p1 : 1 ≤ (s.precs (ops lib) precision edge).1 := le_max_right _ _
  have p2 : 1 ≤ (s.precs (ops lib) precision edge).2.1 := le_max_right _ _
  have p3 : 1 ≤ (s.precs (ops lib) precision edge).2.2 := le_max_right _ _
  generalize s.precs (ops lib) precision edge = p at *
  clear h hw
  have m1 : ∀ v ∈ l, -M ≤ valueOf v.1 ∧ valueOf v.1 ≤ M := fun v hv => abs_le.mp (hM v hv).1
  have m2 : ∀ v ∈ l, -M ≤ valueOf v.2.1 ∧ valueOf v.2.1 ≤ M := fun v hv => abs_le.mp (hM v hv).2.1
  have m3 : ∀ v ∈ l, -M ≤ valueOf v.2.2 ∧ valueOf v.2.2 ≤ M := fun v hv => abs_le.mp (hM v hv).2.2
  have key : ∀ v ∈ l, Inside s v → BelowTop s p v → NearVertex l p M v (quantVertex (ops lib) s p v) := by
    intro v hv hi hbt
    obtain ⟨fx, fy, fz⟩ := hfin v hv
    have bx1 := b1 (-M) (fun w hw => (m1 w hw).1)
    have bx2 := b2 M (fun w hw => ⟨(m1 w hw).2, (m2 w hw).2⟩)
    have by1 := b3 (-M) (fun w hw => ⟨(m2 w hw).1, (m3 w hw).1⟩)
    have bz2 := b4 M (fun w hw => (m3 w hw).2)
    have hv1 := m1 v hv
    have hv2 := m2 v hv
    have hv3 := m3 v hv
    have ax : ∀ {mn mx x : ℚ}, mn ≤ x → x ≤ mx → -M ≤ mn → mx ≤ M → |mn| ≤ M ∧ |mx| ≤ M := by
      intro mn mx x h1 h2 h3 h4
      exact ⟨abs_le.mpr ⟨h3, by linarith⟩, abs_le.mpr ⟨by linarith, h4⟩⟩
    rw [quantVertex_ops lib]
    have cx := coordQ_near_any p1 hx fx bf.minX bf.maxX hi.minX hi.maxX (ax hi.minX hi.maxX bx1 bx2.1).1
      (ax hi.minX hi.maxX bx1 bx2.1).2 hM2 hbt.x
    have cy := coordQ_near_any p2 hy fy bf.minY bf.maxY hi.minY hi.maxY (ax hi.minY hi.maxY by1.1 bx2.2).1
      (ax hi.minY hi.maxY by1.1 bx2.2).2 hM2 hbt.y
    have cz := coordQ_near_any p3 hz fz bf.minZ bf.maxZ hi.minZ hi.maxZ (ax hi.minZ hi.maxZ by1.2 bz2).1
      (ax hi.minZ hi.maxZ by1.2 bz2).2 hM2 hbt.z
    refine ⟨fun lo hi' hw => ⟨cx.1, le_trans cx.2 ?_⟩, fun lo hi' hw => ⟨cy.1, le_trans cy.2 ?_⟩,
      fun lo hi' hw => ⟨cz.1, le_trans cz.2 ?_⟩⟩
    · exact axisStep_mono (b1 lo (fun w h => (hw w h).1)) (b2 hi' (fun w h => (hw w h).2)).1
    · exact axisStep_mono (b3 lo (fun w h => ⟨(hw w h).1, (hw w h).2.1⟩)).1 (b2 hi' (fun w h => (hw w h).2.2)).2
    · exact axisStep_mono (b3 lo (fun w h => ⟨(hw w h).1, (hw w h).2.1⟩)).2 (b4 hi' (fun w h => (hw w h).2.2))
  have gen : ∀ l0 : List (Vec3 (Val b32)), (∀ v ∈ l0, v ∈ l) →
      List.Forall₂ (fun v v' => Inside s v → BelowTop s p v → NearVertex l p M v v') l0 (l0.map (quantVertex (ops lib) s p)) := by
    intro l0 h0
    induction l0 with
    | nil => exact .nil
    | cons v l0 ih => exact .cons (key v (h0 v List.mem_cons_self)) (ih (fun w hw => h0 w (List.mem_cons_of_mem _ hw)))
  exact gen l (fun _ h => h)

/-- C37 (the full claim, that every coordinate comes back within one step of the extent of its own
axis, is false, see `C37_violated`, `C37_width_violated`, `C37_top_violated`). Finite vertices with coordinates up to
`2^120`, stored in up to 24 bits per coordinate: every vertex but the last comes back near its
original, and so does the last one if it is inside the bounding box the code computes. The extents
are those the code uses (`NearVertex`). -/
theorem C37_partial {fb : F64Bytes (ops lib)} {b : Build} {l : List (Vec3 (Val b32))} {precision edge : Val b32} {M : ℚ}
    {s : VBox (Val b32)} (hs : vertexBox (ops lib) l = .ok s) (hl : l.length ≤ 2 ^ 31) (hfin : ∀ v ∈ l, FiniteVec v)
    (hM : ∀ v ∈ l, |valueOf v.1| ≤ M ∧ |valueOf v.2.1| ≤ M ∧ |valueOf v.2.2| ≤ M) (hM2 : M ≤ 2 ^ 120)
    (hx : (s.precs (ops lib) precision edge).1 ≤ 24) (hy : (s.precs (ops lib) precision edge).2.1 ≤ 24)
    (hz : (s.precs (ops lib) precision edge).2.2 ≤ 24) :
    ∃ bytes l', saveVertices (ops lib) fb b l precision edge = .ok bytes ∧
      readVertices (ops lib) fb bytes = .ok l' ∧
      List.Forall₂ (fun v v' => Inside s v → NearVertex l (s.precs (ops lib) precision edge) M v v') l l' ∧
      ∀ v ∈ l.dropLast, Inside s v := by
  obtain ⟨bytes, l', hw, hr, h, hin⟩ := C37_wide_partial lib (fb := fb) (b := b) (precision := precision) (edge := edge) hs hl hfin hM hM2
    (.inl (le_trans hx (by decide))) (.inl (le_trans hy (by decide))) (.inl (le_trans hz (by decide)))
  exact ⟨bytes, l', hw, hr, forall₂_imp h fun v _ v' hv hi => hv hi (.narrow hx hy hz v), hin⟩

/-- C37 is false with 25 to 30 bits (and 31, without overflow checks) for every array of vertices: on an axis that is not narrower than a
millionth, the vertices at the upper end of the box come back at the lower end. -/
theorem C37_top_violated {fb : F64Bytes (ops lib)} {b : Build} {l : List (Vec3 (Val b32))} {precision edge : Val b32} {M : ℚ}
    {s : VBox (Val b32)} (hs : vertexBox (ops lib) l = .ok s) (hl : l.length ≤ 2 ^ 31) (hfin : ∀ v ∈ l, FiniteVec v)
    (hM : ∀ v ∈ l, |valueOf v.1| ≤ M ∧ |valueOf v.2.1| ≤ M ∧ |valueOf v.2.2| ≤ M) (hM2 : M ≤ 2 ^ 120)
    (hx : Writable b (s.precs (ops lib) precision edge).1) (hy : Writable b (s.precs (ops lib) precision edge).2.1)
    (hz : Writable b (s.precs (ops lib) precision edge).2.2) :
    ∃ bytes l', saveVertices (ops lib) fb b l precision edge = .ok bytes ∧
      readVertices (ops lib) fb bytes = .ok l' ∧
      List.Forall₂ (fun v v' =>
        (25 ≤ (s.precs (ops lib) precision edge).1 → valueOf v.1 = valueOf s.maxX →
          1 / 999999 ≤ valueOf s.maxX - valueOf s.minX → valueOf v'.1 = valueOf s.minX) ∧
        (25 ≤ (s.precs (ops lib) precision edge).2.1 → valueOf v.2.1 = valueOf s.maxY →
          1 / 999999 ≤ valueOf s.maxY - valueOf s.minY → valueOf v'.2.1 = valueOf s.minY) ∧
        (25 ≤ (s.precs (ops lib) precision edge).2.2 → valueOf v.2.2 = valueOf s.maxZ →
          1 / 999999 ≤ valueOf s.maxZ - valueOf s.minZ → valueOf v'.2.2 = valueOf s.minZ)) l l' := by
  obtain ⟨bytes, hw, h⟩ := readVertices_writable (fo := ops lib) (fb := fb) (b := b) (l := l) (precision := precision) (edge := edge)
    hs hx hy hz hl
  have hx := hx.le
  have hy := hy.le
  have hz := hz.le
  obtain ⟨bf, hin, hall, b1, b2, b3, b4⟩ := vertexBox_spec lib hs hfin
  refine ⟨bytes, _, hw, h, forall₂_map fun v hv => ?_⟩
  generalize s.precs (ops lib) precision edge = p at *
  rw [quantVertex_ops lib]
  obtain ⟨fx, fy, fz⟩ := hfin v hv
  have m1 : ∀ v ∈ l, -M ≤ valueOf v.1 ∧ valueOf v.1 ≤ M := fun v hv => abs_le.mp (hM v hv).1
  have m2 : ∀ v ∈ l, -M ≤ valueOf v.2.1 ∧ valueOf v.2.1 ≤ M := fun v hv => abs_le.mp (hM v hv).2.1
  have m3 : ∀ v ∈ l, -M ≤ valueOf v.2.2 ∧ valueOf v.2.2 ≤ M := fun v hv => abs_le.mp (hM v hv).2.2
  have bx1 := b1 (-M) (fun w hw => (m1 w hw).1)
  have bx2 := b2 M (fun w hw => ⟨(m1 w hw).2, (m2 w hw).2⟩)
  have by1 := b3 (-M) (fun w hw => ⟨(m2 w hw).1, (m3 w hw).1⟩)
  have bz2 := b4 M (fun w hw => (m3 w hw).2)
  have hbig : (2 : ℚ) ^ 120 + 2 ^ 120 ≤ 2 ^ 127 := by norm_num
  exact ⟨fun h25 he hw => (coordQ_top h25 hx fx bf.minX bf.maxX he hw (by linarith [bx2.1])).2,
    fun h25 he hw => (coordQ_top h25 hy fy bf.minY bf.maxY he hw (by linarith [bx2.2, by1.1])).2,
    fun h25 he hw => (coordQ_top h25 hz fz bf.minZ bf.maxZ he hw (by linarith [by1.2])).2⟩

/-- 5. -/
def vFive : Val b32 := .fin false (5 * 2 ^ 149) (by decide +kernel)
/-- 8. -/
def vEight : Val b32 := .fin false (8 * 2 ^ 149) (by decide +kernel)
theorem valueOf_vFive : valueOf vFive = 5 := by
  rw [vFive, valueOf_pos, show b32.scale = 149 from rfl]; norm_num
theorem valueOf_vEight : valueOf vEight = 8 := by
  rw [vEight, valueOf_pos, show b32.scale = 149 from rfl]; norm_num

/-- The bounding box of an array, without the platform's functions. -/
def boxOf (v0 : Vec3 (Val b32)) (l : List (Vec3 (Val b32))) : VBox (Val b32) :=
  (v0 :: l).foldl boxStep ⟨v0.1, v0.1, v0.2.1, v0.2.1, v0.2.2, v0.2.2⟩

theorem vertexBox_ops (v0 : Vec3 (Val b32)) (l : List (Vec3 (Val b32))) : vertexBox (ops lib) (v0 :: l) = .ok (boxOf v0 l) := by
  rw [vertexBox, step_ops lib, boxOf]

theorem box_example : boxOf (vZero, vZero, vZero) [(vFive, vOne, nine64), (vOne, vFive, vZero)] =
    ⟨vZero, vFive, vZero, vFive, vZero, nine64⟩ := by decide +kernel
theorem bits_example (hlog : AccurateLog2 lib) : vertexBits lib ⟨vZero, vFive, vZero, vFive, vZero, nine64⟩ (lit 1 1) vOne = (6, 6, 6) := by
  rw [vertexBits, bits_clear hlog] <;> decide +kernel

/-- Three vertices meeting the hypotheses of `C37_partial`. -/
example (hlog : AccurateLog2 lib) (fb : F64Bytes (ops lib)) (b : Build) : ∃ bytes l',
    saveVertices (ops lib) fb b [(vZero, vZero, vZero), (vFive, vOne, nine64), (vOne, vFive, vZero)] (lit 1 1) vOne = .ok bytes ∧
    readVertices (ops lib) fb bytes = .ok l' ∧
    List.Forall₂ (fun v v' => Inside ⟨vZero, vFive, vZero, vFive, vZero, nine64⟩ v →
      NearVertex [(vZero, vZero, vZero), (vFive, vOne, nine64), (vOne, vFive, vZero)] (6, 6, 6) 5 v v')
      [(vZero, vZero, vZero), (vFive, vOne, nine64), (vOne, vFive, vZero)] l' := by
  have hb : vertexBox (ops lib) [(vZero, vZero, vZero), (vFive, vOne, nine64), (vOne, vFive, vZero)] =
      .ok ⟨vZero, vFive, vZero, vFive, vZero, nine64⟩ := by rw [vertexBox_ops, box_example]
  have hp : (⟨vZero, vFive, vZero, vFive, vZero, nine64⟩ : VBox (Val b32)).precs (ops lib) (lit 1 1) vOne = (6, 6, 6) := by
    rw [precs_ops lib, bits_example lib hlog]
  obtain ⟨bytes, l', h1, h2, h3, _⟩ := C37_partial lib (fb := fb) (b := b) (M := 5) (precision := lit 1 1) (edge := vOne) hb
    (by show 3 ≤ 2 ^ 31; decide)
    (fun v hv => by
      simp only [List.mem_cons, List.not_mem_nil, or_false] at hv
      rcases hv with rfl | rfl | rfl <;> exact ⟨rfl, rfl, rfl⟩)
    (fun v hv => by
      simp only [List.mem_cons, List.not_mem_nil, or_false] at hv
      rcases hv with rfl | rfl | rfl <;> simp only [valueOf_vZero, valueOf_vFive, valueOf_vOne, valueOf_nine64] <;> norm_num)
    (by norm_num) (by rw [hp]; decide) (by rw [hp]; decide) (by rw [hp]; decide)
  rw [hp] at h3
  exact ⟨bytes, l', h1, h2, h3⟩

theorem box_unit : boxOf (vZero, vZero, vZero) [(vOne, vOne, vOne), (nine64, nine64, nine64)] =
    ⟨vZero, vOne, vZero, vOne, vZero, vOne⟩ := by decide +kernel
theorem bits_unit (hlog : AccurateLog2 lib) : vertexBits lib ⟨vZero, vOne, vZero, vOne, vZero, vOne⟩ prec30 vOne = (30, 30, 30) := by
  rw [vertexBits, bits_clear hlog] <;> decide +kernel

/-- Of the vertices (0, 0, 0), (1, 1, 1), (9/64, 9/64, 9/64) in 30 bits, the last is kept, and the x
coordinate of the second comes back as 0. -/
example (hlog : AccurateLog2 lib) (fb : F64Bytes (ops lib)) (b : Build) : ∃ bytes u v w,
    saveVertices (ops lib) fb b [(vZero, vZero, vZero), (vOne, vOne, vOne), (nine64, nine64, nine64)] prec30 vOne = .ok bytes ∧
    readVertices (ops lib) fb bytes = .ok [u, v, w] ∧
    NearVertex [(vZero, vZero, vZero), (vOne, vOne, vOne), (nine64, nine64, nine64)] (30, 30, 30) 1 (nine64, nine64, nine64) w ∧
    valueOf v.1 = 0 := by
  have hb : vertexBox (ops lib) [(vZero, vZero, vZero), (vOne, vOne, vOne), (nine64, nine64, nine64)] =
      .ok ⟨vZero, vOne, vZero, vOne, vZero, vOne⟩ := by rw [vertexBox_ops, box_unit]
  have hp : (⟨vZero, vOne, vZero, vOne, vZero, vOne⟩ : VBox (Val b32)).precs (ops lib) prec30 vOne = (30, 30, 30) := by
    rw [precs_ops lib, bits_unit lib hlog]
  have hfin : ∀ v ∈ [(vZero, vZero, vZero), (vOne, vOne, vOne), (nine64, nine64, nine64)], FiniteVec v := fun v hv => by
    simp only [List.mem_cons, List.not_mem_nil, or_false] at hv
    rcases hv with rfl | rfl | rfl <;> exact ⟨rfl, rfl, rfl⟩
  have hM : ∀ v ∈ [(vZero, vZero, vZero), (vOne, vOne, vOne), (nine64, nine64, nine64)],
      |valueOf v.1| ≤ 1 ∧ |valueOf v.2.1| ≤ 1 ∧ |valueOf v.2.2| ≤ 1 := fun v hv => by
    simp only [List.mem_cons, List.not_mem_nil, or_false] at hv
    rcases hv with rfl | rfl | rfl <;> simp only [valueOf_vZero, valueOf_vOne, valueOf_nine64] <;> norm_num
  obtain ⟨bytes, l', hs, hr, h, _⟩ := C37_wide_partial lib (fb := fb) (b := b) (M := 1) (precision := prec30) (edge := vOne) hb
    (by show 3 ≤ 2 ^ 31; decide) hfin hM (by norm_num) (.inl (by rw [hp])) (.inl (by rw [hp])) (.inl (by rw [hp]))
  obtain ⟨bytes', l'', hs', hr', h'⟩ := C37_top_violated lib (fb := fb) (b := b) (M := 1) (precision := prec30) (edge := vOne) hb
    (by show 3 ≤ 2 ^ 31; decide) hfin hM (by norm_num) (.inl (by rw [hp])) (.inl (by rw [hp])) (.inl (by rw [hp]))
  rw [hs] at hs'
  cases hs'
  rw [hr] at hr'
  cases hr'
  rw [hp] at h h'
  cases h with
  | cons _ h =>
  cases h with
  | cons _ h =>
  cases h with
  | cons hw h =>
  cases h
  cases h' with
  | cons _ h' =>
  cases h' with
  | cons hv _ =>
  refine ⟨bytes, _, _, _, hs, hr, hw ?_ ?_, ?_⟩
  · constructor <;> simp only [valueOf_vZero, valueOf_vOne, valueOf_nine64] <;> norm_num
  · constructor <;> simp only [valueOf_vZero, valueOf_vOne, valueOf_nine64] <;> norm_num
  · rw [hv.1 (by decide) rfl (by simp only [valueOf_vZero, valueOf_vOne]; norm_num), valueOf_vZero]

theorem box_flat : boxOf (vZero, vZero, vZero) [(vOne, vZero, vZero), (vFive, vZero, vZero)] =
    ⟨vZero, vOne, vZero, vFive, vZero, vZero⟩ := by decide +kernel
theorem bits_flat (hlog : AccurateLog2 lib) : vertexBits lib ⟨vZero, vOne, vZero, vFive, vZero, vZero⟩ (lit 1 1) vOne = (4, 6, 6) := by
  rw [vertexBits, bits_clear hlog, bits_clear hlog] <;> decide +kernel
theorem coordQ_flat : lt (coordQ 4 vZero vOne vFive) vOne = true ∧ isFinite (coordQ 4 vZero vOne vFive) = true := by
  decide +kernel

/-- C37 is false: of the vertices `(0,0,0), (1,0,0), (5,0,0)` with precision 0.1 and shortest edge 1,
the last is outside the bounding box the code computes. Its x coordinate comes back less than 1; it is
more than 4 away, while a step of the extent is 5/15. -/
theorem C37_violated (hlog : AccurateLog2 lib) {fb : F64Bytes (ops lib)} {b : Build} :
    ∃ bytes u v x y z, saveVertices (ops lib) fb b [(vZero, vZero, vZero), (vOne, vZero, vZero), (vFive, vZero, vZero)]
        (lit 1 1) vOne = .ok bytes ∧
      readVertices (ops lib) fb bytes = .ok [u, v, (x, y, z)] ∧
      valueOf vFive = 5 ∧ isFinite x = true ∧ valueOf x < 1 ∧
      (vertexBits lib (boxOf (vZero, vZero, vZero) [(vOne, vZero, vZero), (vFive, vZero, vZero)]) (lit 1 1) vOne).1 = 4 := by
  have hb : vertexBox (ops lib) [(vZero, vZero, vZero), (vOne, vZero, vZero), (vFive, vZero, vZero)] =
      .ok ⟨vZero, vOne, vZero, vFive, vZero, vZero⟩ := by rw [vertexBox_ops, box_flat]
  have hp : (⟨vZero, vOne, vZero, vFive, vZero, vZero⟩ : VBox (Val b32)).precs (ops lib) (lit 1 1) vOne = (4, 6, 6) := by
    rw [precs_ops lib, bits_flat lib hlog]
  obtain ⟨bytes, hw, hr⟩ := readVertices_saved (fo := ops lib) (fb := fb) (b := b) (precision := lit 1 1) (edge := vOne)
    hb (by rw [hp]; decide) (by rw [hp]; decide) (by rw [hp]; decide) (by show 3 ≤ 2 ^ 31; decide)
  have h := hr []
  rw [List.append_nil, quantVertices, hb] at h
  dsimp only at h
  rw [hp, List.map_cons, List.map_cons, List.map_cons, List.map_nil, quantVertex_ops lib, quantVertex_ops lib,
    quantVertex_ops lib] at h
  refine ⟨bytes, _, _, _, _, _, hw, h, valueOf_vFive, coordQ_flat.2, ?_, by rw [box_flat, bits_flat lib hlog]⟩
  have := (lt_value coordQ_flat.2 (show isFinite vOne = true from rfl)).mp coordQ_flat.1
  rwa [valueOf_vOne] at this

theorem box_infinite : boxOf (.inf true, .inf true, .inf true) [] =
    ⟨.inf true, .inf true, .inf true, .inf true, .inf true, .inf true⟩ := by decide +kernel
theorem bits_infinite (hlog : AccurateLog2 lib) :
    vertexBits lib ⟨.inf true, .inf true, .inf true, .inf true, .inf true, .inf true⟩ (lit 1 1) vOne = (1, 1, 1) := by
  rw [vertexBits, bits_clear hlog] <;> decide +kernel
theorem coordQ_infinite : coordQ 1 (.inf true) (.inf true) (.inf true) = .nan := by decide +kernel

/-- C37 says nothing about infinite coordinates. A vertex at minus infinity is saved without an error, since the size
of the box is NaN and replaced by a millionth, and comes back as NaN. -/
theorem C37_infinite_violated (hlog : AccurateLog2 lib) {fb : F64Bytes (ops lib)} {b : Build} :
    ∃ bytes, saveVertices (ops lib) fb b [(.inf true, .inf true, .inf true)] (lit 1 1) vOne = .ok bytes ∧
      readVertices (ops lib) fb bytes = .ok [(.nan, .nan, .nan)] := by
  have hb : vertexBox (ops lib) [(.inf true, .inf true, .inf true)] =
      .ok ⟨.inf true, .inf true, .inf true, .inf true, .inf true, .inf true⟩ := by rw [vertexBox_ops, box_infinite]
  have hp : (⟨.inf true, .inf true, .inf true, .inf true, .inf true, .inf true⟩ : VBox (Val b32)).precs (ops lib) (lit 1 1) vOne =
      (1, 1, 1) := by
    rw [precs_ops lib, bits_infinite lib hlog]
  obtain ⟨bytes, hw, hr⟩ := readVertices_saved (fo := ops lib) (fb := fb) (b := b) (precision := lit 1 1) (edge := vOne)
    hb (by rw [hp]; decide) (by rw [hp]; decide) (by rw [hp]; decide) (by show 1 ≤ 2 ^ 31; decide)
  have h := hr []
  rw [List.append_nil, quantVertices, hb] at h
  dsimp only at h
  rw [hp, List.map_cons, List.map_nil, quantVertex_ops lib] at h
  dsimp only at h
  rw [coordQ_infinite] at h
  exact ⟨bytes, hw, h⟩

theorem box_line : boxOf (vZero, vZero, vZero) [(vZero, vZero, vFive), (vZero, vZero, vEight), (vZero, vZero, vZero)] =
    ⟨vZero, vZero, vZero, vZero, vZero, vEight⟩ := by decide +kernel
theorem bits_line (hlog : AccurateLog2 lib) : vertexBits lib ⟨vZero, vZero, vZero, vZero, vZero, vEight⟩ (lit 1 1) vOne = (1, 1, 1) := by
  rw [vertexBits, bits_clear hlog] <;> decide +kernel
theorem coordQ_line : coordQ 1 vZero vEight vFive = vZero := by decide +kernel

/-- The precision asked for is not met on the z axis, since the number of bits is computed from the
size of the y axis: with precision 0.1 and shortest edge 1, the z coordinate 5 comes back as 0. -/
theorem C37_width_violated (hlog : AccurateLog2 lib) {fb : F64Bytes (ops lib)} {b : Build} :
    ∃ bytes t u v x y, saveVertices (ops lib) fb b
        [(vZero, vZero, vZero), (vZero, vZero, vFive), (vZero, vZero, vEight), (vZero, vZero, vZero)] (lit 1 1) vOne = .ok bytes ∧
      readVertices (ops lib) fb bytes = .ok [t, (x, y, vZero), u, v] ∧ valueOf vFive = 5 ∧ valueOf vZero = 0 := by
  have hb : vertexBox (ops lib) [(vZero, vZero, vZero), (vZero, vZero, vFive), (vZero, vZero, vEight), (vZero, vZero, vZero)] =
      .ok ⟨vZero, vZero, vZero, vZero, vZero, vEight⟩ := by rw [vertexBox_ops, box_line]
  have hp : (⟨vZero, vZero, vZero, vZero, vZero, vEight⟩ : VBox (Val b32)).precs (ops lib) (lit 1 1) vOne = (1, 1, 1) := by
    rw [precs_ops lib, bits_line lib hlog]
  obtain ⟨bytes, hw, hr⟩ := readVertices_saved (fo := ops lib) (fb := fb) (b := b) (precision := lit 1 1) (edge := vOne)
    hb (by rw [hp]; decide) (by rw [hp]; decide) (by rw [hp]; decide) (by show 4 ≤ 2 ^ 31; decide)
  have h := hr []
  rw [List.append_nil, quantVertices, hb] at h
  dsimp only at h
  rw [hp, List.map_cons, List.map_cons, List.map_cons, List.map_cons, List.map_nil, quantVertex_ops lib, quantVertex_ops lib,
    quantVertex_ops lib] at h
  dsimp only at h
  rw [coordQ_line] at h
  exact ⟨bytes, _, _, _, _, _, hw, h, valueOf_vFive, valueOf_vZero⟩

end Tmf.Props
