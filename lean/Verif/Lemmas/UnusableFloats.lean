import Verif.Lemmas.Unusable
import Verif.Lemmas.EndlessFloats
import Verif.Lemmas.LayoutNumbers
/-
C116: precisions of custom fractions that are no positive number.
-/

set_option exponentiation.threshold 2000

namespace Tmf.Ieee
open Spec

/-- Not below zero: NaN, `+∞`, a number without a sign, or `-0`. -/
def SpanLike : Val b32 → Prop
  | .nan => True
  | .inf s => s = false
  | .fin s n _ => s = true → n = 0

theorem valueOf_signed {s : Bool} {n : Nat} {h : b32.Rep n} : valueOf (.fin s n h : Val b32) = (signed s n : ℚ) / 2 ^ b32.scale := by
  rw [valueOf_fin]
  cases s <;> simp [sgn, signed, neg_div]

theorem sub_notBelow {x y : Val b32} (hx : isFinite x = true) (hy : isFinite y = true) (h : valueOf y ≤ valueOf x) : SpanLike (sub x y) := by
  obtain ⟨s, n, hn, rfl⟩ := finite_cases hx
  obtain ⟨t, m, hm, rfl⟩ := finite_cases hy
  rw [valueOf_signed, valueOf_signed, div_le_div_iff_of_pos_right (by positivity)] at h
  have h : signed t m ≤ signed s n := by exact_mod_cast h
  have e : signed (!t) m = - signed t m := by cases t <;> simp [signed]
  simp only [sub, neg, add]
  split
  · have : ∀ s : Bool, SpanLike (rounded s 0 1 : Val b32) := by
      intro s
      have : (rounded s 0 1 : Val b32) = .fin s 0 (by decide +kernel) := by cases s <;> decide +kernel
      rw [this]
      exact fun _ => rfl
    exact this _
  · rw [decide_eq_false (by rw [e]; omega), rounded, pack]
    split
    · exact fun h => nomatch h
    · rfl

/-- The extent of an array that holds anything but NaN. -/
theorem span_notBelow {data : List (Val b32)} (h : ∃ x ∈ data, x ≠ .nan) : SpanLike (sub (rangeOf data).2 (rangeOf data).1) := by
  obtain ⟨x, hx, hne⟩ := h
  have hmax : isFinite (pack false b32.max : Val b32) = true := by decide +kernel
  have hmin : isFinite (pack true b32.max : Val b32) = true := by decide +kernel
  cases x with
  | nan => exact absurd rfl hne
  | inf s => rw [range_endless ⟨s, hx⟩]; rfl
  | fin s n hn =>
    have h1 : (rangeOf data).1 = .inf true ∨ isFinite (rangeOf data).1 = true := fold_min_below data _ (.inr hmax)
    have h2 : (rangeOf data).2 = .inf false ∨ isFinite (rangeOf data).2 = true := fold_max_above data _ (.inr hmin)
    rcases h1 with e | h1
    · rw [e]
      rcases h2 with e | h2
      · rw [e]; rfl
      · obtain ⟨t, m, hm, e⟩ := finite_cases h2
        rw [e]; rfl
    · rcases h2 with e | h2
      · obtain ⟨t, m, hm, e'⟩ := finite_cases h1
        rw [e, e']; rfl
      · exact sub_notBelow h2 h1 (le_trans ((fold_min_le hmax h1).2 _ hx rfl) ((fold_max_ge hmin h2).2 _ hx rfl))

/-- Such an array takes one bit per fraction. -/
theorem floatPrec_unusable {lib : Libm} (hlog : AccurateLog2 lib) {data : List (Val b32)} (h : ∃ x ∈ data, x ≠ .nan) {pr : Val b32}
    (hp : Unusable pr) : floatPrec (ops lib) data pr = 1 := by
  have key : ∀ y : Val b32, SpanLike y → ceilU8 (lib.log2 (div y pr)) = 0 := by
    intro y hy
    have hnan : ceilU8 (lib.log2 .nan) = 0 := by rw [hlog.nan]; rfl
    have hzero : ∀ s, ceilU8 (lib.log2 (rounded s 0 1)) = 0 := by
      intro s
      have : (rounded s 0 1 : Val b32) = .fin s 0 (by decide +kernel) := by cases s <;> decide +kernel
      rw [this, hlog.zero]; rfl
    have hneg : ∀ y : Val b32, isSignNegative y = true → ceilU8 (lib.log2 y) = 0 := by
      intro y hy
      cases y with
      | nan => cases hy
      | inf s =>
        cases hy
        rw [hlog.negative.1]
        rfl
      | fin s n hn =>
        cases hy
        by_cases h0 : n = 0
        · subst h0; rw [hlog.zero]; rfl
        · rw [hlog.negative.2 n hn h0]; rfl
    cases y with
    | nan => exact hnan
    | inf s =>
      cases (hy : s = false)
      cases pr with
      | nan => exact hnan
      | inf t => exact hnan
      | fin t m hm =>
        cases (hp : t = true)
        exact hneg _ rfl
    | fin s n hn =>
      cases pr with
      | nan => exact hnan
      | inf t => exact hzero _
      | fin t m hm =>
        cases (hp : t = true)
        simp only [div]
        cases s with
        | false =>
          split
          · split
            · exact hnan
            · exact hneg _ rfl
          · exact hneg _ (rounded_sign _ _ _)
        | true =>
          have h0 : n = 0 := hy rfl
          subst h0
          split
          · rw [if_pos rfl]; exact hnan
          · have : ∀ d, (rounded (true != true) (0 * 2 ^ b32.scale) d : Val b32) = rounded false 0 1 := by
              intro d
              have hr : ∀ d, b32.round 0 d = 0 := by
                intro d
                rw [Fmt.round, roundHalfEven]
                simp
              rw [Nat.zero_mul, rounded, rounded, hr, hr]
              rfl
            rw [this]
            exact hzero _
  have e : floatPrec (ops lib) data pr = Nat.max (ceilU8 (lib.log2 (div (sub (rangeOf data).2 (rangeOf data).1) pr))) 1 := rfl
  rw [e, key _ (span_notBelow h)]
  rfl

/-- The range of an array without any number: the two starting values, far on the wrong side of each other. -/
theorem range_blank {data : List (Val b32)} (h : ∀ x ∈ data, x = .nan) : sub (rangeOf data).2 (rangeOf data).1 = .inf true := by
  have h1 : ∀ (l : List (Val b32)) (a : Val b32), isFinite a = true → (∀ x ∈ l, x = .nan) → l.foldl Ieee.min a = a ∧ l.foldl Ieee.max a = a := by
    intro l
    induction l with
    | nil => exact fun a _ _ => ⟨rfl, rfl⟩
    | cons x l ih =>
      intro a ha h
      obtain ⟨s, n, hn, rfl⟩ := finite_cases ha
      cases h x (by simp)
      exact ih _ ha fun x hx => h x (by simp [hx])
  have e1 : (rangeOf data).1 = pack false b32.max := (h1 data _ (by decide +kernel) h).1
  have e2 : (rangeOf data).2 = pack true b32.max := (h1 data _ (by decide +kernel) h).2
  rw [e1, e2]
  decide +kernel

/-- With a precision below zero, such an array asks for 255 bits. -/
theorem floatBits_blank {lib : Libm} (hlog : AccurateLog2 lib) {data : List (Val b32)} (h : ∀ x ∈ data, x = .nan) {pr : Val b32}
    (hp : isFinite pr = true) (p0 : isSignNegative pr = true) : floatPrec (ops lib) data pr = 255 := by
  have e : floatPrec (ops lib) data pr = Nat.max (ceilU8 (lib.log2 (div (sub (rangeOf data).2 (rangeOf data).1) pr))) 1 := rfl
  rw [e, range_blank h]
  obtain ⟨s, n, hn, rfl⟩ := finite_cases hp
  cases (p0 : s = true)
  have : div (.inf true : Val b32) (.fin true n hn) = .inf false := rfl
  rw [this, hlog.infinite]
  rfl

/-- With a precision that is NaN or infinite, it takes one bit. -/
theorem floatPrec_blank {lib : Libm} (hlog : AccurateLog2 lib) {data : List (Val b32)} (h : ∀ x ∈ data, x = .nan) {pr : Val b32}
    (hp : isFinite pr = false) : floatPrec (ops lib) data pr = 1 := by
  have e : floatPrec (ops lib) data pr = Nat.max (ceilU8 (lib.log2 (div (sub (rangeOf data).2 (rangeOf data).1) pr))) 1 := rfl
  rw [e, range_blank h]
  have : div (.inf true : Val b32) pr = .nan := by
    cases pr with
    | nan => rfl
    | inf t => rfl
    | fin t m hm => cases hp
  rw [this, hlog.nan]
  rfl

/-- One bit: one of two values. -/
theorem floatQ_one (lo hi : Val b32) : ∃ a c, ∀ x, floatQ 1 lo hi x = a ∨ floatQ 1 lo hi x = c := by
  refine ⟨convert (add (mul (div (ofNat 0 : Val b64) (ofNat (2 ^ 1 - 1))) (sub (convert hi) (convert lo))) (convert lo)),
    convert (add (mul (div (ofNat 1 : Val b64) (ofNat (2 ^ 1 - 1))) (sub (convert hi) (convert lo))) (convert lo)), fun x => ?_⟩
  rw [floatQ]
  generalize toU64 (mul (div (sub x lo) (sub hi lo)) (ofNat (2 ^ 1 - 1))) = k
  rcases Nat.mod_two_eq_zero_or_one k with h | h
  · exact .inl (by rw [show k % 2 ^ 1 = 0 from h])
  · exact .inr (by rw [show k % 2 ^ 1 = 1 from h])

end Tmf.Ieee
