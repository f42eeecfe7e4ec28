import Verif.Spec.Unusable
import Verif.Lemmas.Finer
import Verif.Lemmas.Endless
/-
C115: vertex precisions that are no positive number.
-/

set_option exponentiation.threshold 2000

namespace Tmf.Ieee
open Spec

/-- The size of an axis has no sign. -/
theorem size_unsigned (lo hi : Val b32) : isSignNegative (sizeOf lo hi) = false := by
  obtain ⟨k, hk, k0, e⟩ : ∃ k hk, 0 < k ∧ (lit 1 6 : Val b32) = .fin false k hk := by
    have hf : isFinite (lit 1 6 : Val b32) = true := eps_value.1
    have hv := eps_value.2.1
    have hs : isSignNegative (lit 1 6 : Val b32) = false := rounded_sign _ _ _
    obtain ⟨s, n, hn, e⟩ := finite_cases hf
    rw [e] at hs hv ⊢
    cases (hs : s = false)
    refine ⟨n, hn, Nat.pos_of_ne_zero ?_, rfl⟩
    rintro rfl
    rw [valueOf_fin] at hv
    simp at hv
  rw [sizeOf, e]
  cases sub hi lo with
  | nan => rfl
  | inf s => cases s <;> rfl
  | fin s n hn =>
    simp only [Ieee.max]
    cases s with
    | false => split <;> rfl
    | true =>
      have : lt (.fin true n hn : Val b32) (.fin false k hk) = true := by
        simp only [lt, signed, decide_eq_true_eq, if_true, Bool.false_eq_true, if_false]
        omega
      rw [if_pos this]
      rfl

theorem div_unsigned {n : Nat} {hn : b32.Rep n} {y : Val b32} (h : isSignNegative y = false) :
    isSignNegative (div (.fin false n hn) y) = false := by
  cases y with
  | nan => rfl
  | inf t =>
    cases (h : t = false)
    exact rounded_sign _ _ _
  | fin t m hm =>
    cases (h : t = false)
    simp only [div]
    split
    · split <;> rfl
    · exact rounded_sign _ _ _

/-- Such a precision asks for no bits at all. -/
theorem bits_unusable {lib : Libm} (hlog : AccurateLog2 lib) {q pr : Val b32} (hq : isSignNegative q = false) (h : Unusable pr) :
    bitsFor lib (div (lit 1 0) (mul q pr)) = 0 := by
  have hnan : bitsFor lib (div (lit 1 0) .nan) = 0 := by
    have : div (lit 1 0 : Val b32) .nan = .nan := by decide +kernel
    rw [this]
    show ceilU8 (lib.log2 .nan) = 0
    rw [hlog.nan]
    rfl
  have hinf : bitsFor lib (div (lit 1 0) (.inf false)) = 0 := by
    have : div (lit 1 0 : Val b32) (.inf false) = .fin false 0 (by decide +kernel) := by decide +kernel
    rw [this]
    show ceilU8 (lib.log2 _) = 0
    rw [hlog.zero]
    rfl
  cases q with
  | nan => exact hnan
  | inf s =>
    cases (hq : s = false)
    cases pr with
    | nan => exact hnan
    | inf t =>
      cases t with
      | false => exact hinf
      | true => exact bits_negative hlog rfl
    | fin t m hm =>
      cases (h : t = true)
      simp only [mul]
      split
      · exact hnan
      · exact bits_negative hlog rfl
  | fin s n hn =>
    cases (hq : s = false)
    cases pr with
    | nan => exact hnan
    | inf t =>
      simp only [mul]
      split
      · exact hnan
      · cases t with
        | false => exact hinf
        | true => exact bits_negative hlog rfl
    | fin t m hm =>
      cases (h : t = true)
      exact bits_negative hlog (rounded_sign _ _ _)

/-- Each axis then takes one bit. -/
theorem precs_unusable {lib : Libm} (hlog : AccurateLog2 lib) (s : VBox (Val b32)) {pr : Val b32} (h : Unusable pr) {n : Nat} {hn : b32.Rep n} :
    s.precs (ops lib) pr (.fin false n hn) = (1, 1, 1) := by
  rw [precs_ops lib, vertexBits, bits_unusable hlog (div_unsigned (size_unsigned _ _)) h, bits_unusable hlog (div_unsigned (size_unsigned _ _)) h]
  rfl

/-- One bit: one of two values. -/
theorem coordQ_one (lo hi : Val b32) : ∃ a c, ∀ x, coordQ 1 lo hi x = a ∨ coordQ 1 lo hi x = c := by
  refine ⟨add (mul (div (ofNat 0) (ofNat (2 ^ 1 - 1))) (sub hi lo)) lo, add (mul (div (ofNat 1) (ofNat (2 ^ 1 - 1))) (sub hi lo)) lo, fun x => ?_⟩
  rw [coordQ]
  generalize toU64 (mul (div (sub x lo) (sizeOf lo hi)) (ofNat (2 ^ 1 - 1))) = k
  rcases Nat.mod_two_eq_zero_or_one k with h | h
  · exact .inl (by rw [show k % 2 ^ 1 = 0 from h])
  · exact .inr (by rw [show k % 2 ^ 1 = 1 from h])

end Tmf.Ieee
