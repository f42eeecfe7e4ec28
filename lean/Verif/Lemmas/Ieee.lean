import Verif.Model.Ieee
import Verif.Spec.FloatLaws
import Verif.Spec.Verify
/-
IEEE arithmetic satisfies the order laws.
-/

namespace Tmf.Ieee
open Spec
variable {f : Fmt}

theorem lt_asymm (a b : Val f) (h : lt a b = true) : lt b a = false := by
  cases a with
  | nan => cases h
  | inf s =>
    cases b with
    | nan => cases h
    | inf t => cases s <;> cases t <;> first | rfl | cases h
    | fin t m _ => cases s <;> first | rfl | cases h
  | fin s n _ =>
    cases b with
    | nan => cases h
    | inf t => cases t <;> first | rfl | cases h
    | fin t m _ =>
      simp only [lt, decide_eq_true_eq] at h
      simp only [lt, decide_eq_false_iff_not]
      omega

theorem lt_trans (a b c : Val f) (h : lt a b = true) (h' : lt b c = true) : lt a c = true := by
  cases a with
  | nan => cases h
  | inf s =>
    cases b with
    | nan => cases h
    | inf t =>
      cases s <;> cases t <;> first | cases h | skip
      cases c with
      | nan => cases h'
      | inf u => cases h'
      | fin u k _ => cases h'
    | fin t m _ =>
      cases s <;> first | cases h | skip
      cases c with
      | nan => cases h'
      | inf u => exact h'
      | fin u k _ => rfl
  | fin s n _ =>
    cases b with
    | nan => cases h
    | inf t =>
      cases t <;> first | cases h | skip
      cases c with
      | nan => cases h'
      | inf u => cases h'
      | fin u k _ => cases h'
    | fin t m _ =>
      cases c with
      | nan => cases h'
      | inf u => exact h'
      | fin u k _ =>
        simp only [lt, decide_eq_true_eq] at h h' ⊢
        omega

theorem min_of_lt (a b : Val f) (h : lt a b = true) : min a b = a := by
  have h' := lt_asymm a b h
  cases a <;> cases b <;> first | (simp [min, h']; done) | cases h

theorem max_of_lt (a b : Val f) (h : lt b a = true) : max a b = a := by
  have h' := lt_asymm b a h
  cases a <;> cases b <;> first | (simp [max, h']; done) | cases h

theorem orderLaws (lib : Libm) : OrderLaws (ops lib) where
  asymm := lt_asymm
  trans := lt_trans
  min_left := min_of_lt
  max_left := max_of_lt
  zero_lt_one := by
    show lt (lit 0 0 : Val b32) (lit 1 0) = true
    decide +kernel

theorem uvLaw {fo : FloatOps} (h : OrderLaws fo) : UvLaw fo := fun x hx =>
  h.asymm x _ (h.trans _ _ _ hx h.zero_lt_one)

end Tmf.Ieee
