import Verif.Lemmas.Endless
import Verif.Lemmas.SavedWidths
/-
C114: custom fractions that are infinite.
-/

set_option exponentiation.threshold 2000

namespace Tmf.Ieee
open Spec

/-- Neither NaN nor `+∞`; neither NaN nor `-∞`. -/
theorem min_below {x : Val b32} (y : Val b32) (h : x = .inf true ∨ isFinite x = true) :
    Ieee.min x y = .inf true ∨ isFinite (Ieee.min x y) = true := by
  rcases h with rfl | h
  · exact .inl (min_low _)
  · obtain ⟨s, n, hn, rfl⟩ := finite_cases h
    cases y with
    | nan => exact .inr rfl
    | inf t => cases t <;> simp [Ieee.min, lt, isFinite]
    | fin t m hm => right; simp only [Ieee.min]; split <;> rfl

theorem max_above {x : Val b32} (y : Val b32) (h : x = .inf false ∨ isFinite x = true) :
    Ieee.max x y = .inf false ∨ isFinite (Ieee.max x y) = true := by
  rcases h with rfl | h
  · exact .inl (max_high _)
  · obtain ⟨s, n, hn, rfl⟩ := finite_cases h
    cases y with
    | nan => exact .inr rfl
    | inf t => cases t <;> simp [Ieee.max, lt, isFinite]
    | fin t m hm => right; simp only [Ieee.max]; split <;> rfl

theorem fold_min_below : ∀ (l : List (Val b32)) (a : Val b32), (a = .inf true ∨ isFinite a = true) →
    (l.foldl Ieee.min a = .inf true ∨ isFinite (l.foldl Ieee.min a) = true)
  | [], _, h => h
  | x :: l, _, h => fold_min_below l _ (min_below x h)

theorem fold_max_above : ∀ (l : List (Val b32)) (a : Val b32), (a = .inf false ∨ isFinite a = true) →
    (l.foldl Ieee.max a = .inf false ∨ isFinite (l.foldl Ieee.max a) = true)
  | [], _, h => h
  | x :: l, _, h => fold_max_above l _ (max_above x h)

theorem fold_min_low : ∀ (l : List (Val b32)) (a : Val b32), (a = .inf true ∨ .inf true ∈ l) → l.foldl Ieee.min a = .inf true
  | [], a, h => by
    rcases h with rfl | h
    · rfl
    · cases h
  | x :: l, a, h => by
    refine fold_min_low l _ ?_
    rcases h with rfl | h
    · exact .inl (min_low _)
    · rcases List.mem_cons.mp h with rfl | h
      · exact .inl (min_low' _)
      · exact .inr h

theorem fold_max_high : ∀ (l : List (Val b32)) (a : Val b32), (a = .inf false ∨ .inf false ∈ l) → l.foldl Ieee.max a = .inf false
  | [], a, h => by
    rcases h with rfl | h
    · rfl
    · cases h
  | x :: l, a, h => by
    refine fold_max_high l _ ?_
    rcases h with rfl | h
    · exact .inl (max_high _)
    · rcases List.mem_cons.mp h with rfl | h
      · exact .inl (max_high' _)
      · exact .inr h

/-- The range of an array with an infinite fraction has no end. -/
theorem range_endless {data : List (Val b32)} (h : ∃ s, .inf s ∈ data) : sub (rangeOf data).2 (rangeOf data).1 = .inf false := by
  have h1 : (rangeOf data).1 = .inf true ∨ isFinite (rangeOf data).1 = true :=
    fold_min_below data _ (.inr (by decide +kernel))
  have h2 : (rangeOf data).2 = .inf false ∨ isFinite (rangeOf data).2 = true :=
    fold_max_above data _ (.inr (by decide +kernel))
  obtain ⟨s, h⟩ := h
  cases s with
  | true =>
    have e : (rangeOf data).1 = .inf true := fold_min_low data _ (.inr h)
    rw [e]
    rcases h2 with e | h2
    · rw [e]; rfl
    · obtain ⟨t, n, hn, e⟩ := finite_cases h2
      rw [e]; rfl
  | false =>
    have e : (rangeOf data).2 = .inf false := fold_max_high data _ (.inr h)
    rw [e]
    rcases h1 with e | h1
    · rw [e]; rfl
    · obtain ⟨t, n, hn, e⟩ := finite_cases h1
      rw [e]; rfl

/-- Such an array asks for 255 bits. -/
theorem floatBits_endless {lib : Libm} (hlog : AccurateLog2 lib) {data : List (Val b32)} {pr : Val b32} (h : ∃ s, .inf s ∈ data)
    (hp : isFinite pr = true) (p0 : isSignNegative pr = false) : floatPrec (ops lib) data pr = 255 := by
  have e : floatPrec (ops lib) data pr = Nat.max (ceilU8 (lib.log2 (div (sub (rangeOf data).2 (rangeOf data).1) pr))) 1 := rfl
  rw [e, range_endless h]
  obtain ⟨s, n, hn, rfl⟩ := finite_cases hp
  cases (p0 : s = false)
  have : div (.inf false : Val b32) (.fin false n hn) = .inf false := rfl
  rw [this, hlog.infinite]
  rfl

end Tmf.Ieee
