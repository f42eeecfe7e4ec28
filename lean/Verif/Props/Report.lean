import Verif.Lemmas.Report
/-
C87: the text of integrity reports.
-/

namespace Tmf.Props
open Ieee

/-- C87. Different reports have different texts, for `f32` and `f64`: the text tells which checks failed,
in which order, with which index and length and at which uv coordinates. -/
theorem C87_told_apart {f : Fmt} {a b : IntegrityStatus (Val f)} (h : a.text printVal = b.text printVal) : a = b :=
  status_text_inj printVal_inj printVal_marks h

/-- C87. The text is one line of printable ASCII. -/
theorem C87_one_line {f : Fmt} (a : IntegrityStatus (Val f)) : ∀ c ∈ a.text printVal, 33 ≤ c.toNat ∧ c.toNat ≤ 126 := by
  have app : ∀ {p q : List UInt8}, (∀ c ∈ p, 33 ≤ c.toNat ∧ c.toNat ≤ 126) → (∀ c ∈ q, 33 ≤ c.toNat ∧ c.toNat ≤ 126) →
      ∀ c ∈ p ++ q, 33 ≤ c.toNat ∧ c.toNat ≤ 126 := by
    intro p q hp hq c hc
    exact (List.mem_append.mp hc).elim (hp c) (hq c)
  have dig : ∀ {l : List UInt8}, Digits l → ∀ c ∈ l, 33 ≤ c.toNat ∧ c.toNat ≤ 126 := by
    intro l h c hc
    have := h c hc
    omega
  have dec : ∀ n, ∀ c ∈ decimal n, 33 ≤ c.toNat ∧ c.toNat ≤ 126 := fun n => dig (decimal_digits n)
  have sign : ∀ s : Bool, ∀ c ∈ (if s then [45] else [] : List UInt8), 33 ≤ c.toNat ∧ c.toNat ≤ 126 := by decide
  have val : ∀ x : Val f, ∀ c ∈ printVal x, 33 ≤ c.toNat ∧ c.toNat ≤ 126 := by
    intro x
    cases x with
    | nan =>
      rw [show printVal (.nan : Val f) = ascii "NaN" from rfl]
      decide
    | inf s => exact app (sign s) (by decide)
    | fin s n h =>
      refine app (sign s) ?_
      rw [positional]
      split
      · exact dec _
      · exact app (dec _) (app (p := [46]) (by decide) (dig (padded_digits _ _)))
  have single : ∀ e : Integrity (Val f), ∀ c ∈ e.text printVal, 33 ≤ c.toNat ∧ c.toNat ≤ 126 := by
    intro e
    cases e with
    | vertexArrayMissing => rw [Integrity.text]; decide
    | indexOutsideVertexArray i l => exact app (app (app (app (by decide) (dec _)) (by decide)) (dec _)) (by decide)
    | normalArrayMissing => rw [Integrity.text]; decide
    | normalsNotNormalized => rw [Integrity.text]; decide
    | indexOutsideNormalArray i l => exact app (app (app (app (by decide) (dec _)) (by decide)) (dec _)) (by decide)
    | indexOutsideUvArray i l => exact app (app (app (app (by decide) (dec _)) (by decide)) (dec _)) (by decide)
    | uvOutsideRange x y => exact app (app (app (app (by decide) (val _)) (by decide)) (val _)) (by decide)
    | uvArrayMissing => rw [Integrity.text]; decide
  cases a with
  | single e => exact single e
  | composite es =>
    refine app (app (by decide) ?_) (by decide)
    intro c hc
    obtain ⟨e, -, hc⟩ := List.mem_flatMap.mp hc
    exact app (p := ascii ",") (by decide) (single e) c hc

/-- Two reports, one of a single error and one of two. -/
example : IntegrityStatus.text (printVal (f := b32)) (.single (.indexOutsideUvArray 12 3)) = ascii "IndexOutsideUVArray{index:12,length3}" ∧
    IntegrityStatus.text (printVal (f := b32)) (.composite [.vertexArrayMissing, .uvOutsideRange (lit 25 1) (.inf true)]) =
      ascii "MultipleErrors{,VertexArrayMissing,UVOutsideRange{x:2.5,y:-inf}}" := by
  constructor <;> decide +kernel

end Tmf.Props
