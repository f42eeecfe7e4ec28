import Verif.Lemmas.FloatText
import Verif.Lemmas.ObjUnique
import Verif.Model.Report
/-
The text of an integrity report determines the report.
-/

namespace Tmf

theorem decimal_injective {m n : Nat} (h : decimal m = decimal n) : m = n := by
  have a := digitsValue_decimal (m + 1) m (by omega)
  have b := digitsValue_decimal (n + 1) n (by omega)
  have h' : decimalAux (m + 1) m = decimalAux (n + 1) n := h
  rw [h', b] at a
  exact (Option.some.inj a).symm

/-- Two numbers with marks around them. -/
theorem two_inj {a b a' b' r s : List UInt8} (w : List UInt8) (ha : ∀ c ∈ a, c ≠ 44) (ha' : ∀ c ∈ a', c ≠ 44)
    (hb : ∀ c ∈ b, c ≠ 125) (hb' : ∀ c ∈ b', c ≠ 125)
    (h : a ++ (44 :: w ++ (b ++ (125 :: r))) = a' ++ (44 :: w ++ (b' ++ (125 :: s)))) : a = a' ∧ b = b' ∧ r = s := by
  obtain ⟨h1, h2⟩ := sep_inj ha ha' h
  obtain ⟨h3, h4⟩ := sep_inj hb hb' (List.append_cancel_left h2)
  exact ⟨h1, h3, h4⟩

theorem decimal_marks (n : Nat) : (∀ c ∈ decimal n, c ≠ 44) ∧ ∀ c ∈ decimal n, c ≠ 125 := by
  constructor <;>
  · intro c hc
    have := decimalAux_digits _ _ c hc
    rintro rfl
    simp at this

/-- The words errors start with. -/
def errorWords : List (List UInt8) :=
  [ascii "VertexArrayMissing", ascii "IndexOutsideVertexArray{index:", ascii "NormalArrayMissing", ascii "NormalsNotNormalized",
   ascii "IndexOutsideNormalArray{index:", ascii "IndexOutsideUVArray{index:", ascii "UVOutsideRange{x:", ascii "UVArrayMissing",
   ascii "MultipleErrors{"]

theorem errorWords_apart : ∀ i : Fin 9, ∀ j : Fin 9, errorWords[i.1]'i.2 <+: errorWords[j.1]'j.2 → i = j := by
  decide +kernel

theorem errorWords_inj {i j : Fin 9} {r s : List UInt8} (h : errorWords[i.1]'i.2 ++ r = errorWords[j.1]'j.2 ++ s) : i = j := by
  rcases List.prefix_or_prefix_of_prefix (List.prefix_append _ r) (h ▸ List.prefix_append _ s) with h | h
  · exact errorWords_apart i j h
  · exact (errorWords_apart j i h).symm

/-- Which word an error starts with. -/
def Integrity.kind {F : Type} : Integrity F → Fin 9
  | .vertexArrayMissing => 0
  | .indexOutsideVertexArray _ _ => 1
  | .normalArrayMissing => 2
  | .normalsNotNormalized => 3
  | .indexOutsideNormalArray _ _ => 4
  | .indexOutsideUvArray _ _ => 5
  | .uvOutsideRange _ _ => 6
  | .uvArrayMissing => 7

theorem integrity_starts {F : Type} (print : F → List UInt8) (e : Integrity F) :
    e.kind ≠ 8 ∧ ∃ rest, e.text print = errorWords[e.kind.1]'e.kind.2 ++ rest := by
  cases e with
  | vertexArrayMissing => exact ⟨by simp [Integrity.kind], [], (List.append_nil _).symm⟩
  | indexOutsideVertexArray i l => exact ⟨by simp [Integrity.kind], _, by simp only [Integrity.text, List.append_assoc]; rfl⟩
  | normalArrayMissing => exact ⟨by simp [Integrity.kind], [], (List.append_nil _).symm⟩
  | normalsNotNormalized => exact ⟨by simp [Integrity.kind], [], (List.append_nil _).symm⟩
  | indexOutsideNormalArray i l => exact ⟨by simp [Integrity.kind], _, by simp only [Integrity.text, List.append_assoc]; rfl⟩
  | indexOutsideUvArray i l => exact ⟨by simp [Integrity.kind], _, by simp only [Integrity.text, List.append_assoc]; rfl⟩
  | uvOutsideRange x y => exact ⟨by simp [Integrity.kind], _, by simp only [Integrity.text, List.append_assoc]; rfl⟩
  | uvArrayMissing => exact ⟨by simp [Integrity.kind], [], (List.append_nil _).symm⟩

section
variable {F : Type} {print : F → List UInt8} (hinj : ∀ x y, print x = print y → x = y) (hm : ∀ x, ∀ c ∈ print x, c ≠ 44 ∧ c ≠ 125)

include hinj hm

/-- Whatever follows, the text of an error can be told from that of another. -/
theorem integrity_text_inj {a b : Integrity F} {r s : List UInt8} (h : a.text print ++ r = b.text print ++ s) : a = b ∧ r = s := by
  have nums : ∀ (p : List UInt8) {i j k l : Nat}, p ++ decimal i ++ ascii ",length" ++ decimal j ++ ascii "}" ++ r =
      p ++ decimal k ++ ascii ",length" ++ decimal l ++ ascii "}" ++ s → i = k ∧ j = l ∧ r = s := by
    intro p i j k l h
    simp only [List.append_assoc] at h
    obtain ⟨h1, h2, h3⟩ := two_inj (ascii "length") (decimal_marks i).1 (decimal_marks k).1 (decimal_marks j).2 (decimal_marks l).2
      (List.append_cancel_left h)
    exact ⟨decimal_injective h1, decimal_injective h2, h3⟩
  have hk : a.kind = b.kind := by
    obtain ⟨-, ra, ea⟩ := integrity_starts print a
    obtain ⟨-, rb, eb⟩ := integrity_starts print b
    rw [ea, eb, List.append_assoc, List.append_assoc] at h
    exact errorWords_inj h
  cases a with
  | vertexArrayMissing => cases b <;> simp [Integrity.kind] at hk; exact ⟨rfl, List.append_cancel_left h⟩
  | indexOutsideVertexArray i l =>
    cases b <;> simp [Integrity.kind] at hk
    obtain ⟨rfl, rfl, e⟩ := nums _ h
    exact ⟨rfl, e⟩
  | normalArrayMissing => cases b <;> simp [Integrity.kind] at hk; exact ⟨rfl, List.append_cancel_left h⟩
  | normalsNotNormalized => cases b <;> simp [Integrity.kind] at hk; exact ⟨rfl, List.append_cancel_left h⟩
  | indexOutsideNormalArray i l =>
    cases b <;> simp [Integrity.kind] at hk
    obtain ⟨rfl, rfl, e⟩ := nums _ h
    exact ⟨rfl, e⟩
  | indexOutsideUvArray i l =>
    cases b <;> simp [Integrity.kind] at hk
    obtain ⟨rfl, rfl, e⟩ := nums _ h
    exact ⟨rfl, e⟩
  | uvOutsideRange x y =>
    cases b <;> simp [Integrity.kind] at hk
    simp only [Integrity.text, List.append_assoc] at h
    obtain ⟨h1, h2, h3⟩ := two_inj (ascii "y:") (fun c hc => (hm _ c hc).1) (fun c hc => (hm _ c hc).1) (fun c hc => (hm _ c hc).2)
      (fun c hc => (hm _ c hc).2) (List.append_cancel_left h)
    rw [hinj _ _ h1, hinj _ _ h2]
    exact ⟨rfl, h3⟩
  | uvArrayMissing => cases b <;> simp [Integrity.kind] at hk; exact ⟨rfl, List.append_cancel_left h⟩

theorem integrities_text_inj : ∀ {a b : List (Integrity F)} {r s : List UInt8},
    a.flatMap (fun e => ascii "," ++ e.text print) ++ 125 :: r = b.flatMap (fun e => ascii "," ++ e.text print) ++ 125 :: s →
    a = b ∧ r = s
  | [], [], r, s, h => ⟨rfl, (List.cons.inj h).2⟩
  | [], y :: b, r, s, h => by
    rw [List.flatMap_nil, List.nil_append, List.flatMap_cons, List.append_assoc, List.append_assoc] at h
    exact absurd (List.cons.inj h).1 (by decide)
  | x :: a, [], r, s, h => by
    rw [List.flatMap_nil, List.nil_append, List.flatMap_cons, List.append_assoc, List.append_assoc] at h
    exact absurd (List.cons.inj h).1 (by decide)
  | x :: a, y :: b, r, s, h => by
    rw [List.flatMap_cons, List.flatMap_cons, List.append_assoc, List.append_assoc, List.append_assoc, List.append_assoc] at h
    obtain ⟨rfl, h'⟩ := integrity_text_inj hinj hm (List.append_cancel_left h)
    obtain ⟨rfl, rfl⟩ := integrities_text_inj h'
    exact ⟨rfl, rfl⟩

theorem status_text_inj {a b : IntegrityStatus F} (h : a.text print = b.text print) : a = b := by
  have other : ∀ (e : Integrity F) (r : List UInt8), ascii "MultipleErrors{" ++ r ≠ e.text print := by
    intro e r h
    obtain ⟨h8, rest, he⟩ := integrity_starts print e
    rw [he] at h
    exact h8 (errorWords_inj (i := 8) h).symm
  cases a with
  | single a =>
    cases b with
    | single b => 
      rw [(integrity_text_inj hinj hm (a := a) (b := b) (r := []) (s := []) (by rw [List.append_nil, List.append_nil]; exact h)).1]
    | composite b =>
      simp only [IntegrityStatus.text, List.append_assoc] at h
      exact (other _ _ h.symm).elim
  | composite a =>
    cases b with
    | single b =>
      simp only [IntegrityStatus.text, List.append_assoc] at h
      exact (other _ _ h).elim
    | composite b =>
      simp only [IntegrityStatus.text, List.append_assoc] at h
      rw [(integrities_text_inj hinj hm (r := []) (s := []) (List.append_cancel_left h)).1]

end

namespace Ieee

theorem printVal_marks {f : Fmt} (x : Val f) : ∀ c ∈ printVal x, c ≠ 44 ∧ c ≠ 125 := by
  have dig : ∀ {l : List UInt8}, Digits l → ∀ c ∈ l, c ≠ 44 ∧ c ≠ 125 := by
    intro l h c hc
    have := h c hc
    constructor <;> rintro rfl <;> simp at this
  have hs : ∀ (s : Bool), ∀ c ∈ (if s then [45] else [] : List UInt8), c ≠ 44 ∧ c ≠ 125 := by decide
  intro c hc
  cases x with
  | nan =>
    rw [show printVal (.nan : Val f) = ascii "NaN" from rfl] at hc
    revert c
    decide
  | inf s =>
    rcases List.mem_append.mp hc with h | h
    · exact hs s c h
    · clear hc
      revert c
      decide
  | fin s n h =>
    rcases List.mem_append.mp hc with h | h
    · exact hs s c h
    · rw [positional] at h
      split at h
      · exact dig (decimal_digits _) c h
      · rcases List.mem_append.mp h with h | h
        · exact dig (decimal_digits _) c h
        · rcases List.mem_cons.mp h with rfl | h
          · decide
          · exact dig (padded_digits _ _) c h

theorem printVal_inj {f : Fmt} (x y : Val f) (h : printVal x = printVal y) : x = y := by
  have nan : ∀ z : Val f, printVal z = ascii "NaN" → z = .nan := by
    intro z hz
    by_cases hn : isNaN z = false
    · have := parseVal_print z hn
      rw [hz] at this
      exact (Option.some.inj (this.symm.trans rfl))
    · cases z with
      | nan => rfl
      | inf s => exact absurd rfl hn
      | fin s n h => exact absurd rfl hn
  by_cases hx : isNaN x = false
  · by_cases hy : isNaN y = false
    · have := parseVal_print x hx
      rw [h, parseVal_print y hy] at this
      exact (Option.some.inj this).symm
    · cases y with
      | nan => exact nan x h
      | inf s => exact absurd rfl hy
      | fin s n h => exact absurd rfl hy
  · cases x with
    | nan => exact (nan y h.symm).symm
    | inf s => exact absurd rfl hx
    | fin s n h => exact absurd rfl hx

end Ieee

end Tmf
