import Verif.Model.Import
import Verif.Spec.FileFormat
import Mathlib.Tactic.Ring
/-
`validUtf8` accepts exactly the encodings of texts.
-/

namespace Tmf
open Spec

theorem toNat_ofNat_lt {n : Nat} (h : n < 256) : (UInt8.ofNat n).toNat = n := by
  rw [UInt8.toNat_ofNat']; exact Nat.mod_eq_of_lt h

theorem validUtf8_encodeChar (c : Char) (l : List UInt8) : validUtf8 (String.utf8EncodeChar c ++ l) = validUtf8 l := by
  have hv : c.val.toNat < 0xd800 ∨ 0xdfff < c.val.toNat ∧ c.val.toNat < 0x110000 := c.valid
  unfold String.utf8EncodeChar
  generalize c.val.toNat = v at hv
  dsimp only
  split
  · next h =>
    rw [List.singleton_append, validUtf8.eq_def]
    dsimp only
    rw [toNat_ofNat_lt (by omega), if_pos (by omega)]
  split
  · next h1 h2 =>
    have e0 := toNat_ofNat_lt (n := v / 64 % 32 + 192) (by omega)
    have e1 := toNat_ofNat_lt (n := v % 64 + 128) (by omega)
    rw [List.cons_append, List.singleton_append, validUtf8.eq_def]
    dsimp only
    rw [e0, if_neg (by omega)]
    rw [if_pos (by omega), isCont, e1]
    have : 128 ≤ v % 64 + 128 ∧ v % 64 + 128 < 192 := by omega
    simp [this.1, this.2]
  split
  · next h1 h2 h3 =>
    have e0 := toNat_ofNat_lt (n := v / 4096 % 16 + 224) (by omega)
    have e1 := toNat_ofNat_lt (n := v / 64 % 64 + 128) (by omega)
    have e2 := toNat_ofNat_lt (n := v % 64 + 128) (by omega)
    simp only [List.cons_append, List.nil_append]
    rw [validUtf8.eq_def]
    dsimp only
    rw [e0, if_neg (by omega)]
    rw [if_neg (by omega), if_pos (by omega), isCont, e1, isCont, e2]
    have a1 : 128 ≤ v / 64 % 64 + 128 ∧ v / 64 % 64 + 128 < 192 := by omega
    have a2 : 128 ≤ v % 64 + 128 ∧ v % 64 + 128 < 192 := by omega
    have a3 : v / 4096 % 16 + 224 ≠ 224 ∨ 160 ≤ v / 64 % 64 + 128 := by omega
    have a4 : v / 4096 % 16 + 224 ≠ 237 ∨ v / 64 % 64 + 128 < 160 := by omega
    have b3 : (decide (v / 4096 % 16 + 224 ≠ 224) || decide (160 ≤ v / 64 % 64 + 128)) = true := by
      simpa using a3
    have b4 : (decide (v / 4096 % 16 + 224 ≠ 237) || decide (v / 64 % 64 + 128 < 160)) = true := by
      simpa using a4
    rw [b3, b4]
    simp only [a1.1, a1.2, a2.1, a2.2, decide_true, Bool.true_and, Bool.and_true]
  · next h1 h2 h3 =>
    have e0 := toNat_ofNat_lt (n := v / 262144 % 8 + 240) (by omega)
    have e1 := toNat_ofNat_lt (n := v / 4096 % 64 + 128) (by omega)
    have e2 := toNat_ofNat_lt (n := v / 64 % 64 + 128) (by omega)
    have e3 := toNat_ofNat_lt (n := v % 64 + 128) (by omega)
    simp only [List.cons_append, List.nil_append]
    rw [validUtf8.eq_def]
    dsimp only
    rw [e0, if_neg (by omega)]
    rw [if_neg (by omega), if_neg (by omega), isCont, e1, isCont, e2, isCont, e3]
    have a0 : 240 ≤ v / 262144 % 8 + 240 ∧ v / 262144 % 8 + 240 < 245 := by omega
    have a1 : 128 ≤ v / 4096 % 64 + 128 ∧ v / 4096 % 64 + 128 < 192 := by omega
    have a2 : 128 ≤ v / 64 % 64 + 128 ∧ v / 64 % 64 + 128 < 192 := by omega
    have a3 : 128 ≤ v % 64 + 128 ∧ v % 64 + 128 < 192 := by omega
    have a4 : v / 262144 % 8 + 240 ≠ 240 ∨ 144 ≤ v / 4096 % 64 + 128 := by omega
    have a5 : v / 262144 % 8 + 240 ≠ 244 ∨ v / 4096 % 64 + 128 < 144 := by omega
    have b4 : (decide (v / 262144 % 8 + 240 ≠ 240) || decide (144 ≤ v / 4096 % 64 + 128)) = true := by
      simpa using a4
    have b5 : (decide (v / 262144 % 8 + 240 ≠ 244) || decide (v / 4096 % 64 + 128 < 144)) = true := by
      simpa using a5
    rw [b4, b5]
    simp only [a0.1, a0.2, a1.1, a1.2, a2.1, a2.2, a3.1, a3.2, decide_true, Bool.true_and, Bool.and_true]

theorem validUtf8_of_isText {l : List UInt8} (h : IsText l) : validUtf8 l = true := by
  obtain ⟨cs, rfl⟩ := h
  induction cs with
  | nil => rfl
  | cons c cs ih => rw [List.flatMap_cons, validUtf8_encodeChar, ih]

theorem isText_cons {l l' : List UInt8} {c : Char} (h : l = String.utf8EncodeChar c ++ l') (hl : IsText l') : IsText l := by
  obtain ⟨cs, rfl⟩ := hl
  exact ⟨c :: cs, by rw [h, List.flatMap_cons]⟩

theorem exists_char {v : Nat} (h : v < 0xd800 ∨ 0xdfff < v ∧ v < 0x110000) : ∃ c : Char, c.val.toNat = v := by
  refine ⟨⟨UInt32.ofNat v, ?_⟩, ?_⟩
  · show (UInt32.ofNat v).toNat.isValidChar
    rw [UInt32.toNat_ofNat', Nat.mod_eq_of_lt (by omega)]
    exact h
  · show (UInt32.ofNat v).toNat = v
    rw [UInt32.toNat_ofNat', Nat.mod_eq_of_lt (by omega)]

theorem ofNat_eq {n : Nat} {c : UInt8} (h : n = c.toNat) : UInt8.ofNat n = c := by
  subst h; simp

theorem isText_of_validUtf8 : ∀ (n : Nat) (l : List UInt8), l.length ≤ n → validUtf8 l = true → IsText l := by
  intro n
  induction n with
  | zero =>
    intro l hl _
    obtain rfl : l = [] := List.length_eq_zero_iff.mp (by omega)
    exact ⟨[], rfl⟩
  | succ n ih =>
    intro l hl h
    cases l with
    | nil => exact ⟨[], rfl⟩
    | cons c0 l0 =>
      have hc0 : c0.toNat < 256 := c0.toNat_lt
      rw [validUtf8.eq_def] at h
      dsimp only at h
      simp only [List.length_cons] at hl
      split at h
      · next h128 =>
        obtain ⟨c, hc⟩ := exists_char (v := c0.toNat) (by omega)
        refine isText_cons (c := c) ?_ (ih l0 (by omega) h)
        unfold String.utf8EncodeChar
        rw [hc]
        dsimp only
        rw [if_pos (by omega)]
        simp
      · next h128 =>
        cases l0 with
        | nil => simp at h
        | cons c1 l1 =>
          have hc1 : c1.toNat < 256 := c1.toNat_lt
          dsimp only at h
          simp only [List.length_cons] at hl
          split at h
          · next h2 =>
            simp only [isCont, Bool.and_eq_true, decide_eq_true_eq] at h
            obtain ⟨⟨g1, g2⟩, h⟩ := h
            obtain ⟨c, hc⟩ := exists_char (v := (c0.toNat - 192) * 64 + (c1.toNat - 128)) (by omega)
            refine isText_cons (c := c) ?_ (ih l1 (by omega) h)
            unfold String.utf8EncodeChar
            rw [hc]
            dsimp only
            rw [if_neg (by omega), if_pos (by omega), ofNat_eq (c := c0) (by omega), ofNat_eq (c := c1) (by omega)]
            rfl
          · next h2 =>
            cases l1 with
            | nil => simp at h
            | cons c2 l2 =>
              have hc2 : c2.toNat < 256 := c2.toNat_lt
              dsimp only at h
              simp only [List.length_cons] at hl
              split at h
              · next h3 =>
                simp only [isCont, Bool.and_eq_true, Bool.or_eq_true, decide_eq_true_eq] at h
                obtain ⟨⟨⟨⟨⟨g1, g2⟩, g3, g4⟩, g5⟩, g6⟩, h⟩ := h
                obtain ⟨c, hc⟩ := exists_char
                  (v := (c0.toNat - 224) * 4096 + (c1.toNat - 128) * 64 + (c2.toNat - 128)) (by omega)
                refine isText_cons (c := c) ?_ (ih l2 (by omega) h)
                unfold String.utf8EncodeChar
                rw [hc]
                dsimp only
                rw [if_neg (by omega), if_neg (by omega), if_pos (by omega), ofNat_eq (c := c0) (by omega),
                  ofNat_eq (c := c1) (by omega), ofNat_eq (c := c2) (by omega)]
                rfl
              · next h3 =>
                cases l2 with
                | nil => simp at h
                | cons c3 l3 =>
                  have hc3 : c3.toNat < 256 := c3.toNat_lt
                  dsimp only at h
                  simp only [List.length_cons] at hl
                  simp only [isCont, Bool.and_eq_true, Bool.or_eq_true, decide_eq_true_eq] at h
                  obtain ⟨⟨⟨⟨⟨⟨⟨f1, f2⟩, g1, g2⟩, g3, g4⟩, g7, g8⟩, g5⟩, g6⟩, h⟩ := h
                  obtain ⟨c, hc⟩ := exists_char
                    (v := (c0.toNat - 240) * 262144 + (c1.toNat - 128) * 4096 + (c2.toNat - 128) * 64 +
                      (c3.toNat - 128)) (by omega)
                  refine isText_cons (c := c) ?_ (ih l3 (by omega) h)
                  unfold String.utf8EncodeChar
                  rw [hc]
                  dsimp only
                  rw [if_neg (by omega), if_neg (by omega), if_neg (by omega), ofNat_eq (c := c0) (by omega),
                    ofNat_eq (c := c1) (by omega), ofNat_eq (c := c2) (by omega), ofNat_eq (c := c3) (by omega)]
                  rfl

theorem validUtf8_iff {l : List UInt8} : validUtf8 l = true ↔ IsText l :=
  ⟨isText_of_validUtf8 l.length l (Nat.le_refl _), validUtf8_of_isText⟩

end Tmf
