import Verif.Spec.Bits
import Verif.Model.Bits
import Mathlib.Tactic.Ring
import Mathlib.Tactic.Positivity
import Mathlib.Tactic.Set
/-
Lemmas about bit strings and the bit writer.
-/

namespace Tmf
open Spec

@[simp] theorem bits_zero (v : Nat) : bits 0 v = [] := rfl

@[simp] theorem length_bits (w v : Nat) : (bits w v).length = w := by
  induction w with
  | zero => rfl
  | succ w ih => simp [bits, ih]

theorem bits_congr {w a b : Nat} (h : ∀ i, i < w → a.testBit i = b.testBit i) :
    bits w a = bits w b := by
  induction w with
  | zero => rfl
  | succ w ih =>
    simp only [bits]
    rw [h w (by omega), ih (fun i hi => h i (by omega))]

theorem bits_add (m n v : Nat) : bits (m + n) v = bits m (v >>> n) ++ bits n v := by
  induction m with
  | zero => simp [bits]
  | succ m ih =>
    rw [show m + 1 + n = (m + n) + 1 by omega]
    simp only [bits, ih, List.cons_append, Nat.testBit_shiftRight]
    rw [show n + m = m + n by omega]

theorem value_foldl (l : List Bool) (a : Nat) :
    l.foldl (fun a b => 2 * a + b.toNat) a = a * 2 ^ l.length + value l := by
  induction l generalizing a with
  | nil => simp [value]
  | cons b l ih =>
    simp only [value, List.foldl_cons, List.length_cons]
    rw [ih, ih (2 * 0 + b.toNat)]
    ring

theorem value_append (l m : List Bool) : value (l ++ m) = value l * 2 ^ m.length + value m := by
  unfold value
  rw [List.foldl_append, value_foldl]
  rfl

@[simp] theorem value_nil : value [] = 0 := rfl

theorem value_cons (b : Bool) (l : List Bool) : value (b :: l) = b.toNat * 2 ^ l.length + value l := by
  have := value_append [b] l
  simpa [value] using this

theorem value_lt (l : List Bool) : value l < 2 ^ l.length := by
  induction l with
  | nil => simp
  | cons b l ih =>
    rw [value_cons, List.length_cons, Nat.pow_succ]
    have : b.toNat ≤ 1 := by cases b <;> simp
    have := Nat.mul_le_mul_right (2 ^ l.length) this
    omega

theorem value_bits (w v : Nat) : value (bits w v) = v % 2 ^ w := by
  induction w with
  | zero => simp [bits, Nat.mod_one]
  | succ w ih =>
    rw [bits, value_cons, ih, length_bits, Nat.toNat_testBit, Nat.pow_succ, Nat.mod_mul]
    ring

theorem bits_mod (w v : Nat) : bits w (v % 2 ^ w) = bits w v := by
  apply bits_congr
  intro i hi
  simp [Nat.testBit_mod_two_pow, hi]

theorem bits_value (l : List Bool) : bits l.length (value l) = l := by
  induction l with
  | nil => rfl
  | cons b l ih =>
    simp only [List.length_cons, bits]
    have hlt := value_lt l
    have h1 : value (b :: l) = 2 ^ l.length * b.toNat + value l := by
      rw [value_cons]; ring
    congr 1
    · rw [h1, Nat.testBit_two_pow_mul_add b.toNat hlt]
      cases b <;> simp
    · rw [h1, ← bits_mod]
      rw [Nat.mul_add_mod, bits_mod, ih]

theorem bits_injective {w a b : Nat} (ha : a < 2 ^ w) (hb : b < 2 ^ w) (h : bits w a = bits w b) :
    a = b := by
  have := congrArg value h
  rwa [value_bits, value_bits, Nat.mod_eq_of_lt ha, Nat.mod_eq_of_lt hb] at this

@[simp] theorem byteBits_nil : byteBits [] = [] := rfl
theorem byteBits_cons (b : UInt8) (l : List UInt8) : byteBits (b :: l) = bits 8 b.toNat ++ byteBits l := rfl
@[simp] theorem byteBits_append (l m : List UInt8) : byteBits (l ++ m) = byteBits l ++ byteBits m := by
  simp [byteBits]
@[simp] theorem length_byteBits (l : List UInt8) : (byteBits l).length = 8 * l.length := by
  induction l with
  | nil => rfl
  | cons b l ih => rw [byteBits_cons, List.length_append, ih, length_bits, List.length_cons]; omega

theorem byteBits_injective : ∀ {l m : List UInt8}, byteBits l = byteBits m → l = m
  | [], [], _ => rfl
  | [], b :: m, h => by have := congrArg List.length h; simp at this
  | b :: l, [], h => by have := congrArg List.length h; simp at this
  | b :: l, c :: m, h => by
    rw [byteBits_cons, byteBits_cons] at h
    have h' := List.append_inj h (by simp)
    have hb := bits_injective (w := 8) b.toNat_lt c.toNat_lt h'.1
    rw [byteBits_injective h'.2, UInt8.toNat_inj.mp hb]

@[simp] theorem fieldBits_nil : fieldBits [] = [] := rfl
@[simp] theorem fieldBits_cons (p : Nat × Nat) (l) : fieldBits (p :: l) = bits p.1 p.2 ++ fieldBits l := rfl
@[simp] theorem fieldBits_append (l m) : fieldBits (l ++ m) = fieldBits l ++ fieldBits m := by
  simp [fieldBits]
@[simp] theorem length_fieldBits (l) : (fieldBits l).length = fieldWidth l := by
  induction l with
  | nil => rfl
  | cons p l ih => simp [fieldWidth] at *; omega

/-! ### The writer -/

/-- What a writer has produced so far, as a bit string. -/
def BitWriter.content (w : BitWriter) : List Bool :=
  byteBits w.out ++ bits w.written (w.nextByte >>> (8 - w.written))

/-- Reachable writer states. -/
structure BitWriter.Inv (w : BitWriter) : Prop where
  written_lt : w.written < 8
  next_lt : w.nextByte < 256
  low : ∀ i, i < 8 - w.written → w.nextByte.testBit i = false

theorem BitWriter.inv_new : BitWriter.new.Inv := ⟨by decide, by decide, by simp [BitWriter.new]⟩
@[simp] theorem BitWriter.content_new : BitWriter.new.content = [] := rfl

theorem combine_bits {next b k c : Nat} (hkc : k + c ≤ 8)
    (hlow : ∀ i, i < 8 - k → next.testBit i = false) (hb : b < 2 ^ c) :
    bits (k + c) ((next ||| (b <<< (8 - k - c)) % 256) >>> (8 - k - c))
      = bits k (next >>> (8 - k)) ++ bits c b := by
  rw [bits_add]
  congr 1
  · apply bits_congr
    intro i hi
    rw [← Nat.shiftRight_add, show 8 - k - c + c = 8 - k by omega]
    simp only [Nat.testBit_shiftRight, Nat.testBit_or, show (256:Nat) = 2 ^ 8 from rfl,
      Nat.testBit_mod_two_pow, Nat.testBit_shiftLeft]
    have : b.testBit (8 - k + i - (8 - k - c)) = false := by
      apply Nat.testBit_lt_two_pow
      exact lt_of_lt_of_le hb (Nat.pow_le_pow_right (by omega) (by omega))
    simp [this]
  · apply bits_congr
    intro i hi
    simp only [Nat.testBit_shiftRight, Nat.testBit_or, show (256:Nat) = 2 ^ 8 from rfl,
      Nat.testBit_mod_two_pow, Nat.testBit_shiftLeft]
    rw [hlow _ (by omega)]
    have h1 : 8 - k - c + i < 8 := by omega
    have h2 : 8 - k - c + i - (8 - k - c) = i := by omega
    simp [h1, h2]

theorem BitWriter.writeLoop_spec : ∀ (fuel total data : Nat) (w : BitWriter), w.Inv → data < 2 ^ 64 →
    total ≤ 64 → total ≤ fuel →
    (writeLoop fuel total data w).Inv ∧
    (writeLoop fuel total data w).content = w.content ++ bits total (data >>> (64 - total)) := by
  intro fuel
  induction fuel with
  | zero =>
    intro total data w hw _ _ hf
    have : total = 0 := by omega
    subst this
    simp [writeLoop, hw, bits]
  | succ fuel ih =>
    intro total data w hw hd ht hf
    rw [writeLoop]
    split
    · next h => subst h; simp [hw, bits]
    · next h =>
      set c := min total (8 - w.written) with hc
      have hwl := hw.written_lt
      have hc1 : 1 ≤ c := by omega
      have hct : c ≤ total := by omega
      have hc8 : w.written + c ≤ 8 := by omega
      have hbl : data >>> (64 - c) < 2 ^ c := by
        rw [Nat.shiftRight_eq_div_pow, Nat.div_lt_iff_lt_mul (by positivity), ← Nat.pow_add]
        rwa [show c + (64 - c) = 64 by omega]
      have hbm : (data >>> (64 - c)) % 256 = data >>> (64 - c) := by
        apply Nat.mod_eq_of_lt
        exact lt_of_lt_of_le hbl (by
          calc 2 ^ c ≤ 2 ^ 8 := Nat.pow_le_pow_right (by omega) (by omega)
            _ = 256 := rfl)
      dsimp only
      rw [hbm]
      set b := data >>> (64 - c) with hbdef
      have hcomb := combine_bits hc8 hw.low hbl
      set nb := w.nextByte ||| (b <<< (8 - w.written - c)) % 256 with hnb
      have hnb_lt : nb < 256 := by
        have : nb < 2 ^ 8 := Nat.or_lt_two_pow hw.next_lt (Nat.mod_lt _ (by omega))
        exact this
      set data' := (data <<< c) % 2 ^ 64
      have hd' : data' < 2 ^ 64 := Nat.mod_lt _ (by positivity)
      have hrest : bits total (data >>> (64 - total)) =
          bits c b ++ bits (total - c) (data' >>> (64 - (total - c))) := by
        conv_lhs => rw [show total = c + (total - c) by omega, bits_add]
        congr 1
        · rw [← Nat.shiftRight_add, hbdef]
          congr 2
          omega
        · apply bits_congr
          intro i hi
          simp only [data', Nat.testBit_shiftRight, Nat.testBit_mod_two_pow, Nat.testBit_shiftLeft]
          have h1 : 64 - (total - c) + i < 64 := by omega
          have h2 : c ≤ 64 - (total - c) + i := by omega
          have h3 : 64 - (c + (total - c)) + i = 64 - (total - c) + i - c := by omega
          simp [h1, h2, h3]
      split
      · next h8 =>
        have h88 : w.written + c = 8 := by omega
        have hw' : BitWriter.Inv ⟨w.out ++ [UInt8.ofNat nb], 0, 0⟩ := ⟨by simp, by simp, by simp⟩
        obtain ⟨h1, h2⟩ := ih (total - c) data' _ hw' hd' (by omega) (by omega)
        refine ⟨h1, ?_⟩
        rw [h2, hrest]
        simp only [content, byteBits_append, byteBits_cons, byteBits_nil, List.append_nil, bits_zero]
        rw [UInt8.toNat_ofNat_of_lt' (by simpa using hnb_lt)]
        have h0 : 8 - w.written - c = 0 := by omega
        rw [h88, h0, Nat.shiftRight_zero] at hcomb
        rw [hcomb]
        simp
      · next h8 =>
        have hw' : BitWriter.Inv ⟨w.out, nb, w.written + c⟩ := by
          refine ⟨by dsimp; omega, hnb_lt, ?_⟩
          intro i hi
          dsimp at hi
          have h1 := hw.low i (by omega)
          simp only [hnb, Nat.testBit_or, h1, show (256:Nat) = 2 ^ 8 from rfl,
            Nat.testBit_mod_two_pow, Nat.testBit_shiftLeft]
          have : ¬ (8 - w.written - c ≤ i) := by omega
          simp [this]
        obtain ⟨h1, h2⟩ := ih (total - c) data' _ hw' hd' (by omega) (by omega)
        refine ⟨h1, ?_⟩
        rw [h2, hrest]
        simp only [content]
        rw [show 8 - (w.written + c) = 8 - w.written - c by omega, hcomb]
        simp

theorem BitWriter.write_spec (b : Build) {mode v : Nat} {w : BitWriter} (hw : w.Inv) (hm : mode ≤ 64) :
    ∃ w', w.write b mode v = .ok w' ∧ w'.Inv ∧ w'.content = w.content ++ bits mode v := by
  unfold write
  by_cases h : mode = 0
  · subst h; exact ⟨w, rfl, hw, by simp [bits]⟩
  · rw [if_neg h, if_pos hm]
    obtain ⟨h1, h2⟩ := writeLoop_spec mode mode ((v <<< (64 - mode)) % 2 ^ 64) w hw
      (Nat.mod_lt _ (by positivity)) hm le_rfl
    refine ⟨_, rfl, h1, ?_⟩
    rw [h2]
    congr 1
    apply bits_congr
    intro i hi
    simp only [Nat.testBit_shiftRight, Nat.testBit_mod_two_pow, Nat.testBit_shiftLeft]
    have h1 : 64 - mode + i < 64 := by omega
    simp [h1]

theorem BitWriter.writeAll_spec (b : Build) (l : List (Nat × Nat)) (hl : ∀ p ∈ l, p.1 ≤ 64) :
    ∀ {w : BitWriter}, w.Inv → ∃ w', writeAll b l w = .ok w' ∧ w'.Inv ∧
      w'.content = w.content ++ fieldBits l := by
  induction l with
  | nil => intro w hw; exact ⟨w, rfl, hw, by simp⟩
  | cons p l ih =>
    intro w hw
    obtain ⟨mode, v⟩ := p
    obtain ⟨w1, h1, hi1, hc1⟩ := write_spec b (mode := mode) (v := v) hw (hl (mode, v) (by simp))
    obtain ⟨w2, h2, hi2, hc2⟩ := ih (fun p hp => hl p (by simp [hp])) hi1
    refine ⟨w2, ?_, hi2, ?_⟩
    · rw [writeAll, h1]; exact h2
    · rw [hc2, hc1]; simp

/-- Closing the writer pads the last byte with zero bits. -/
theorem BitWriter.finish_bits {w : BitWriter} (hw : w.Inv) :
    ∃ pad, pad < 8 ∧ byteBits w.finish = w.content ++ List.replicate pad false := by
  unfold finish
  have hwl := hw.written_lt
  split
  · next h =>
    refine ⟨8 - w.written, by omega, ?_⟩
    simp only [byteBits_append, byteBits_cons, byteBits_nil, List.append_nil, content,
      List.append_assoc]
    congr 1
    rw [UInt8.toNat_ofNat_of_lt' (by simpa using hw.next_lt)]
    conv_lhs => rw [show 8 = w.written + (8 - w.written) by omega, bits_add]
    congr 1
    have : bits (8 - w.written) w.nextByte = bits (8 - w.written) 0 :=
      bits_congr (fun i hi => by simp [hw.low i hi])
    rw [this]
    generalize 8 - w.written = k
    induction k with
    | zero => rfl
    | succ k ih => simp [bits, ih, List.replicate_succ]
  · next h =>
    have : w.written = 0 := by omega
    exact ⟨0, by omega, by simp [content, this]⟩

theorem BitWriter.content_mod {w : BitWriter} : w.content.length = 8 * w.out.length + w.written := by
  simp [content]

theorem BitWriter.finish_length {w : BitWriter} (hw : w.Inv) :
    w.finish.length = (w.content.length + 7) / 8 := by
  have := hw.written_lt
  rw [content_mod]
  unfold finish
  split <;> (try simp only [List.length_append, List.length_singleton]) <;> omega

end Tmf
