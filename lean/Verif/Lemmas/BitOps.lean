import Verif.Spec.BitOps
import Verif.Lemmas.BitReader
/-
Behavioural equivalence of bit readers.
-/

namespace Tmf
open Spec

/-- Two outcomes of the same shape with related values. -/
def Outcome.Rel {ε α β : Type} (R : α → β → Prop) : Outcome ε α → Outcome ε β → Prop
  | .ok a, .ok b => R a b
  | .err e, .err e' => e = e'
  | .panic, .panic => True
  | _, _ => False

theorem Outcome.Rel.bind {ε α β γ δ : Type} {R : α → β → Prop} {S : γ → δ → Prop}
    {x : Outcome ε α} {y : Outcome ε β} {f : α → Outcome ε γ} {g : β → Outcome ε δ}
    (h : Outcome.Rel R x y) (hfg : ∀ a b, R a b → Outcome.Rel S (f a) (g b)) :
    Outcome.Rel S (x >>= f) (y >>= g) := by
  cases x <;> cases y <;> simp_all [Outcome.Rel]

theorem Outcome.Rel.eq {ε α : Type} {x y : Outcome ε α} (h : Outcome.Rel (· = ·) x y) : x = y := by
  cases x <;> cases y <;> simp_all [Outcome.Rel]

/-- Readers that will behave the same from now on. -/
structure BitReader.Equiv (r s : BitReader) : Prop where
  inv₁ : r.Inv
  inv₂ : s.Inv
  rem : r.rem = s.rem
  broken : r.src.broken = s.src.broken

theorem BitReader.Equiv.refl {r : BitReader} (h : r.Inv) : r.Equiv r := ⟨h, h, rfl, rfl⟩
theorem BitReader.Equiv.endError {r s : BitReader} (h : r.Equiv s) : r.src.endError = s.src.endError := by
  simp [Source.endError, h.broken]

/-- The specification of `read` as a function of the remaining bits. -/
theorem BitReader.read_cases {r : BitReader} (hr : r.Inv) (mode : Nat) :
    (mode ≥ 64 ∧ r.read mode = .ok (0, r)) ∨
    (mode < 64 ∧ mode ≤ r.rem.length ∧ ∃ r', r.read mode = .ok (value (r.rem.take mode), r') ∧ r'.Inv ∧
      r'.rem = r.rem.drop mode ∧ r'.src.broken = r.src.broken) ∨
    (mode < 64 ∧ r.rem.length < mode ∧ r.read mode = .err r.src.endError) := by
  by_cases h : mode ≥ 64
  · left; exact ⟨h, by simp [BitReader.read, h]⟩
  · right
    by_cases h2 : mode ≤ r.rem.length
    · left; exact ⟨by omega, h2, read_ok hr (by omega) h2⟩
    · right; exact ⟨by omega, by omega, read_err hr (by omega) (by omega)⟩

/-- Same value and equivalent readers. -/
def SameRead {α : Type} (p q : α × BitReader) : Prop := p.1 = q.1 ∧ p.2.Equiv q.2

theorem BitReader.Equiv.read {r s : BitReader} (h : r.Equiv s) (mode : Nat) :
    Outcome.Rel SameRead (r.read mode) (s.read mode) := by
  rcases read_cases h.inv₁ mode with ⟨h1, e1⟩ | ⟨h1, hl, r', e1, hi, hd, hb⟩ | ⟨h1, hl, e1⟩ <;>
  rcases read_cases h.inv₂ mode with ⟨h2, e2⟩ | ⟨h2, hl2, s', e2, hi2, hd2, hb2⟩ | ⟨h2, hl2, e2⟩ <;>
  rw [e1, e2] <;> first | (exfalso; have := h.rem; simp_all; omega) | skip
  · exact ⟨rfl, h⟩
  · exact ⟨by rw [h.rem], hi, hi2, by rw [hd, hd2, h.rem], by rw [hb, hb2, h.broken]⟩
  · exact h.endError

theorem BitReader.readBit_cases {r : BitReader} (hr : r.Inv) :
    (∃ bit rest r', r.rem = bit :: rest ∧ r.readBit = .ok (bit, r') ∧ r'.Inv ∧ r'.rem = rest ∧
      r'.src.broken = r.src.broken) ∨
    (r.rem = [] ∧ r.readBit = .err r.src.endError) := by
  have key : ∀ r1 : BitReader, r1.Inv → r1.bitsRead < 64 →
      ∃ bit rest r', r1.rem = bit :: rest ∧
        (Outcome.ok (r1.cur &&& 2 ^ 63 != 0, ⟨r1.src, (r1.cur <<< 1) % 2 ^ 64, r1.bitsRead + 1⟩) :
          Outcome ImportError (Bool × BitReader)) = .ok (bit, r') ∧ r'.Inv ∧ r'.rem = rest ∧
        r'.src.broken = r1.src.broken := by
    intro r1 hr1 hlt
    refine ⟨r1.cur.testBit 63, _, ⟨r1.src, (r1.cur <<< 1) % 2 ^ 64, r1.bitsRead + 1⟩, ?_, ?_, ⟨?_, ?_⟩,
      rfl, rfl⟩
    · simp only [rem]
      rw [show 64 - r1.bitsRead = 1 + (64 - (r1.bitsRead + 1)) by omega, bits_add]
      simp only [bits, List.cons_append, List.nil_append, Nat.testBit_shiftRight]
      rw [show r1.bitsRead + (64 - (r1.bitsRead + 1) + 0) = 63 by omega]
      congr 2
      apply bits_congr
      intro i hi
      simp only [Nat.testBit_shiftRight, Nat.testBit_mod_two_pow, Nat.testBit_shiftLeft]
      have h1 : r1.bitsRead + 1 + i < 64 := by omega
      have h3 : r1.bitsRead + 1 + i - 1 = r1.bitsRead + i := by omega
      have h4 : 1 ≤ r1.bitsRead + 1 + i := by omega
      simp [h1, h3, h4]
    · congr 2
      have h63 : r1.cur &&& 2 ^ 63 = if r1.cur.testBit 63 then 2 ^ 63 else 0 := by
        apply Nat.eq_of_testBit_eq
        intro i
        rw [Nat.testBit_and]
        cases h : r1.cur.testBit 63
        · rw [if_neg (by simp), Nat.zero_testBit, Nat.testBit_two_pow]
          by_cases hi : 63 = i
          · subst hi; simp [h]
          · simp [hi]
        · rw [if_pos rfl, Nat.testBit_two_pow]
          by_cases hi : 63 = i
          · subst hi; simp [h]
          · simp [hi]
      rw [h63]
      cases r1.cur.testBit 63 <;> rfl
    · exact Nat.mod_lt _ (by positivity)
    · exact hlt
  unfold readBit
  by_cases h64 : r.bitsRead ≥ 64
  · have hb64 : r.bitsRead = 64 := by have := hr.read_le; omega
    have hrem0 : r.rem = byteBits r.src.bytes := by simp [rem, hb64]
    by_cases hne : r.src.bytes = []
    · right
      rw [if_pos h64, refill_err hne]
      exact ⟨by rw [hrem0, hne]; rfl, rfl⟩
    · left
      obtain ⟨r1, he, hi1, hr1, hlt, hbr⟩ := refill_ok hne
      rw [if_pos h64, he]
      simp only [Outcome.bind_ok]
      rw [if_neg (by omega)]
      obtain ⟨bit, rest, r', h1, h2, h3, h4, h5⟩ := key r1 hi1 hlt
      exact ⟨bit, rest, r', by rw [hrem0, ← hr1, h1], h2, h3, h4, by rw [h5, hbr]⟩
  · left
    rw [if_neg h64]
    exact key r hr (by omega)

theorem BitReader.Equiv.readBit {r s : BitReader} (h : r.Equiv s) :
    Outcome.Rel SameRead r.readBit s.readBit := by
  rcases readBit_cases h.inv₁ with ⟨b1, l1, r', hr, e1, hi, hd, hb⟩ | ⟨hr, e1⟩ <;>
  rcases readBit_cases h.inv₂ with ⟨b2, l2, s', hs, e2, hi2, hd2, hb2⟩ | ⟨hs, e2⟩ <;>
  have hrem := h.rem <;> rw [hr, hs] at hrem <;> rw [e1, e2]
  · injection hrem with ha hb'
    exact ⟨ha, hi, hi2, by rw [hd, hd2, hb'], by rw [hb, hb2, h.broken]⟩
  · simp at hrem
  · simp at hrem
  · exact h.endError

theorem BitReader.Equiv.read2 {r s : BitReader} (h : r.Equiv s) (mode : Nat) :
    Outcome.Rel SameRead (r.read2 mode) (s.read2 mode) := by
  unfold BitReader.read2
  split
  · exact ⟨rfl, h⟩
  split
  · refine (h.read mode).bind ?_
    rintro ⟨a, r⟩ ⟨a', s⟩ ⟨rfl, h'⟩
    refine (h'.read mode).bind ?_
    rintro ⟨b, r⟩ ⟨b', s⟩ ⟨rfl, h''⟩
    exact ⟨rfl, h''⟩
  · refine (h.read _).bind ?_
    rintro ⟨a, r⟩ ⟨a', s⟩ ⟨rfl, h'⟩
    exact ⟨rfl, h'⟩

theorem BitReader.Equiv.read3 (b : Build) {r s : BitReader} (h : r.Equiv s) (mode : Nat) :
    Outcome.Rel SameRead (r.read3 b mode) (s.read3 b mode) := by
  unfold BitReader.read3
  split
  · refine (h.read2 mode).bind ?_
    rintro ⟨⟨a, a2⟩, r⟩ ⟨⟨a', a2'⟩, s⟩ ⟨he, h'⟩
    cases he
    refine (h'.read mode).bind ?_
    rintro ⟨b, r⟩ ⟨b', s⟩ ⟨rfl, h''⟩
    exact ⟨rfl, h''⟩
  · refine (h.read _).bind ?_
    rintro ⟨a, r⟩ ⟨a', s⟩ ⟨rfl, h'⟩
    dsimp only
    split
    · cases b
      · trivial
      · exact ⟨rfl, h'⟩
    · exact ⟨rfl, h'⟩

theorem BitReader.Equiv.readPair (b : Build) {r s : BitReader} (h : r.Equiv s) (m1 m2 : Nat) :
    Outcome.Rel SameRead (r.readPair b m1 m2) (s.readPair b m1 m2) := by
  unfold BitReader.readPair
  split
  · trivial
  dsimp only
  split
  · refine (h.read _).bind ?_
    rintro ⟨a, r⟩ ⟨a', s⟩ ⟨rfl, h'⟩
    refine (h'.read _).bind ?_
    rintro ⟨b, r⟩ ⟨b', s⟩ ⟨rfl, h''⟩
    exact ⟨rfl, h''⟩
  · refine (h.read _).bind ?_
    rintro ⟨a, r⟩ ⟨a', s⟩ ⟨rfl, h'⟩
    dsimp only
    split
    · cases b
      · trivial
      · exact ⟨rfl, h'⟩
    · exact ⟨rfl, h'⟩

theorem BitReader.Equiv.call (b : Build) {r s : BitReader} (h : r.Equiv s) (op : BitOp) :
    Outcome.Rel SameRead (op.call b r) (op.call b s) := by
  cases op <;> simp only [BitOp.call]
  · refine h.readBit.bind ?_
    rintro ⟨a, r⟩ ⟨a', s⟩ ⟨rfl, h'⟩; exact ⟨rfl, h'⟩
  · refine (h.read _).bind ?_
    rintro ⟨a, r⟩ ⟨a', s⟩ ⟨rfl, h'⟩; exact ⟨rfl, h'⟩
  · refine (h.read2 _).bind ?_
    rintro ⟨a, r⟩ ⟨a', s⟩ ⟨rfl, h'⟩; exact ⟨rfl, h'⟩
  · refine (h.read3 b _).bind ?_
    rintro ⟨a, r⟩ ⟨a', s⟩ ⟨rfl, h'⟩; exact ⟨rfl, h'⟩
  · refine (h.readPair b _ _).bind ?_
    rintro ⟨a, r⟩ ⟨a', s⟩ ⟨rfl, h'⟩; exact ⟨rfl, h'⟩

theorem BitReader.Equiv.runOps (b : Build) (ops : List BitOp) {r s : BitReader} (h : r.Equiv s) :
    Spec.runOps b ops r = Spec.runOps b ops s := by
  induction ops generalizing r s with
  | nil => rfl
  | cons op ops ih =>
    apply Outcome.Rel.eq
    simp only [Spec.runOps]
    refine (h.call b op).bind ?_
    rintro ⟨a, r⟩ ⟨a', s⟩ ⟨rfl, h'⟩
    dsimp only
    rw [ih h']
    cases Spec.runOps b ops s <;> simp [Outcome.Rel]

/-- Calls keep the invariant. -/
theorem BitReader.Inv.call (b : Build) {r : BitReader} (h : r.Inv) {op : BitOp} {vs : List Nat}
    {r' : BitReader} (he : op.call b r = .ok (vs, r')) : r'.Inv := by
  have := BitReader.Equiv.call b (BitReader.Equiv.refl h) op
  rw [he] at this
  exact this.2.inv₁

/-- `read2` is two reads. -/
theorem BitReader.read2_eq {r : BitReader} (h : r.Inv) {w : Nat} (hw : w ≠ 32) :
    Outcome.Rel SameRead (r.read2 w)
      (r.read w >>= fun (a, r) => r.read w >>= fun (b, r) => .ok ((a, b), r)) := by
  unfold read2
  split
  · next h0 => subst h0; simp [read, Outcome.Rel, SameRead, Equiv.refl h]
  split
  · refine Outcome.Rel.bind ((Equiv.refl h).read w) ?_
    rintro ⟨a, r⟩ ⟨a', s⟩ ⟨rfl, h'⟩
    refine (h'.read w).bind ?_
    rintro ⟨b, r⟩ ⟨b', s⟩ ⟨rfl, h''⟩
    exact ⟨rfl, h''⟩
  next h0 h32 =>
  have hw31 : w ≤ 31 := by omega
  by_cases hl : w * 2 ≤ r.rem.length
  · obtain ⟨r', e, hi, hd, hb⟩ := read_ok h (mode := w * 2) (by omega) hl
    obtain ⟨r1, e1, hi1, hd1, hb1⟩ := read_ok h (mode := w) (by omega) (by omega)
    obtain ⟨r2, e2, hi2, hd2, hb2⟩ := read_ok hi1 (mode := w) (by omega)
      (by rw [hd1, List.length_drop]; omega)
    rw [e, e1]
    simp only [Outcome.bind_ok]
    rw [e2]
    have htake : r.rem.take (w * 2) = r.rem.take w ++ (r.rem.drop w).take w := by
      rw [Nat.mul_two, List.take_add]
    have hv := value_append (r.rem.take w) ((r.rem.drop w).take w)
    have hlen : ((r.rem.drop w).take w).length = w := by
      rw [List.length_take, List.length_drop]; omega
    rw [← htake, hlen] at hv
    have hlt := value_lt ((r.rem.drop w).take w)
    rw [hlen] at hlt
    refine ⟨Prod.ext ?_ ?_, hi, hi2, ?_, by rw [hb, hb2, hb1]⟩
    · dsimp only
      rw [hv, Nat.shiftRight_eq_div_pow, Nat.mul_comm, Nat.mul_add_div (by positivity),
        Nat.div_eq_of_lt hlt]
      simp
    · dsimp only
      rw [hd1, lowBits, Nat.shiftRight_eq_div_pow, Nat.shiftLeft_eq,
        show (2:Nat) ^ 64 = 2 ^ w * 2 ^ (64 - w) by rw [← Nat.pow_add]; congr 1; omega,
        Nat.mul_mod_mul_right, Nat.mul_div_cancel _ (by positivity), hv, Nat.mul_comm,
        Nat.mul_add_mod, Nat.mod_eq_of_lt hlt]
    · rw [hd, hd2, hd1, List.drop_drop]; congr 1; omega
  · rw [read_err h (by omega) (by omega)]
    by_cases hl1 : w ≤ r.rem.length
    · obtain ⟨r1, e1, hi1, hd1, hb1⟩ := read_ok h (mode := w) (by omega) (by omega)
      rw [e1]
      simp only [Outcome.bind_ok, Outcome.bind_err]
      rw [read_err hi1 (by omega) (by rw [hd1, List.length_drop]; omega)]
      simp [Outcome.Rel, Source.endError, hb1]
    · rw [read_err h (by omega) (by omega)]
      rfl

/-- `read3` is three reads, except that width 0 panics with overflow checks. -/
theorem BitReader.read3_eq (b : Build) {r : BitReader} (h : r.Inv) {w : Nat} (hw : w ≠ 32)
    (hw0 : b = .wrapping ∨ w ≠ 0) :
    Outcome.Rel SameRead (r.read3 b w)
      (r.read w >>= fun (a, r) => r.read w >>= fun (b, r) => r.read w >>= fun (c, r) =>
        .ok ((a, b, c), r)) := by
  unfold read3
  split
  · have h2 := read2_eq h hw
    have h3 := h2.bind (S := SameRead) (f := fun p => p.2.read w >>= fun (q : Nat × BitReader) =>
      Outcome.ok ((p.1.1, p.1.2, q.1), q.2)) (g := fun p => p.2.read w >>= fun (q : Nat × BitReader) =>
      Outcome.ok ((p.1.1, p.1.2, q.1), q.2)) (by
        rintro ⟨⟨a, a2⟩, r⟩ ⟨⟨a', a2'⟩, s⟩ ⟨he, h'⟩
        cases he
        refine (h'.read w).bind ?_
        rintro ⟨b, r⟩ ⟨b', s⟩ ⟨rfl, h''⟩
        exact ⟨rfl, h''⟩)
    simpa [bind_assoc] using h3
  next h21 =>
  by_cases h0 : w = 0
  · subst h0
    rcases hw0 with rfl | h0
    · simp [read, Outcome.Rel, SameRead, Equiv.refl h]
    · simp at h0
  by_cases hl : w * 3 ≤ r.rem.length
  · obtain ⟨r', e, hi, hd, hb⟩ := read_ok h (mode := w * 3) (by omega) hl
    obtain ⟨r1, e1, hi1, hd1, hb1⟩ := read_ok h (mode := w) (by omega) (by omega)
    obtain ⟨r2, e2, hi2, hd2, hb2⟩ := read_ok hi1 (mode := w) (by omega)
      (by rw [hd1, List.length_drop]; omega)
    obtain ⟨r3, e3, hi3, hd3, hb3⟩ := read_ok hi2 (mode := w) (by omega)
      (by rw [hd2, hd1, List.length_drop, List.length_drop]; omega)
    rw [e, e1]
    simp only [Outcome.bind_ok]
    rw [e2]
    simp only [Outcome.bind_ok]
    rw [e3, if_neg h0]
    have htake : r.rem.take (w * 3) = r.rem.take w ++ (r.rem.drop w).take w ++ (r.rem.drop (w + w)).take w := by
      rw [show w * 3 = w + w + w by omega, List.take_add, List.take_add]
    set A := r.rem.take w
    set B := (r.rem.drop w).take w with hB
    set C := (r.rem.drop (w + w)).take w with hC
    have hlB : B.length = w := by rw [hB, List.length_take, List.length_drop]; omega
    have hlC : C.length = w := by rw [hC, List.length_take, List.length_drop]; omega
    have hv : value (r.rem.take (w * 3)) = (value A * 2 ^ w + value B) * 2 ^ w + value C := by
      rw [htake, value_append, value_append, hlB, hlC]
    have hltB := value_lt B
    have hltC := value_lt C
    rw [hlB] at hltB
    rw [hlC] at hltC
    have hBC : value B * 2 ^ w + value C < 2 ^ (w * 2) := by
      rw [Nat.mul_two, Nat.pow_add]
      have := Nat.mul_le_mul_right (2 ^ w) (Nat.succ_le_of_lt hltB)
      rw [Nat.succ_mul] at this
      omega
    have hv2 : value (r.rem.take (w * 3)) = 2 ^ (w * 2) * value A + (value B * 2 ^ w + value C) := by
      rw [hv, Nat.mul_two, Nat.pow_add]; ring
    have hlow : ∀ x k, 0 < k → k ≤ 64 → lowBits x k = x % 2 ^ k := by
      intro x k hk hk2
      rw [lowBits, Nat.shiftRight_eq_div_pow, Nat.shiftLeft_eq,
        show (2:Nat) ^ 64 = 2 ^ k * 2 ^ (64 - k) by rw [← Nat.pow_add]; congr 1; omega,
        Nat.mul_mod_mul_right, Nat.mul_div_cancel _ (by positivity)]
    have hr23 : lowBits (value (r.rem.take (w * 3))) (w * 2) = value B * 2 ^ w + value C := by
      rw [hlow _ _ (by omega) (by omega), hv2, Nat.mul_add_mod, Nat.mod_eq_of_lt hBC]
    refine ⟨Prod.ext ?_ (Prod.ext ?_ ?_), hi, hi3, ?_, by rw [hb, hb3, hb2, hb1]⟩
    · dsimp only
      rw [hv2, Nat.shiftRight_eq_div_pow, Nat.mul_add_div (by positivity), Nat.div_eq_of_lt hBC]
      simp
    · dsimp only
      rw [hr23, hd1, Nat.shiftRight_eq_div_pow, Nat.mul_comm, Nat.mul_add_div (by positivity),
        Nat.div_eq_of_lt hltC]
      simp [B]
    · dsimp only
      rw [hr23, hd2, hd1, hlow _ _ (by omega) (by omega), Nat.mul_comm, Nat.mul_add_mod,
        Nat.mod_eq_of_lt hltC, List.drop_drop]
    · rw [hd, hd3, hd2, hd1, List.drop_drop, List.drop_drop]; congr 1; omega
  · rw [read_err h (by omega) (by omega)]
    by_cases hl1 : w ≤ r.rem.length
    · obtain ⟨r1, e1, hi1, hd1, hb1⟩ := read_ok h (mode := w) (by omega) (by omega)
      rw [e1]
      simp only [Outcome.bind_ok, Outcome.bind_err]
      by_cases hl2 : w ≤ r1.rem.length
      · obtain ⟨r2, e2, hi2, hd2, hb2⟩ := read_ok hi1 (mode := w) (by omega) hl2
        rw [e2]
        simp only [Outcome.bind_ok]
        rw [read_err hi2 (by omega) (by rw [hd2, hd1, List.length_drop, List.length_drop]; omega)]
        simp [Outcome.Rel, Source.endError, hb1, hb2]
      · rw [read_err hi1 (by omega) (by omega)]
        simp [Outcome.Rel, Source.endError, hb1]
    · rw [read_err h (by omega) (by omega)]
      rfl

/-- A pair read with equal widths up to 31 bits, or with more than 64 bits in total, is two
reads. -/
theorem BitReader.readPair_eq (b : Build) {r : BitReader} (h : r.Inv) {w1 w2 : Nat}
    (hw : (w1 = w2 ∧ 0 < w1 ∧ w1 < 32) ∨ (64 < w1 + w2 ∧ w1 + w2 < 256)) :
    Outcome.Rel SameRead (r.readPair b w1 w2)
      (r.read w1 >>= fun (a, r) => r.read w2 >>= fun (b, r) => .ok ((a, b), r)) := by
  rcases hw with ⟨rfl, h0, h32⟩ | ⟨h64, h256⟩
  · have := read2_eq h (w := w1) (by omega)
    unfold readPair
    unfold read2 at this
    rw [if_neg (by omega), if_neg (by omega)] at this
    rw [if_neg (by omega)]
    dsimp only
    rw [if_neg (by omega)]
    have hne : ¬ (w1 = 0 ∨ w1 ≥ 64) := by omega
    simp only [hne, if_false]
    rwa [show (w1 + w1) % 256 = w1 * 2 by omega]
  · unfold readPair
    rw [if_neg (by omega)]
    dsimp only
    rw [if_pos (by omega)]
    refine Outcome.Rel.bind ((Equiv.refl h).read w1) ?_
    rintro ⟨a, r⟩ ⟨a', s⟩ ⟨rfl, h'⟩
    refine (h'.read w2).bind ?_
    rintro ⟨b, r⟩ ⟨b', s⟩ ⟨rfl, h''⟩
    exact ⟨rfl, h''⟩

/-- Replacing one call by an equivalent sequence of calls in the middle of a history. -/
theorem runOps_replace (b : Build) {op : BitOp} {ops' : List BitOp}
    (hrep : ∀ post (r : BitReader), r.Inv → Spec.runOps b (op :: post) r = Spec.runOps b (ops' ++ post) r)
    (pre post : List BitOp) {r : BitReader} (hr : r.Inv) :
    Spec.runOps b (pre ++ op :: post) r = Spec.runOps b (pre ++ ops' ++ post) r := by
  induction pre generalizing r with
  | nil => exact hrep post r hr
  | cons o pre ih =>
    simp only [List.cons_append, Spec.runOps]
    cases ho : o.call b r with
    | ok p => simp only [Outcome.bind_ok]; rw [ih (hr.call b ho)]
    | err e => rfl
    | panic => rfl

theorem readAll_spec (ws : List Nat) (hw : ∀ w ∈ ws, w < 64) : ∀ {r : BitReader}, r.Inv →
    match takeFields ws r.rem with
    | some vs => ∃ r', BitReader.readAll ws r = .ok (vs, r') ∧ r'.Inv ∧ r'.rem = r.rem.drop ws.sum ∧
        r'.src.broken = r.src.broken
    | none => BitReader.readAll ws r = .err r.src.endError := by
  induction ws with
  | nil => intro r hr; exact ⟨r, rfl, hr, by simp, rfl⟩
  | cons w ws ih =>
    intro r hr
    have hw64 : w < 64 := hw w (by simp)
    unfold takeFields
    by_cases hl : w ≤ r.rem.length
    · obtain ⟨r', e, hi, hd, hb⟩ := BitReader.read_ok hr hw64 hl
      have := ih (fun w' h' => hw w' (by simp [h'])) hi
      rw [if_pos hl]
      rw [hd] at this
      cases ht : takeFields ws (r.rem.drop w) with
      | none =>
        rw [ht] at this
        simp only [Option.map_none, BitReader.readAll, e, Outcome.bind_ok] at *
        rw [this]
        simp [Source.endError, hb]
      | some vs =>
        rw [ht] at this
        obtain ⟨r2, e2, hi2, hd2, hb2⟩ := this
        refine ⟨r2, ?_, hi2, ?_, by rw [hb2, hb]⟩
        · simp [BitReader.readAll, e, e2]
        · rw [hd2, List.drop_drop]; simp
    · rw [if_neg hl]
      simp [BitReader.readAll, BitReader.read_err hr hw64 (by omega)]

theorem takeFields_fieldBits (l : List (Nat × Nat)) (h : ∀ p ∈ l, p.2 < 2 ^ p.1) (rest : List Bool) :
    takeFields (l.map Prod.fst) (fieldBits l ++ rest) = some (l.map Prod.snd) := by
  induction l with
  | nil => rfl
  | cons p l ih =>
    simp only [List.map_cons, takeFields, fieldBits_cons, List.append_assoc]
    rw [if_pos (by simp)]
    rw [List.drop_append_of_le_length (by simp), List.take_append_of_le_length (by simp)]
    rw [List.drop_of_length_le (by simp), List.take_of_length_le (by simp), List.nil_append,
      ih (fun p hp => h p (by simp [hp])), value_bits, Nat.mod_eq_of_lt (h p (by simp))]
    rfl

end Tmf
