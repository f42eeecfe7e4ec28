import Verif.Lemmas.Bits
/-
Lemmas about the bit reader.
-/

namespace Tmf
open Spec

/-- The bits a reader will still deliver. -/
def BitReader.rem (r : BitReader) : List Bool :=
  bits (64 - r.bitsRead) (r.cur >>> r.bitsRead) ++ byteBits r.src.bytes

/-- Reachable reader states. -/
structure BitReader.Inv (r : BitReader) : Prop where
  cur_lt : r.cur < 2 ^ 64
  read_le : r.bitsRead ≤ 64

/-- The error at the end of the source. -/
def Source.endError (s : Source) : ImportError := if s.broken then .io .device else eof

theorem BitReader.inv_new (s : Source) : (BitReader.new s).Inv := ⟨by simp [new], by simp [new]⟩
@[simp] theorem BitReader.rem_new (s : Source) : (BitReader.new s).rem = byteBits s.bytes := by
  simp [new, rem]

theorem beNat_foldl (l : List UInt8) (a : Nat) :
    l.foldl (fun a b => a * 256 + b.toNat) a = a * 2 ^ (8 * l.length) + beNat l := by
  induction l generalizing a with
  | nil => simp [beNat]
  | cons b l ih =>
    simp only [beNat, List.foldl_cons, List.length_cons]
    rw [ih, ih (0 * 256 + b.toNat), Nat.mul_add, Nat.pow_add]
    ring

theorem beNat_cons (b : UInt8) (l : List UInt8) :
    beNat (b :: l) = b.toNat * 2 ^ (8 * l.length) + beNat l := by
  have := beNat_foldl l b.toNat
  simpa [beNat] using this

theorem beNat_eq_value (l : List UInt8) : beNat l = value (byteBits l) := by
  induction l with
  | nil => rfl
  | cons b l ih =>
    rw [beNat_cons, byteBits_cons, value_append, value_bits, ih, length_byteBits,
      Nat.mod_eq_of_lt b.toNat_lt]

theorem bits_beNat (l : List UInt8) : bits (8 * l.length) (beNat l) = byteBits l := by
  rw [beNat_eq_value, ← length_byteBits, bits_value]

theorem beNat_lt (l : List UInt8) : beNat l < 2 ^ (8 * l.length) := by
  rw [beNat_eq_value, ← length_byteBits]; exact value_lt _

theorem Source.chunk_pos (s : Source) {n : Nat} (h : 0 < n) : 0 < s.chunk n := by
  unfold chunk; split <;> omega

theorem Source.chunk_le (s : Source) (n : Nat) : s.chunk n ≤ n := by
  unfold chunk; split <;> omega

theorem BitReader.refill_err {r : BitReader} (h : r.src.bytes = []) :
    r.refill = .err r.src.endError := by
  unfold refill Source.read Source.endError
  rw [h]
  cases r.src.broken <;> simp

theorem BitReader.refill_ok {r : BitReader} (h : r.src.bytes ≠ []) :
    ∃ r', r.refill = .ok r' ∧ r'.Inv ∧ r'.rem = byteBits r.src.bytes ∧ r'.bitsRead < 64 ∧
      r'.src.broken = r.src.broken := by
  unfold refill Source.read
  simp only [h, false_and, and_false, if_false, Outcome.bind_ok]
  set k := r.src.chunk 8
  have hk1 : 0 < k := r.src.chunk_pos (by omega)
  have hk8 : k ≤ 8 := r.src.chunk_le 8
  have hpos : 0 < r.src.bytes.length := List.length_pos_of_ne_nil h
  set l := r.src.bytes.take k with hl
  have hll : l.length = min k r.src.bytes.length := by simp [hl]
  have hl8 : l.length ≤ 8 := by omega
  have hl0 : 0 < l.length := by omega
  rw [if_neg (by omega)]
  refine ⟨_, rfl, ⟨?_, by dsimp; omega⟩, ?_, by dsimp; omega, rfl⟩
  · have := beNat_lt (l ++ List.replicate (8 - l.length) 0)
    refine lt_of_lt_of_eq this ?_
    congr 1
    simp
    omega
  · simp only [rem]
    rw [show 64 - (64 - 8 * l.length) = 8 * l.length by omega]
    have hb := bits_beNat (l ++ List.replicate (8 - l.length) 0)
    rw [List.length_append, List.length_replicate, Nat.mul_add, bits_add, byteBits_append] at hb
    have := (List.append_inj hb (by simp)).1
    rw [show 8 * (8 - l.length) = 64 - 8 * l.length by omega] at this
    rw [this, ← byteBits_append, hl, List.take_append_drop]

theorem BitReader.readLoop_ok : ∀ (fuel total res : Nat) (r : BitReader), r.Inv →
    total ≤ r.rem.length → total ≤ fuel → res * 2 ^ total < 2 ^ 64 → total < 64 →
    ∃ r', readLoop fuel total res r = .ok (res * 2 ^ total + value (r.rem.take total), r') ∧
      r'.Inv ∧ r'.rem = r.rem.drop total ∧ r'.src.broken = r.src.broken := by
  intro fuel
  induction fuel with
  | zero =>
    intro total res r hr _ hf _ _
    have : total = 0 := by omega
    subst this
    exact ⟨r, by simp [readLoop], hr, by simp, rfl⟩
  | succ fuel ih =>
    intro total res r hr hrem hf hres h64
    rw [readLoop]
    split
    · next h => subst h; exact ⟨r, by simp, hr, by simp, rfl⟩
    next h =>
    have key : ∀ r1 : BitReader, r1.Inv → r1.rem = r.rem → r1.bitsRead < 64 →
        r1.src.broken = r.src.broken →
        r.refillIfEmpty = Outcome.ok r1 →
        ∃ r', (do
          let r ← r.refillIfEmpty
          let readAmount := min total (64 - r.bitsRead)
          let res := (res <<< readAmount) % 2 ^ 64
          let readOffset := 64 - readAmount
          let res := res ||| (r.cur >>> readOffset)
          let cur := if readAmount < 64 then (r.cur <<< readAmount) % 2 ^ 64 else r.cur
          readLoop fuel (total - readAmount) res ⟨r.src, cur, r.bitsRead + readAmount⟩)
          = .ok (res * 2 ^ total + value (r.rem.take total), r') ∧
          r'.Inv ∧ r'.rem = r.rem.drop total ∧ r'.src.broken = r.src.broken := by
      intro r1 hr1 hrem1 hlt hbr heq
      rw [heq]
      simp only [Outcome.bind_ok]
      set a := min total (64 - r1.bitsRead) with ha
      have ha1 : 1 ≤ a := by omega
      have hat : a ≤ total := by omega
      have ha64 : a < 64 := by omega
      have haB : r1.bitsRead + a ≤ 64 := by omega
      have hcl := hr1.cur_lt
      have hshift : r1.cur >>> (64 - a) < 2 ^ a := by
        rw [Nat.shiftRight_eq_div_pow, Nat.div_lt_iff_lt_mul (by positivity), ← Nat.pow_add]
        rwa [show a + (64 - a) = 64 by omega]
      have hsplit : 2 ^ total = 2 ^ a * 2 ^ (total - a) := by
        rw [← Nat.pow_add]; congr 1; omega
      have hpos := Nat.two_pow_pos (total - a)
      have hresa : res * 2 ^ a < 2 ^ 64 := by
        refine lt_of_le_of_lt ?_ hres
        rw [hsplit, ← Nat.mul_assoc]
        exact Nat.le_mul_of_pos_right _ hpos
      have hres2 : (res <<< a) % 2 ^ 64 ||| r1.cur >>> (64 - a) = res * 2 ^ a + r1.cur >>> (64 - a) := by
        rw [Nat.shiftLeft_eq, Nat.mod_eq_of_lt hresa, ← Nat.shiftLeft_eq,
          ← Nat.shiftLeft_add_eq_or_of_lt hshift]
      rw [hres2, if_pos ha64]
      set r2 : BitReader := ⟨r1.src, (r1.cur <<< a) % 2 ^ 64, r1.bitsRead + a⟩ with hr2
      have hr2i : r2.Inv := ⟨Nat.mod_lt _ (by positivity), haB⟩
      have hr1rem : r1.rem = bits a (r1.cur >>> (64 - a)) ++ r2.rem := by
        simp only [rem, hr2, ← List.append_assoc]
        congr 1
        rw [show 64 - r1.bitsRead = a + (64 - (r1.bitsRead + a)) by omega, bits_add]
        congr 1
        · rw [← Nat.shiftRight_add]; congr 2; omega
        · apply bits_congr
          intro i hi
          simp only [Nat.testBit_shiftRight, Nat.testBit_mod_two_pow, Nat.testBit_shiftLeft]
          have h1 : r1.bitsRead + a + i < 64 := by omega
          have h2 : a ≤ r1.bitsRead + a + i := by omega
          have h3 : r1.bitsRead + a + i - a = r1.bitsRead + i := by omega
          simp [h1, h2, h3]
      have hlen : (bits a (r1.cur >>> (64 - a))).length = a := by simp
      have htake : r.rem.take total = bits a (r1.cur >>> (64 - a)) ++ r2.rem.take (total - a) := by
        have h0 : (bits a (r1.cur >>> (64 - a))).take total = bits a (r1.cur >>> (64 - a)) :=
          List.take_of_length_le (by rw [hlen]; omega)
        rw [← hrem1, hr1rem, List.take_append, hlen, h0]
      have hdrop : r2.rem.drop (total - a) = r.rem.drop total := by
        have h0 : (bits a (r1.cur >>> (64 - a))).drop total = [] :=
          List.drop_eq_nil_of_le (by rw [hlen]; omega)
        rw [← hrem1, hr1rem, List.drop_append, hlen, h0, List.nil_append]
      have hlen2 : total - a ≤ r2.rem.length := by
        have : r1.rem.length = a + r2.rem.length := by rw [hr1rem, List.length_append, hlen]
        rw [← hrem1] at hrem; omega
      have hval : r1.cur >>> (64 - a) = value (bits a (r1.cur >>> (64 - a))) := by
        rw [value_bits, Nat.mod_eq_of_lt hshift]
      obtain ⟨r', e, hi, hd, hb⟩ := ih (total - a) (res * 2 ^ a + r1.cur >>> (64 - a)) r2 hr2i hlen2
        (by omega) (by
          have hlt2 : res * 2 ^ a + r1.cur >>> (64 - a) < 2 ^ (64 - (total - a)) := by
            have : res < 2 ^ (64 - total) := by
              by_contra hc
              have : 2 ^ (64 - total) * 2 ^ total ≤ res * 2 ^ total := Nat.mul_le_mul_right _ (by omega)
              rw [← Nat.pow_add, show 64 - total + total = 64 by omega] at this
              omega
            have h2 : (res + 1) * 2 ^ a ≤ 2 ^ (64 - total) * 2 ^ a := Nat.mul_le_mul_right _ this
            rw [← Nat.pow_add, show 64 - total + a = 64 - (total - a) by omega, Nat.add_mul] at h2
            omega
          calc _ < 2 ^ (64 - (total - a)) * 2 ^ (total - a) := (Nat.mul_lt_mul_right hpos).mpr hlt2
            _ = 2 ^ 64 := by rw [← Nat.pow_add]; congr 1; omega) (by omega)
      refine ⟨r', ?_, hi, by rw [hd, hdrop], by rw [hb, ← hbr]⟩
      rw [e, htake, value_append, ← hval]
      have hl' : (List.take (total - a) r2.rem).length = total - a := by
        rw [List.length_take]; omega
      rw [hl', hsplit]
      congr 2
      ring
    by_cases h64' : r.bitsRead ≥ 64
    · have hb64 : r.bitsRead = 64 := by have := hr.read_le; omega
      have hrem0 : r.rem = byteBits r.src.bytes := by simp [rem, hb64]
      have hne : r.src.bytes ≠ [] := by
        intro hn
        rw [hrem0, hn] at hrem
        simp at hrem
        omega
      obtain ⟨r1, he, hi1, hr1, hlt, hbr⟩ := refill_ok hne
      exact key r1 hi1 (by rw [hr1, hrem0]) hlt hbr (by rw [refillIfEmpty, if_pos h64', he])
    · exact key r hr rfl (by omega) rfl (by rw [refillIfEmpty, if_neg h64'])

theorem BitReader.readLoop_err : ∀ (fuel total res : Nat) (r : BitReader), r.Inv →
    r.rem.length < total → total ≤ fuel → total < 64 →
    readLoop fuel total res r = .err r.src.endError := by
  intro fuel
  induction fuel with
  | zero => intro total res r _ h1 h2; omega
  | succ fuel ih =>
    intro total res r hr hrem hf h64
    rw [readLoop, if_neg (by omega)]
    have key : ∀ r1 : BitReader, r1.Inv → r1.rem = r.rem → r1.bitsRead < 64 →
        r1.src.broken = r.src.broken →
        r.refillIfEmpty = Outcome.ok r1 →
        (do
          let r ← r.refillIfEmpty
          let readAmount := min total (64 - r.bitsRead)
          let res := (res <<< readAmount) % 2 ^ 64
          let readOffset := 64 - readAmount
          let res := res ||| (r.cur >>> readOffset)
          let cur := if readAmount < 64 then (r.cur <<< readAmount) % 2 ^ 64 else r.cur
          readLoop fuel (total - readAmount) res ⟨r.src, cur, r.bitsRead + readAmount⟩)
          = .err r.src.endError := by
      intro r1 hr1 hrem1 hlt hbr heq
      rw [heq]
      simp only [Outcome.bind_ok]
      set a := min total (64 - r1.bitsRead) with ha
      have hl : r1.rem.length = 64 - r1.bitsRead + 8 * r1.src.bytes.length := by simp [rem]
      rw [hrem1] at hl
      have haeq : a = 64 - r1.bitsRead := by omega
      rw [ih]
      · simp [Source.endError, hbr]
      · refine ⟨?_, by dsimp; omega⟩
        dsimp only
        split
        · exact Nat.mod_lt _ (by positivity)
        · exact hr1.cur_lt
      · simp only [rem, List.length_append, length_bits, length_byteBits]; omega
      · omega
      · omega
    by_cases h64' : r.bitsRead ≥ 64
    · have hb64 : r.bitsRead = 64 := by have := hr.read_le; omega
      have hrem0 : r.rem = byteBits r.src.bytes := by simp [rem, hb64]
      by_cases hne : r.src.bytes = []
      · rw [refillIfEmpty, if_pos h64', refill_err hne]; rfl
      · obtain ⟨r1, he, hi1, hr1, hlt, hbr⟩ := refill_ok hne
        exact key r1 hi1 (by rw [hr1, hrem0]) hlt hbr (by rw [refillIfEmpty, if_pos h64', he])
    · exact key r hr rfl (by omega) rfl (by rw [refillIfEmpty, if_neg h64'])

theorem BitReader.read_ok {r : BitReader} (hr : r.Inv) {mode : Nat} (hm : mode < 64)
    (h : mode ≤ r.rem.length) :
    ∃ r', r.read mode = .ok (value (r.rem.take mode), r') ∧ r'.Inv ∧ r'.rem = r.rem.drop mode ∧
      r'.src.broken = r.src.broken := by
  unfold read
  by_cases h0 : mode = 0
  · subst h0; exact ⟨r, by simp, hr, by simp, rfl⟩
  · rw [if_neg (by omega)]
    have := readLoop_ok mode mode 0 r hr h le_rfl (by simp) hm
    simpa using this

theorem BitReader.read_err {r : BitReader} (hr : r.Inv) {mode : Nat} (hm : mode < 64)
    (h : r.rem.length < mode) : r.read mode = .err r.src.endError := by
  unfold read
  rw [if_neg (by omega)]
  exact readLoop_err mode mode 0 r hr h le_rfl hm

end Tmf
