import Verif.Lemmas.BitOps
/-
C01-C05: the bit-packed stream.
-/

namespace Tmf.Props
open Spec

/-- C01. Whatever fields are written, reading the finished stream with the same widths
returns the same values, whatever bytes follow and however the source is chunked. -/
theorem C01_bit_roundtrip (b : Build) (fields : List (Nat × Nat))
    (hw : ∀ p ∈ fields, 1 ≤ p.1 ∧ p.1 ≤ 63 ∧ p.2 < 2 ^ p.1)
    (suffix : List UInt8) (sched : List Nat) (broken : Bool) :
    ∃ w, BitWriter.writeAll b fields .new = .ok w ∧
    ∃ r, BitReader.readAll (fields.map Prod.fst) (.new ⟨w.finish ++ suffix, sched, broken⟩)
      = .ok (fields.map Prod.snd, r) := by
  obtain ⟨w, hw1, hi, hc⟩ := BitWriter.writeAll_spec b fields
    (fun p hp => by have := hw p hp; omega) BitWriter.inv_new
  refine ⟨w, hw1, ?_⟩
  obtain ⟨pad, _, hf⟩ := BitWriter.finish_bits hi
  have hspec := readAll_spec (fields.map Prod.fst)
    (by intro w' h'; obtain ⟨p, hp, rfl⟩ := List.mem_map.mp h'; have := hw p hp; omega)
    (BitReader.inv_new ⟨w.finish ++ suffix, sched, broken⟩)
  have hrem : (BitReader.new ⟨w.finish ++ suffix, sched, broken⟩).rem
      = fieldBits fields ++ (List.replicate pad false ++ byteBits suffix) := by
    rw [BitReader.rem_new]
    simp [hf, hc]
  rw [hrem, takeFields_fieldBits fields (fun p hp => (hw p hp).2.2)] at hspec
  obtain ⟨r, e, _⟩ := hspec
  exact ⟨r, e⟩

/-- The hypotheses of C01 are met by a stream that crosses byte and word boundaries. -/
example : ∀ p ∈ [(3, 5), (63, 2 ^ 62 + 1), (1, 0), (17, 99999)], 1 ≤ p.1 ∧ p.1 ≤ 63 ∧ p.2 < 2 ^ p.1 := by
  decide

/-- C02. The bytes produced are exactly the low bits of the values, most significant first,
zero-padded to a whole byte. -/
theorem C02_bit_layout (b : Build) (fields : List (Nat × Nat)) (hw : ∀ p ∈ fields, p.1 ≤ 64) :
    ∃ w, BitWriter.writeAll b fields .new = .ok w ∧
      w.finish.length = (fieldWidth fields + 7) / 8 ∧
      byteBits w.finish
        = fieldBits fields ++ List.replicate (8 * w.finish.length - fieldWidth fields) false := by
  obtain ⟨w, hw1, hi, hc⟩ := BitWriter.writeAll_spec b fields hw BitWriter.inv_new
  have hlen := BitWriter.finish_length hi
  rw [hc] at hlen
  simp only [BitWriter.content_new, List.nil_append, length_fieldBits] at hlen
  refine ⟨w, hw1, hlen, ?_⟩
  obtain ⟨pad, _, hf⟩ := BitWriter.finish_bits hi
  rw [hc] at hf
  have := congrArg List.length hf
  simp at this
  rw [hf]
  simp only [BitWriter.content_new, List.nil_append]
  rw [this]
  congr 2
  omega

/-- A value that does not fit its width is stored modulo `2^width`: same bytes as the
truncated value. -/
theorem C02_truncates (b : Build) (pre post : List (Nat × Nat)) (w v : Nat)
    (hpre : ∀ p ∈ pre, p.1 ≤ 64) (hpost : ∀ p ∈ post, p.1 ≤ 64) (hw : w ≤ 64) :
    ∃ x y, BitWriter.writeAll b (pre ++ (w, v) :: post) .new = .ok x ∧
      BitWriter.writeAll b (pre ++ (w, v % 2 ^ w) :: post) .new = .ok y ∧ x.finish = y.finish := by
  have h1 : ∀ u, ∀ p ∈ pre ++ (w, u) :: post, p.1 ≤ 64 := by
    intro u p hp
    rcases List.mem_append.mp hp with h | h
    · exact hpre p h
    · rcases List.mem_cons.mp h with rfl | h
      · exact hw
      · exact hpost p h
  obtain ⟨x, ex, lx, bx⟩ := C02_bit_layout b _ (h1 v)
  obtain ⟨y, ey, ly, by'⟩ := C02_bit_layout b _ (h1 (v % 2 ^ w))
  refine ⟨x, y, ex, ey, byteBits_injective ?_⟩
  rw [bx, by', lx, ly]
  simp [bits_mod, fieldWidth]

example : ∀ p ∈ [(3, 1000), (64, 2 ^ 64 - 1), (0, 7), (9, 511)], p.1 ≤ 64 := by decide

/-- C03. Any sequence of reads of 0..63 bits returns the next fields of the byte string as
big-endian numbers, and fails with `UnexpectedEof` exactly when the bits run out. -/
theorem C03_bit_reads (bytes : List UInt8) (sched : List Nat) (ws : List Nat) (hw : ∀ w ∈ ws, w ≤ 63) :
    match takeFields ws (byteBits bytes) with
    | some vs => ∃ r, BitReader.readAll ws (.new ⟨bytes, sched, false⟩) = .ok (vs, r)
    | none => BitReader.readAll ws (.new ⟨bytes, sched, false⟩) = .err (.io .unexpectedEof) := by
  have hspec := readAll_spec ws (fun w h => by have := hw w h; omega)
    (BitReader.inv_new ⟨bytes, sched, false⟩)
  rw [BitReader.rem_new] at hspec
  dsimp only at hspec
  split at hspec
  · next vs h => rw [h]; obtain ⟨r, e, _⟩ := hspec; exact ⟨r, e⟩
  · next h => rw [h]; exact hspec

/-- The number of fields that can be taken is determined by the number of bits alone. -/
theorem C03_fails_exactly_at_end (ws : List Nat) (l : List Bool) :
    takeFields ws l = none ↔ l.length < ws.sum := by
  induction ws generalizing l with
  | nil => simp [takeFields]
  | cons w ws ih =>
    unfold takeFields
    split
    · next h => rw [Option.map_eq_none_iff, ih, List.length_drop, List.sum_cons]; omega
    · next h => simp; omega

/-- A single-bit read anywhere in a history is the same as a read of width 1. -/
theorem C03_single_bit (b : Build) (pre post : List BitOp) (src : Source) :
    runOps b (pre ++ .bit :: post) (.new src) = runOps b (pre ++ [.one 1] ++ post) (.new src) := by
  refine runOps_replace b ?_ pre post (BitReader.inv_new src)
  intro post r hr
  simp only [runOps, List.singleton_append, BitOp.call]
  rcases BitReader.readBit_cases hr with ⟨bit, rest, r', hrem, e, hi, hd, hb⟩ | ⟨hrem, e⟩
  · obtain ⟨r1, e1, hi1, hd1, hb1⟩ := BitReader.read_ok hr (mode := 1) (by omega) (by rw [hrem]; simp)
    rw [e, e1, hrem]
    simp only [Outcome.bind_ok]
    rw [BitReader.Equiv.runOps b post ⟨hi, hi1, by rw [hd, hd1, hrem]; rfl, by rw [hb, hb1]⟩]
    cases bit <;> rfl
  · rw [e, BitReader.read_err hr (by omega) (by rw [hrem]; simp)]
    rfl

example : takeFields [4, 9, 3] (byteBits [0xAB, 0xCD]) = some [10, 377, 5] := by decide
example : takeFields [4, 9, 4] (byteBits [0xAB, 0xCD]) = none := by decide

/-- C04. A history of reads of any kind returns the same whatever the chunking of the
source. -/
theorem C04_chunk_independent (b : Build) (ops : List BitOp) (bytes : List UInt8)
    (sched sched' : List Nat) (broken : Bool) :
    runOps b ops (.new ⟨bytes, sched, broken⟩) = runOps b ops (.new ⟨bytes, sched', broken⟩) :=
  BitReader.Equiv.runOps b ops
    ⟨BitReader.inv_new _, BitReader.inv_new _, by rw [BitReader.rem_new, BitReader.rem_new], rfl⟩

/-- The schedules really lead to different reader states in between. -/
example : (BitReader.new ⟨[1, 2, 3], [1, 1], false⟩).refill ≠ (BitReader.new ⟨[1, 2, 3], [], false⟩).refill := by
  decide

/-- C05 (part: every width but 32). A double read is two single reads, wherever it occurs in
a history. -/
theorem C05_read2_partial (b : Build) (w : Nat) (hw : w ≠ 32) (pre post : List BitOp) (src : Source) :
    runOps b (pre ++ .two w :: post) (.new src)
      = runOps b (pre ++ [.one w, .one w] ++ post) (.new src) := by
  refine runOps_replace b ?_ pre post (BitReader.inv_new src)
  intro post r hr
  apply Outcome.Rel.eq
  have h := (BitReader.read2_eq hr hw).bind (S := (· = ·))
    (f := fun p => runOps b post p.2 >>= fun rest => .ok ([p.1.1, p.1.2] ++ rest))
    (g := fun p => runOps b post p.2 >>= fun rest => .ok ([p.1.1, p.1.2] ++ rest)) (by
      rintro ⟨a, r⟩ ⟨a', s⟩ ⟨rfl, h'⟩
      dsimp only
      rw [h'.runOps b post]
      cases runOps b post s <;> simp [Outcome.Rel])
  simp only [runOps, BitOp.call, List.cons_append, List.nil_append, bind_assoc, Outcome.bind_ok] at h ⊢
  exact h

/-- C05 fails for width 32: the double read yields zeros and consumes nothing. -/
theorem C05_read2_width32_violated :
    ∃ src, runOps .checked [.two 32] (.new src) ≠ runOps .checked [.one 32, .one 32] (.new src) :=
  ⟨.slice [0, 0, 0, 1, 0, 0, 0, 2], by decide⟩

/-- C05 (part: every width but 32, and width 0 only without overflow checks). A triple read
is three single reads. -/
theorem C05_read3_partial (b : Build) (w : Nat) (hw : w ≠ 32) (hw0 : b = .wrapping ∨ w ≠ 0)
    (pre post : List BitOp) (src : Source) :
    runOps b (pre ++ .three w :: post) (.new src)
      = runOps b (pre ++ [.one w, .one w, .one w] ++ post) (.new src) := by
  refine runOps_replace b ?_ pre post (BitReader.inv_new src)
  intro post r hr
  apply Outcome.Rel.eq
  have h := (BitReader.read3_eq b hr hw hw0).bind (S := (· = ·))
    (f := fun p => runOps b post p.2 >>= fun rest => .ok ([p.1.1, p.1.2.1, p.1.2.2] ++ rest))
    (g := fun p => runOps b post p.2 >>= fun rest => .ok ([p.1.1, p.1.2.1, p.1.2.2] ++ rest)) (by
      rintro ⟨a, r⟩ ⟨a', s⟩ ⟨rfl, h'⟩
      dsimp only
      rw [h'.runOps b post]
      cases runOps b post s <;> simp [Outcome.Rel])
  simp only [runOps, BitOp.call, List.cons_append, List.nil_append, bind_assoc, Outcome.bind_ok] at h ⊢
  exact h

/-- C05 fails for a triple read of width 0 with overflow checks: it panics. -/
theorem C05_read3_width0_violated :
    ∃ src, runOps .checked [.three 0] (.new src) ≠ runOps .checked [.one 0, .one 0, .one 0] (.new src) :=
  ⟨.slice [], by decide⟩

/-- C05 (part: equal widths below 32, or more than 64 bits together). A pair read is two
single reads. -/
theorem C05_read_pair_partial (b : Build) (w1 w2 : Nat)
    (hw : (w1 = w2 ∧ 0 < w1 ∧ w1 < 32) ∨ (64 < w1 + w2 ∧ w1 + w2 < 256))
    (pre post : List BitOp) (src : Source) :
    runOps b (pre ++ .pair w1 w2 :: post) (.new src)
      = runOps b (pre ++ [.one w1, .one w2] ++ post) (.new src) := by
  refine runOps_replace b ?_ pre post (BitReader.inv_new src)
  intro post r hr
  apply Outcome.Rel.eq
  have h := (BitReader.readPair_eq b hr hw).bind (S := (· = ·))
    (f := fun p => runOps b post p.2 >>= fun rest => .ok ([p.1.1, p.1.2] ++ rest))
    (g := fun p => runOps b post p.2 >>= fun rest => .ok ([p.1.1, p.1.2] ++ rest)) (by
      rintro ⟨a, r⟩ ⟨a', s⟩ ⟨rfl, h'⟩
      dsimp only
      rw [h'.runOps b post]
      cases runOps b post s <;> simp [Outcome.Rel])
  simp only [runOps, BitOp.call, List.cons_append, List.nil_append, bind_assoc, Outcome.bind_ok] at h ⊢
  exact h

/-- C05 fails for a pair of different widths: the split is made at the wrong place. -/
theorem C05_read_pair_violated (b : Build) :
    ∃ src, runOps b [.pair 4 8] (.new src) ≠ runOps b [.one 4, .one 8] (.new src) :=
  ⟨.slice [0xAB, 0xCD], by cases b <;> decide⟩

example : runOps .checked [.one 3, .two 5, .three 7, .bit] (.new (.slice [1, 2, 3, 4, 5, 6]))
    = .ok [0, 1, 0, 32, 24, 16, 0] := by decide

end Tmf.Props
