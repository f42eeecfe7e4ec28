import Verif.Model.Basic
/-
The bit-packed stream, src/unaligned_rw.rs. `UnalignedStorage` is `usize`, 64 bits.
-/

namespace Tmf

/-! ### Writer -/

/-- `UnalignedWriter`, src/unaligned_rw.rs:142-149. `out` is what has reached the inner
writer, which is always a `Vec<u8>` (the `BufWriter` in between only delays the bytes until
flush/drop). -/
structure BitWriter where
  out : List UInt8
  nextByte : Nat
  written : Nat
deriving Repr, DecidableEq

/-- `UnalignedWriter::new`, src/unaligned_rw.rs:163-172. -/
def BitWriter.new : BitWriter := ⟨[], 0, 0⟩

/-- The `while total_write > 0` loop, src/unaligned_rw.rs:187-214. `data` is the 64-bit word
whose leftmost bits are still to be written. `fuel` bounds the iterations; every iteration
writes at least one bit, so `fuel = total` is enough. -/
def BitWriter.writeLoop : (fuel total data : Nat) → BitWriter → BitWriter
  | 0, _, _, w => w
  | fuel + 1, total, data, w =>
    if total = 0 then w
    else
      let currWrite := min total (8 - w.written)
      let bits := (data >>> (64 - currWrite)) % 256
      let data := (data <<< currWrite) % 2 ^ 64
      let bitOffset := 8 - w.written - currWrite
      let currBits := (bits <<< bitOffset) % 256
      let nextByte := w.nextByte ||| currBits
      let written := w.written + currWrite
      let w := if written ≥ 8 then ⟨w.out ++ [UInt8.ofNat nextByte], 0, 0⟩
               else ⟨w.out, nextByte, written⟩
      writeLoop fuel (total - currWrite) data w

/-- `write_unaligned`, src/unaligned_rw.rs:179-216. Widths above 64 underflow `64 - mode`:
a panic with overflow checks, otherwise a wrapped and masked shift. -/
def BitWriter.write (b : Build) (mode data : Nat) (w : BitWriter) : Outcome ExportError BitWriter :=
  if mode = 0 then .ok w
  else if mode ≤ 64 then
    .ok (writeLoop mode mode ((data <<< (64 - mode)) % 2 ^ 64) w)
  else match b with
    | .checked => .panic
    | .wrapping => .ok (writeLoop mode mode ((data <<< ((320 - mode) % 64)) % 2 ^ 64) w)

/-- `write_bit`, src/unaligned_rw.rs:174-177. -/
def BitWriter.writeBit (b : Build) (bit : Bool) (w : BitWriter) : Outcome ExportError BitWriter :=
  w.write b 1 bit.toNat

/-- `Drop`, src/unaligned_rw.rs:150-161: the last, partly filled byte is written out. -/
def BitWriter.finish (w : BitWriter) : List UInt8 :=
  if w.written > 0 then w.out ++ [UInt8.ofNat w.nextByte] else w.out

/-- A sequence of `write_unaligned` calls with the given widths and values. -/
def BitWriter.writeAll (b : Build) : List (Nat × Nat) → BitWriter → Outcome ExportError BitWriter
  | [], w => .ok w
  | (mode, v) :: rest, w => do
    let w ← w.write b mode v
    writeAll b rest w

/-! ### Reader -/

/-- `UnalignedReader`, src/unaligned_rw.rs:8-15. -/
structure BitReader where
  src : Source
  cur : Nat
  bitsRead : Nat
deriving Repr, DecidableEq

/-- `UnalignedReader::new`, src/unaligned_rw.rs:131-140. -/
def BitReader.new (src : Source) : BitReader := ⟨src, 0, 64⟩

/-- `read_to_internal_storage`, src/unaligned_rw.rs:17-36 (the branch for a storage wider
than one byte): a single `read` of up to 8 bytes. -/
def BitReader.refill (r : BitReader) : Outcome ImportError BitReader := do
  let (chunk, src) ← r.src.read 8
  if 8 * chunk.length = 0 then .err eof
  else .ok ⟨src, beNat (chunk ++ List.replicate (8 - chunk.length) 0), 64 - 8 * chunk.length⟩

/-- `if bits_read >= 64 { read_to_internal_storage()?; }`, src/unaligned_rw.rs:108-110. -/
def BitReader.refillIfEmpty (r : BitReader) : Outcome ImportError BitReader :=
  if r.bitsRead ≥ 64 then r.refill else .ok r

/-- `read_bit`, src/unaligned_rw.rs:38-52. The extra check at lines 42-45 is kept. -/
def BitReader.readBit (r : BitReader) : Outcome ImportError (Bool × BitReader) := do
  let r ← if r.bitsRead ≥ 64
    then r.refill >>= fun r => if 64 - r.bitsRead < 1 then .err eof else .ok r
    else Outcome.ok r
  let res := r.cur &&& 2 ^ 63
  .ok (res != 0, ⟨r.src, (r.cur <<< 1) % 2 ^ 64, r.bitsRead + 1⟩)

/-- The `while total_read != 0` loop, src/unaligned_rw.rs:106-127. Every iteration reads at
least one bit, so `fuel = total` is enough. -/
def BitReader.readLoop : (fuel total res : Nat) → BitReader → Outcome ImportError (Nat × BitReader)
  | 0, _, res, r => .ok (res, r)
  | fuel + 1, total, res, r =>
    if total = 0 then .ok (res, r)
    else do
      let r ← r.refillIfEmpty
      let readAmount := min total (64 - r.bitsRead)
      let res := (res <<< readAmount) % 2 ^ 64
      let readOffset := 64 - readAmount
      let res := res ||| (r.cur >>> readOffset)
      let cur := if readAmount < 64 then (r.cur <<< readAmount) % 2 ^ 64 else r.cur
      readLoop fuel (total - readAmount) res ⟨r.src, cur, r.bitsRead + readAmount⟩

/-- `read_unaligned`, src/unaligned_rw.rs:98-129: widths 0 and 64 or more yield 0 without
reading anything. -/
def BitReader.read (mode : Nat) (r : BitReader) : Outcome ImportError (Nat × BitReader) :=
  if mode = 0 ∨ mode ≥ 64 then .ok (0, r)
  else readLoop mode mode 0 r

/-- `data << (64 - k) >> (64 - k)` on u64 for `1 ≤ k ≤ 64`. -/
def lowBits (data k : Nat) : Nat := ((data <<< (64 - k)) % 2 ^ 64) >>> (64 - k)

/-- `read2_unaligned`, src/unaligned_rw.rs:53-67. -/
def BitReader.read2 (mode : Nat) (r : BitReader) : Outcome ImportError ((Nat × Nat) × BitReader) :=
  if mode = 0 then .ok ((0, 0), r)
  else if mode > 32 then do
    let (a, r) ← r.read mode
    let (b, r) ← r.read mode
    .ok ((a, b), r)
  else do
    let (data, r) ← r.read (mode * 2)
    .ok ((data >>> mode, lowBits data mode), r)

/-- `read3_unaligned`, src/unaligned_rw.rs:83-96. For `mode = 0` the shift amounts are 64:
a panic with overflow checks, otherwise a shift by 0. -/
def BitReader.read3 (b : Build) (mode : Nat) (r : BitReader) :
    Outcome ImportError ((Nat × Nat × Nat) × BitReader) :=
  if mode > 21 then do
    let ((a1, a2), r) ← r.read2 mode
    let (a3, r) ← r.read mode
    .ok ((a1, a2, a3), r)
  else do
    let (data, r) ← r.read (mode * 3)
    if mode = 0 then
      match b with
      | .checked => .panic
      | .wrapping => .ok ((data, data, data), r)
    else
      let r1 := data >>> (mode * 2)
      let r23 := lowBits data (mode * 2)
      .ok ((r1, r23 >>> mode, lowBits r23 mode), r)

/-- `read_pair_unaligned`, src/unaligned_rw.rs:68-82. The widths are `u8`; their sum
overflows above 255. Shifting by 64 (`mode1 = 0`, or `mode1 = 64` on the right shift) panics
with overflow checks and shifts by 0 otherwise. -/
def BitReader.readPair (b : Build) (mode1 mode2 : Nat) (r : BitReader) :
    Outcome ImportError ((Nat × Nat) × BitReader) :=
  if mode1 + mode2 ≥ 256 ∧ b = .checked then .panic
  else
    let sum := (mode1 + mode2) % 256
    if sum > 64 then do
      let (a1, r) ← r.read mode1
      let (a2, r) ← r.read mode2
      .ok ((a1, a2), r)
    else do
      let (data, r) ← r.read sum
      if mode1 = 0 ∨ mode1 ≥ 64 then
        match b with
        | .checked => .panic
        | .wrapping =>
          let k := (64 + 256 - mode1) % 256 % 64
          .ok ((data >>> (mode1 % 64), ((data <<< k) % 2 ^ 64) >>> k), r)
      else .ok ((data >>> mode1, lowBits data mode1), r)

/-- A sequence of `read_unaligned` calls with the given widths. -/
def BitReader.readAll : List Nat → BitReader → Outcome ImportError (List Nat × BitReader)
  | [], r => .ok ([], r)
  | mode :: rest, r => do
    let (v, r) ← r.read mode
    let (vs, r) ← readAll rest r
    .ok (v :: vs, r)

end Tmf
