import Verif.Model.IndexWidth
/-
`read_default_triangles` with the memory it writes to, src/tmf_importer.rs:258-289: the vector's spare
capacity is filled slot by slot and `set_len` makes it part of the vector. `Model/Triangles`
has the same function on lists.
-/

namespace Tmf

/-- Memory that may not be initialised, `[MaybeUninit<IndexType>]`: `none` is a slot nothing was written to. -/
abbrev Slots := List (Option Nat)

/-- `buf[i].write(x)`. -/
def Slots.write (buf : Slots) (i x : Nat) : Outcome ImportError Slots :=
  if i < buf.length then .ok (buf.set i (some x)) else .panic

/-- The loop over pairs, src/tmf_importer.rs:277-281, for `n` more pairs. -/
def fillPairs (k : Nat) (b : Build) (prec min : Nat) : (n index : Nat) → BitReader → Slots →
    Outcome ImportError (Slots × BitReader)
  | 0, _, r, buf => .ok (buf, r)
  | n + 1, index, r, buf => do
    let ((i1, i2), r) ← r.read2 prec
    let i1 ← addMinIn k b i1 min
    let buf ← buf.write (index * 2) i1
    let i2 ← addMinIn k b i2 min
    let buf ← buf.write (index * 2 + 1) i2
    fillPairs k b prec min n (index + 1) r buf

/-- Everything written between `spare_capacity_mut` and `set_len`, src/tmf_importer.rs:270-286. -/
def fillSlots (k : Nat) (b : Build) (prec min length : Nat) (bytes : List UInt8) (buf : Slots) :
    Outcome ImportError Slots :=
  if prec = 0 then .ok (buf.map fun _ => some 0)
  else do
    let (buf, r) ← fillPairs k b prec min (length / 2) 0 (.new (.slice bytes)) buf
    if length % 2 ≠ 0 then do
      let (i, _) ← r.read prec
      let i ← addMinIn k b i min
      buf.write (length - 1) i
    else .ok buf

/-- `read_default_triangles`, src/tmf_importer.rs:258-289, into a vector that holds `data`: the slots of the
vector afterwards. `alloc` is what `reserve` finds after the elements. -/
def readDefaultTrianglesRaw (k : Nat) (b : Build) (ctx : DecodeCtx) (alloc : Nat → Slots) (data : List Nat)
    (bytes : List UInt8) : Outcome ImportError Slots := do
  let ((precision, length, min), rest) ← (readTrianglesHeader ctx).runSlice bytes
  let buf ← fillSlots k b precision min length rest (alloc length)
  .ok ((data.map some ++ buf).take length)

end Tmf
