import Verif.Model.Triangles
/-
The LZ77 stage, src/lz77.rs. It is dead code in the library (nothing calls it); its `println!`
output is not modelled.
-/

namespace Tmf

/-- `match_len`, src/lz77.rs:24-34. `pos` grows in every iteration, so `fuel = data.length` is
enough. -/
def matchLen (data : List Nat) : (fuel offset pos : Nat) → Nat
  | 0, _, _ => 0
  | fuel + 1, offset, pos =>
    if offset < pos ∧ pos < data.length ∧ data[offset]? = data[pos]?
    then matchLen data fuel (offset + 1) (pos + 1) + 1
    else 0

/-- The loop body of `find_longest_match`, src/lz77.rs:15-21; `best` is (offset, length). -/
def longerMatch (data : List Nat) (pos : Nat) (best : Nat × Nat) (offset : Nat) : Nat × Nat :=
  let len := matchLen data data.length offset pos
  if len > best.2 then (pos - offset, len) else best

/-- `find_longest_match`, src/lz77.rs:7-23. `pos - limit` is 0 when `pos < limit`. -/
def findLongestMatch (data : List Nat) (pos limit : Nat) : Nat × Nat :=
  (List.range' (pos - limit) (pos - (pos - limit))).foldl (longerMatch data pos) (0, 0)

/-- The loop of `save_compressed_array`, src/lz77.rs:48-63. Every iteration moves `pos` forward,
so `fuel = data.length` is enough. -/
def saveCompressedLoop (b : Build) (prec : Nat) (data : List Nat) :
    (fuel pos : Nat) → BitWriter → Outcome ExportError BitWriter
  | 0, _, w => .ok w
  | fuel + 1, pos, w =>
    if pos < data.length then
      let m := findLongestMatch data pos 127
      if m.1 = 0 ∨ m.2 < 2 then do
        let w ← w.writeBit b true
        let w ← w.write b prec (data.getD pos 0)
        saveCompressedLoop b prec data fuel (pos + 1) w
      else do
        let w ← w.writeBit b false
        let w ← w.write b prec m.2
        let w ← w.write b prec m.1
        saveCompressedLoop b prec data fuel (pos + m.2) w
    else .ok w

/-- `save_compressed_array` into a `Vec<u8>`, src/lz77.rs:36-65; `data` is the array after the
mapper. -/
def saveCompressedArray (b : Build) (prec : Nat) (data : List Nat) : Outcome ExportError (List UInt8) := do
  let w ← saveCompressedLoop b prec data data.length 0 .new
  .ok w.finish

/-- The copy loop, src/lz77.rs:87-91: `len` elements from position `i` on are appended one by
one. A position past the end is a panic. -/
def copyRun : (len i : Nat) → List Nat → Outcome ImportError (List Nat)
  | 0, _, out => .ok out
  | len + 1, i, out =>
    match out[i]? with
    | some x => copyRun len (i + 1) (out ++ [x])
    | none => .panic

/-- A copy token, src/lz77.rs:86-91. `output.len() - offset` underflows for offsets before the
start of the array: a panic with overflow checks; otherwise `start` is close to `2^64`, and the range
`start..(start + len)` is empty if the sum wraps too and starts with a position past the end
otherwise. -/
def copyToken (b : Build) (len offset : Nat) (out : List Nat) : Outcome ImportError (List Nat) :=
  if offset ≤ out.length then copyRun len (out.length - offset) out
  else match b with
    | .checked => .panic
    | .wrapping => if len = 0 ∨ out.length + len ≥ offset then .ok out else .panic

/-- The loop of `read_compressed_array`, src/lz77.rs:74-93. Every iteration reads at least one bit,
so the number of bits (plus one for the failing read) is enough fuel; running out of fuel (an endless
loop) is a panic. -/
def readCompressedLoop (b : Build) (prec length : Nat) :
    (fuel : Nat) → BitReader → List Nat → Outcome ImportError (List Nat)
  | 0, _, _ => .panic
  | fuel + 1, r, out =>
    if out.length < length then do
      let (raw, r) ← r.readBit
      let (v, r) ← r.read prec
      if raw then readCompressedLoop b prec length fuel r (out ++ [v])
      else do
        let (offset, r) ← r.read prec
        let out ← copyToken b v offset out
        readCompressedLoop b prec length fuel r out
    else .ok out

/-- `read_compressed_array` before its mapper, src/lz77.rs:66-96. -/
def readCompressedArray (b : Build) (prec length : Nat) (src : Source) : Outcome ImportError (List Nat) :=
  readCompressedLoop b prec length (8 * src.bytes.length + 1) (.new src) []

/-- `save_triangles_lzz`, src/lz77.rs:97-111. -/
def saveTrianglesLzz (b : Build) (triangles : List Nat) (maxIdx : Nat) : Outcome ExportError (List UInt8) := do
  let min := minIndex triangles
  let precision := calcPrec maxIdx
  let data ← saveCompressedArray b precision (triangles.map (· - min))
  .ok (leBytes 1 precision ++ leBytes 8 triangles.length ++ leBytes 8 min ++ data)

end Tmf
