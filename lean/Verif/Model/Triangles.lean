import Verif.Model.Bits
/-
Index arrays, src/vertices.rs:162-218 and src/tmf_importer.rs:258-289.
-/

namespace Tmf

/-- `u64::count_ones`. -/
def countOnes (n : Nat) : Nat := ((List.range 64).filter n.testBit).length

/-- `calc_prec`, src/vertices.rs:162-178. `usize::BITS - 1 - leading_zeros` is `Nat.log2`. -/
def calcPrec (max : Nat) : Nat :=
  if max = 2 ^ 64 - 1 then 64
  else
    let max1 := max + 1
    Nat.log2 max1 + (if countOnes max1 > 1 then 1 else 0)

/-- `*triangles.iter().min().unwrap_or(&0)`, src/vertices.rs:184. -/
def minIndex : List Nat → Nat
  | [] => 0
  | x :: xs => xs.foldl min x

/-- `*triangles.iter().max().unwrap_or(&0)`, src/tmf.rs:372. -/
def maxIndex (l : List Nat) : Nat := l.foldl max 0

/-- `save_triangles` into a `Vec<u8>`, src/vertices.rs:179-195. -/
def saveTriangles (b : Build) (triangles : List Nat) (maxIdx : Nat) : Outcome ExportError (List UInt8) := do
  let min := minIndex triangles
  let precision := calcPrec maxIdx
  let w ← BitWriter.writeAll b (triangles.map (fun i => (precision, i - min))) .new
  .ok (leBytes 1 precision ++ leBytes 8 triangles.length ++ leBytes 8 min ++ w.finish)

/-- `(i + min) as IndexType` on u64, src/vertices.rs:209-214, src/tmf_importer.rs:279-285. -/
def addMin (b : Build) (i min : Nat) : Outcome ImportError Nat :=
  if i + min ≥ 2 ^ 64 ∧ b = .checked then .panic else .ok ((i + min) % 2 ^ 32)

/-- The loop over pairs, src/vertices.rs:207-211 and src/tmf_importer.rs:277-281. -/
def readIndexPairs (b : Build) (prec min : Nat) : Nat → BitReader → Outcome ImportError (List Nat × BitReader)
  | 0, r => .ok ([], r)
  | n + 1, r => do
    let ((i1, i2), r) ← r.read2 prec
    let i1 ← addMin b i1 min
    let i2 ← addMin b i2 min
    let (rest, r) ← readIndexPairs b prec min n r
    .ok (i1 :: i2 :: rest, r)

/-- All indices: pairs, then the odd one, src/vertices.rs:207-214, src/tmf_importer.rs:277-285. -/
def readIndices (b : Build) (prec min length : Nat) (r : BitReader) : Outcome ImportError (List Nat) := do
  let (l, r) ← readIndexPairs b prec min (length / 2) r
  if length % 2 ≠ 0 then do
    let (i, _) ← r.read prec
    let i ← addMin b i min
    .ok (l ++ [i])
  else .ok l

/-- The part of `TMFImportContext` used while decoding, src/tmf_importer.rs:52-56: whether
index arrays store their minimum. -/
structure DecodeCtx where
  readMin : Bool
deriving Repr, DecidableEq

/-- `read_traingle_min`, src/tmf_importer.rs:108-114. -/
def DecodeCtx.readTriangleMin (ctx : DecodeCtx) : Prog Nat :=
  if ctx.readMin then Prog.readU64 else pure 0

/-- The header shared by both readers: precision, length, minimum, length check. -/
def readTrianglesHeader (ctx : DecodeCtx) : Prog (Nat × Nat × Nat) := do
  let precision ← Prog.readU8
  let length ← Prog.readU64
  let min ← ctx.readTriangleMin
  if length > MAX_SEG_SIZE then .fail .segmentTooLong else pure (precision, length, min)

/-- `read_triangles`, src/vertices.rs:196-218 (custom index and integer data). The reader is
always a slice. -/
def readTriangles (b : Build) (ctx : DecodeCtx) (bytes : List UInt8) : Outcome ImportError (List Nat) := do
  let ((precision, length, min), rest) ← (readTrianglesHeader ctx).runSlice bytes
  readIndices b precision min length (.new (.slice rest))

/-- `read_default_triangles` into an empty vector, src/tmf_importer.rs:258-289. Precision 0
fills with zeros and ignores the minimum. -/
def readDefaultTriangles (b : Build) (ctx : DecodeCtx) (bytes : List UInt8) :
    Outcome ImportError (List Nat) := do
  let ((precision, length, min), rest) ← (readTrianglesHeader ctx).runSlice bytes
  if precision = 0 then .ok (List.replicate length 0)
  else readIndices b precision min length (.new (.slice rest))

end Tmf
