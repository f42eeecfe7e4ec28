import Verif.Model.Mesh
import Verif.Model.Arrays
import Verif.Model.Triangles
/-
Custom data segments, src/custom_data.rs:84-276.
-/

namespace Tmf

/-- `SectionType`, src/tmf.rs:13-41. -/
inductive SectionType where
  | invalid
  | vertex
  | vertexTriangle
  | normal
  | normalTriangle
  | uv
  | uvTriangle
  | tangent
  | tangentTriangle
  | customIndex
  | customFloat
  | customColor
  | customInteger
  | sharedTriangle
deriving Repr, DecidableEq

/-- `seg_type as u16 as u8`, src/tmf.rs:15-41,133. -/
def SectionType.toU8 : SectionType → Nat
  | invalid => 0
  | vertex => 1
  | vertexTriangle => 2
  | normal => 3
  | normalTriangle => 4
  | uv => 5
  | uvTriangle => 6
  | tangent => 9
  | tangentTriangle => 10
  | customIndex => 15
  | customFloat => 16
  | customColor => 23
  | customInteger => 24
  | sharedTriangle => 25

/-- `SectionType::from_u8`, src/tmf.rs:60-77. -/
def SectionType.fromU8 (n : Nat) : SectionType :=
  match n with
  | 1 => vertex
  | 2 => vertexTriangle
  | 3 => normal
  | 4 => normalTriangle
  | 5 => uv
  | 6 => uvTriangle
  | 9 => tangent
  | 10 => tangentTriangle
  | 15 => customIndex
  | 16 => customFloat
  | 23 => customColor
  | 24 => customInteger
  | 25 => sharedTriangle
  | _ => invalid

/-- `SectionType::from_u16`, src/tmf.rs:53-59. -/
def SectionType.fromU16 (n : Nat) : SectionType := if n > 255 then invalid else fromU8 n

/-- `section_type`, src/custom_data.rs:140-147. -/
def CustomData.sectionType {F : Type} : CustomData F → SectionType
  | .index .. => .customIndex
  | .integer .. => .customInteger
  | .float .. => .customFloat
  | .color .. => .customColor

/-! ### Float data -/

/-- Minimum and maximum, src/custom_data.rs:94-99. -/
def floatRange (fo : FloatOps) (data : List fo.F) : fo.F × fo.F :=
  (data.foldl fo.min fo.maxValue, data.foldl fo.max fo.minValue)

/-- Bits per value, src/custom_data.rs:100-103. -/
def floatPrec (fo : FloatOps) (data : List fo.F) (prec : fo.F) : Nat :=
  let r := floatRange fo data
  max (fo.log2CeilU8 (fo.div (fo.sub r.2 r.1) prec)) 1

/-- `(((entry - min) / span) * mul) as u64`, src/custom_data.rs:112. -/
def floatCode (fo : FloatOps) (r : fo.F × fo.F) (mul : Nat) (x : fo.F) : Nat :=
  fo.toU64 (fo.mul (fo.div (fo.sub x r.1) (fo.sub r.2 r.1)) (fo.ofNat mul))

/-- The `CustomFloat` branch of `write`, src/custom_data.rs:92-116. -/
def saveFloats (fo : FloatOps) (fb : F64Bytes fo) (b : Build) (data : List fo.F) (prec : fo.F) :
    Outcome ExportError (List UInt8) := do
  let r := floatRange fo data
  let p := floatPrec fo data prec
  let mul ← mulI32 b p
  let w ← BitWriter.writeAll b (data.map (fun x => (p, floatCode fo r mul x))) .new
  .ok (leBytes 8 data.length ++ f64Bytes fb r.1 ++ f64Bytes fb r.2 ++ leBytes 1 p ++ w.finish)

/-- Header of float data, src/custom_data.rs:222-231. -/
def readFloatsHeader {fo : FloatOps} (fb : F64Bytes fo) : Prog (Nat × fo.D × fo.D × Nat) := do
  let len ← Prog.readU64
  if len > MAX_SEG_SIZE then .fail .segmentTooLong
  else do
    let min ← readF64 fb
    let max ← readF64 fb
    let prec ← readPrec
    pure (len, min, max, prec)

/-- `(((val as f64) / div) * span + min) as f32`, src/custom_data.rs:233-240. -/
def floatOfCode (fo : FloatOps) (min max : fo.D) (p code : Nat) : fo.F :=
  fo.ofD (fo.dAdd (fo.dMul (fo.dDiv (fo.dOfNat code) (fo.dOfNat (2 ^ p - 1))) (fo.dSub max min)) min)

/-- The precision attached to loaded float data, src/custom_data.rs:242. -/
def floatLoadedPrec (fo : FloatOps) (min max : fo.D) (p : Nat) : fo.F :=
  fo.mul (fo.ofD (fo.dDiv (fo.dSub max min) (fo.dOfNat (2 ^ p)))) (fo.lit 99999 5)

def readFloat (fo : FloatOps) (min max : fo.D) (p : Nat) (r : BitReader) :
    Outcome ImportError (fo.F × BitReader) := do
  let (c, r) ← r.read p
  .ok (floatOfCode fo min max p c, r)

/-- The `CustomFloatSegment` branch of `read`, src/custom_data.rs:220-248. -/
def readFloats (fo : FloatOps) (fb : F64Bytes fo) (bytes : List UInt8) :
    Outcome ImportError (CustomData fo.F) := do
  let ((len, min, max, p), rest) ← (readFloatsHeader fb).runSlice bytes
  let (l, _) ← readMany (readFloat fo min max p) len (.new (.slice rest))
  .ok (.float l (floatLoadedPrec fo min max p))

/-! ### Colour data -/

/-- Bits per channel, src/custom_data.rs:119. -/
def colorPrec (fo : FloatOps) (prec : fo.F) : Nat := fo.log2CeilU8 (fo.div fo.one (fo.min prec fo.one))

/-- `(entry * mul) as u64` for the four channels, src/custom_data.rs:126-133. -/
def colorFields (fo : FloatOps) (p mul : Nat) (c : Vec4 fo.F) : List (Nat × Nat) :=
  let f := fun x => (p, fo.toU64 (fo.mul x (fo.ofNat mul)))
  [f c.1, f c.2.1, f c.2.2.1, f c.2.2.2]

/-- The `CustomColorRGBA` branch of `write`, src/custom_data.rs:117-136. -/
def saveColors (fo : FloatOps) (b : Build) (data : List (Vec4 fo.F)) (prec : fo.F) :
    Outcome ExportError (List UInt8) := do
  let p := colorPrec fo prec
  let mul ← mulI32 b p
  let w ← BitWriter.writeAll b (data.flatMap (colorFields fo p mul)) .new
  .ok (leBytes 8 data.length ++ leBytes 1 p ++ w.finish)

/-- `1_u64 << prec_bits`, src/custom_data.rs:256: shifting by 64 or more panics with overflow
checks, otherwise the amount is masked. -/
def shiftU64 (b : Build) (p : Nat) : Outcome ImportError Nat :=
  if p < 64 then .ok (2 ^ p)
  else match b with
    | .checked => .panic
    | .wrapping => .ok (2 ^ (p % 64))

/-- `((r as f64) / div) as f32`, src/custom_data.rs:261-264. -/
def channelOfCode (fo : FloatOps) (div code : Nat) : fo.F := fo.ofD (fo.dDiv (fo.dOfNat code) (fo.dOfNat div))

def readColor (fo : FloatOps) (div p : Nat) (r : BitReader) : Outcome ImportError (Vec4 fo.F × BitReader) := do
  let ((cr, cg), r) ← r.read2 p
  let ((cb, ca), r) ← r.read2 p
  .ok ((channelOfCode fo div cr, channelOfCode fo div cg, channelOfCode fo div cb, channelOfCode fo div ca), r)

/-- The precision attached to loaded colour data, src/custom_data.rs:267. -/
def colorLoadedPrec (fo : FloatOps) (pow : Nat) : fo.F :=
  fo.mul (fo.ofD (fo.dDiv (fo.dOfNat 1) (fo.dOfNat pow))) (fo.lit 99999 5)

/-- The `CustomColorRGBASegment` branch of `read`, src/custom_data.rs:249-273. `vec![_; len]`
of 16-byte elements panics with "capacity overflow" once `16 * len` exceeds `isize::MAX`; the
length is not checked otherwise. Simplified: an allocation that is merely too large for the
machine (which aborts the process) is treated as succeeding. -/
def readColors (fo : FloatOps) (b : Build) (bytes : List UInt8) : Outcome ImportError (CustomData fo.F) := do
  let ((len, p), rest) ← (do let len ← Prog.readU64; let p ← Prog.readU8; pure (len, p) : Prog (Nat × Nat)).runSlice bytes
  if 16 * len > 2 ^ 63 - 1 then .panic
  else do
    let pow ← shiftU64 b p
    let (l, _) ← readMany (readColor fo (pow - 1) p) len (.new (.slice rest))
    .ok (.color l (colorLoadedPrec fo pow))

/-! ### Segments -/

/-- `CustomData::write`, src/custom_data.rs:84-139. -/
def CustomData.write (fo : FloatOps) (fb : F64Bytes fo) (b : Build) :
    CustomData fo.F → Outcome ExportError (List UInt8)
  | .index data maxIdx => saveTriangles b data maxIdx
  | .integer data maxIdx => saveTriangles b data maxIdx
  | .float data prec => saveFloats fo fb b data prec
  | .color data prec => saveColors fo b data prec

/-- `CustomDataSegment::encode`, src/custom_data.rs:185-190 (the type is `sectionType`). -/
def CustomSeg.encode (fo : FloatOps) (fb : F64Bytes fo) (b : Build) (seg : CustomSeg fo.F) :
    Outcome ExportError (List UInt8) := do
  let data ← seg.data.write fo fb b
  .ok (leBytes 1 seg.name.length ++ seg.name ++ data)

/-- Name length and name, src/custom_data.rs:197-199. -/
def readCustomName : Prog (List UInt8) := do
  let n ← Prog.readU8
  Prog.readBytes n

/-- `CustomDataSegment::read` on a slice, src/custom_data.rs:192-276. Index and integer data
get the true maximum as `max_index` (`new_index(.., None)`, lines 154-167). -/
def CustomSeg.read (fo : FloatOps) (fb : F64Bytes fo) (b : Build) (ctx : DecodeCtx) (kind : SectionType)
    (bytes : List UInt8) : Outcome ImportError (CustomSeg fo.F) := do
  let (name, rest) ← readCustomName.runSlice bytes
  match kind with
  | .customIndex => do
    let l ← readTriangles b ctx rest
    .ok ⟨name, .index l (maxIndex l)⟩
  | .customInteger => do
    let l ← readTriangles b ctx rest
    .ok ⟨name, .integer l (maxIndex l)⟩
  | .customFloat => do
    let d ← readFloats fo fb rest
    .ok ⟨name, d⟩
  | .customColor => do
    let d ← readColors fo b rest
    .ok ⟨name, d⟩
  | _ => .panic

/-- `From<&[IndexType]>`, src/custom_data.rs:169-173. -/
def CustomData.ofIndices {F : Type} (l : List Nat) : CustomData F := .index l (maxIndex l)
/-- `From<&[FloatType]>`, src/custom_data.rs:174-178. -/
def CustomData.ofFloats (fo : FloatOps) (l : List fo.F) : CustomData fo.F := .float l (fo.lit 1 2)
/-- `From<&[Vector4]>`, src/custom_data.rs:179-183. -/
def CustomData.ofColors (fo : FloatOps) (l : List (Vec4 fo.F)) : CustomData fo.F := .color l (fo.lit 1 2)

end Tmf
