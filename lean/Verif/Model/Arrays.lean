import Verif.Model.Float
import Verif.Model.Bits
/-
Quantised arrays: src/vertices.rs:31-159, src/uv.rs, src/normals.rs, src/tangents.rs.

Every save function is split into the integer codes it stores and the bytes around them; every
read function into the header, the loop over the bit stream, and the conversion of one element.
Writing goes to a `Vec<u8>` and cannot fail.
-/

namespace Tmf

/-- Apply a fallible function to every element in order. -/
def Outcome.mapAll {ε α β : Type} (f : α → Outcome ε β) : List α → Outcome ε (List β)
  | [] => .ok []
  | a :: l => do
    let x ← f a
    let xs ← mapAll f l
    .ok (x :: xs)

/-- `for _ in 0..count { push(read(...)?) }` over a bit stream. -/
def readMany {α : Type} (f : BitReader → Outcome ImportError (α × BitReader)) :
    Nat → BitReader → Outcome ImportError (List α × BitReader)
  | 0, r => .ok ([], r)
  | n + 1, r => do
    let (a, r) ← f r
    let (l, r) ← readMany f n r
    .ok (a :: l, r)

/-- `read_f64`, src/read_extension.rs:31-35. -/
def readF64 {fo : FloatOps} (fb : F64Bytes fo) : Prog fo.D :=
  .readExact 8 (fun bs => .ret (fb.dec bs))

/-- `(x as f64).to_le_bytes()`. -/
def f64Bytes {fo : FloatOps} (fb : F64Bytes fo) (x : fo.F) : List UInt8 := fb.enc (fo.toD x)

/-! ### Vertices -/

/-- The bounding box kept while saving vertices. -/
structure VBox (F : Type) where
  minX : F
  maxX : F
  minY : F
  maxY : F
  minZ : F
  maxZ : F
deriving Repr, DecidableEq

/-- One iteration of the bounding-box loop, src/vertices.rs:45-52, literally: the assignments
are sequential and mix up the axes. -/
def VBox.step (fo : FloatOps) (s : VBox fo.F) (v : Vec3 fo.F) : VBox fo.F :=
  let minX := fo.min s.minX v.1
  let maxX := fo.max s.maxY v.2.1
  let minY := fo.min s.minZ v.2.2
  let maxY := fo.max maxX v.1
  let minZ := fo.min minY v.2.1
  let maxZ := fo.max s.maxZ v.2.2
  ⟨minX, maxX, minY, maxY, minZ, maxZ⟩

/-- The bounding box after the loop, src/vertices.rs:37-52; `vertices[0]` panics on an empty
array. -/
def vertexBox (fo : FloatOps) (vertices : List (Vec3 fo.F)) : Outcome ExportError (VBox fo.F) :=
  match vertices with
  | [] => .panic
  | v0 :: _ => .ok (vertices.foldl (VBox.step fo) ⟨v0.1, v0.1, v0.2.1, v0.2.1, v0.2.2, v0.2.2⟩)

/-- Sizes, src/vertices.rs:60-66. -/
def VBox.sizes (fo : FloatOps) (s : VBox fo.F) : Vec3 fo.F :=
  let eps := fo.lit 1 6
  (fo.max (fo.sub s.maxX s.minX) eps, fo.max (fo.sub s.maxY s.minY) eps, fo.max (fo.sub s.maxZ s.minZ) eps)

/-- Bits per coordinate, src/vertices.rs:68-78 (`inc_z` is computed from `sy`). -/
def VBox.precs (fo : FloatOps) (s : VBox fo.F) (precision edge : fo.F) : Nat × Nat × Nat :=
  let sz := s.sizes fo
  let incX := fo.mul (fo.div edge sz.1) precision
  let incY := fo.mul (fo.div edge sz.2.1) precision
  let incZ := fo.mul (fo.div edge sz.2.1) precision
  (max (fo.log2CeilU8 (fo.div fo.one incX)) 1, max (fo.log2CeilU8 (fo.div fo.one incY)) 1,
    max (fo.log2CeilU8 (fo.div fo.one incZ)) 1)

/-- `(((v - min) / size) * mul) as u64`, src/vertices.rs:94-96. -/
def coordCode (fo : FloatOps) (v min size : fo.F) (mul : Nat) : Nat :=
  fo.toU64 (fo.mul (fo.div (fo.sub v min) size) (fo.ofNat mul))

/-- The three fields of one vertex, src/vertices.rs:93-100. -/
def vertexFields (fo : FloatOps) (s : VBox fo.F) (precs muls : Nat × Nat × Nat) (v : Vec3 fo.F) :
    List (Nat × Nat) :=
  let sz := s.sizes fo
  [(precs.1, coordCode fo v.1 s.minX sz.1 muls.1),
   (precs.2.1, coordCode fo v.2.1 s.minY sz.2.1 muls.2.1),
   (precs.2.2, coordCode fo v.2.2 s.minZ sz.2.2 muls.2.2)]

/-- `save_tmf_vertices`, src/vertices.rs:31-104. -/
def saveVertices (fo : FloatOps) (fb : F64Bytes fo) (b : Build) (vertices : List (Vec3 fo.F))
    (precision edge : fo.F) : Outcome ExportError (List UInt8) := do
  let s ← vertexBox fo vertices
  let p := s.precs fo precision edge
  let mx ← mulI32 b p.1
  let my ← mulI32 b p.2.1
  let mz ← mulI32 b p.2.2
  let w ← BitWriter.writeAll b (vertices.flatMap (vertexFields fo s p (mx, my, mz))) .new
  .ok (leBytes 8 vertices.length
    ++ f64Bytes fb s.minX ++ f64Bytes fb s.maxX ++ f64Bytes fb s.minY ++ f64Bytes fb s.maxY
    ++ f64Bytes fb s.minZ ++ f64Bytes fb s.maxZ
    ++ leBytes 1 p.1 ++ leBytes 1 p.2.1 ++ leBytes 1 p.2.2 ++ w.finish)

/-- A precision byte of 64 or more is rejected at once. -/
def readPrec : Prog Nat := do
  let p ← Prog.readU8
  if p ≥ 64 then .fail (.invalidPrecision p) else pure p

/-- The header of a vertex segment, src/vertices.rs:106-142: count, box, widths. -/
def readVerticesHeader (fo : FloatOps) (fb : F64Bytes fo) : Prog (Nat × VBox fo.F × (Nat × Nat × Nat)) := do
  let count ← Prog.readU64
  let minX ← readF64 fb
  let maxX ← readF64 fb
  let minY ← readF64 fb
  let maxY ← readF64 fb
  let minZ ← readF64 fb
  let maxZ ← readF64 fb
  let px ← readPrec
  let py ← readPrec
  let pz ← readPrec
  if count > MAX_SEG_SIZE then .fail .segmentTooLong
  else pure (count, ⟨fo.ofD minX, fo.ofD maxX, fo.ofD minY, fo.ofD maxY, fo.ofD minZ, fo.ofD maxZ⟩, (px, py, pz))

/-- `(code / div) * size + min`, src/vertices.rs:150-155. -/
def coordOfCode (fo : FloatOps) (code prec : Nat) (min max : fo.F) : fo.F :=
  fo.add (fo.mul (fo.div (fo.ofNat code) (fo.ofNat (2 ^ prec - 1))) (fo.sub max min)) min

/-- One vertex from its three codes. -/
def vertexOfCodes (fo : FloatOps) (s : VBox fo.F) (p c : Nat × Nat × Nat) : Vec3 fo.F :=
  (coordOfCode fo c.1 p.1 s.minX s.maxX, coordOfCode fo c.2.1 p.2.1 s.minY s.maxY,
    coordOfCode fo c.2.2 p.2.2 s.minZ s.maxZ)

/-- One iteration of the read loop, src/vertices.rs:145-157. -/
def readVertex (fo : FloatOps) (s : VBox fo.F) (p : Nat × Nat × Nat) (r : BitReader) :
    Outcome ImportError (Vec3 fo.F × BitReader) := do
  let (x, r) ← r.read p.1
  let (y, r) ← r.read p.2.1
  let (z, r) ← r.read p.2.2
  .ok (vertexOfCodes fo s p (x, y, z), r)

/-- `read_tmf_vertices` on a slice, src/vertices.rs:105-159. -/
def readVertices (fo : FloatOps) (fb : F64Bytes fo) (bytes : List UInt8) :
    Outcome ImportError (List (Vec3 fo.F)) := do
  let ((count, s, p), rest) ← (readVerticesHeader fo fb).runSlice bytes
  let (l, _) ← readMany (readVertex fo s p) count (.new (.slice rest))
  .ok l

/-! ### UVs -/

/-- The two fields of one uv, src/uv.rs:44-49. -/
def uvFields (fo : FloatOps) (prec mul : Nat) (uv : Vec2 fo.F) : List (Nat × Nat) :=
  [(prec, fo.toU64 (fo.mul uv.1 (fo.ofNat mul))), (prec, fo.toU64 (fo.mul uv.2 (fo.ofNat mul)))]

/-- `save_uvs`, src/uv.rs:33-52. -/
def saveUvs (fo : FloatOps) (b : Build) (uvs : List (Vec2 fo.F)) (prec : Nat) :
    Outcome ExportError (List UInt8) := do
  let mul ← mulI32 b prec
  let w ← BitWriter.writeAll b (uvs.flatMap (uvFields fo prec mul)) .new
  .ok (leBytes 1 prec ++ leBytes 8 uvs.length ++ w.finish)

/-- Header of a uv segment, src/uv.rs:54-58. -/
def readUvsHeader : Prog (Nat × Nat) := do
  let prec ← Prog.readU8
  let count ← Prog.readU64
  if count > MAX_SEG_SIZE then .fail .segmentTooLong else pure (prec, count)

/-- One uv from its codes, src/uv.rs:71-73. -/
def uvOfCodes (fo : FloatOps) (prec : Nat) (c : Nat × Nat) : Vec2 fo.F :=
  (fo.div (fo.ofNat c.1) (fo.ofNat (2 ^ prec - 1)), fo.div (fo.ofNat c.2) (fo.ofNat (2 ^ prec - 1)))

def readUv (fo : FloatOps) (prec : Nat) (r : BitReader) : Outcome ImportError (Vec2 fo.F × BitReader) := do
  let (c, r) ← r.read2 prec
  .ok (uvOfCodes fo prec c, r)

/-- `read_uvs` on a slice, src/uv.rs:53-76. -/
def readUvs (fo : FloatOps) (bytes : List UInt8) : Outcome ImportError (List (Vec2 fo.F)) := do
  let ((prec, count), rest) ← readUvsHeader.runSlice bytes
  if prec = 0 then .ok (List.replicate count (fo.zero, fo.zero))
  else if prec ≥ 64 then .err (.invalidPrecision prec)
  else do
    let (l, _) ← readMany (readUv fo prec) count (.new (.slice rest))
    .ok l

/-! ### Normals -/

/-- The codes and signs of a normal, src/normals.rs:67-86 (`multiplier` computed by the
caller, see `normalFields`). -/
structure NormalCode where
  asine : Nat
  z : Nat
  sx : Bool
  sy : Bool
  sz : Bool
deriving Repr, DecidableEq

def normalCode (fo : FloatOps) (mul : Nat) (n : Vec3 fo.F) : NormalCode :=
  let x := fo.abs n.1
  let y := fo.abs n.2.1
  let mag := fo.sqrt (fo.add (fo.mul x x) (fo.mul y y))
  let asine := fo.asin (fo.div x mag)
  let asine := fo.div asine (fo.div fo.pi (fo.lit 2 0))
  ⟨fo.toU64 (fo.mul asine (fo.ofNat mul)), fo.toU64 (fo.mul (fo.abs n.2.2) (fo.ofNat mul)),
    fo.lt n.1 fo.zero, fo.lt n.2.1 fo.zero, fo.lt n.2.2 fo.zero⟩

/-- `normal_to_encoding`, src/normals.rs:67-86. -/
def normalToEncoding (fo : FloatOps) (b : Build) (prec : Nat) (n : Vec3 fo.F) :
    Outcome ExportError NormalCode := do
  let mul ← mulI32 b prec
  .ok (normalCode fo mul n)

/-- Set the sign of a component, src/normals.rs:120-122. -/
def withSign (fo : FloatOps) (s : Bool) (x : fo.F) : fo.F := if s then fo.neg x else x

/-- `normal_from_encoding`, src/normals.rs:87-124, for a precision below 64. -/
def normalFromEncoding (fo : FloatOps) (prec : Nat) (c : NormalCode) : Vec3 fo.F :=
  if prec = 0 then
    (if c.sx then fo.negOne else fo.one, if c.sy then fo.negOne else fo.one, if c.sz then fo.negOne else fo.one)
  else
    let div := fo.ofNat (2 ^ prec - 1)
    let asine := fo.mul (fo.div (fo.ofNat c.asine) div) (fo.div fo.pi (fo.lit 2 0))
    let z := fo.div (fo.ofNat c.z) div
    let x := fo.sin asine
    let y := fo.cos asine
    let mag := fo.sqrt (fo.sub fo.one (fo.mul z z))
    (withSign fo c.sx (fo.mul x mag), withSign fo c.sy (fo.mul y mag), withSign fo c.sz z)

/-- What `save_normal` writes, src/normals.rs:127-142. -/
def normalFields (fo : FloatOps) (b : Build) (prec : Nat) (n : Vec3 fo.F) :
    Outcome ExportError (List (Nat × Nat)) := do
  let c ← normalToEncoding fo b prec n
  .ok [(1, c.sx.toNat), (1, c.sy.toNat), (1, c.sz.toNat), (prec, c.asine), (prec, c.z)]

/-- `save_normal_array`, src/normals.rs:156-170. -/
def saveNormals (fo : FloatOps) (b : Build) (normals : List (Vec3 fo.F)) (prec : Nat) :
    Outcome ExportError (List UInt8) := do
  let fields ← Outcome.mapAll (normalFields fo b prec) normals
  let w ← BitWriter.writeAll b fields.flatten .new
  .ok (leBytes 8 normals.length ++ leBytes 1 prec ++ w.finish)

/-- Header of a normal or tangent segment, src/normals.rs:172-179, src/tangents.rs:94-101. -/
def readNormalsHeader : Prog (Nat × Nat) := do
  let count ← Prog.readU64
  if count > MAX_SEG_SIZE then .fail .segmentTooLong
  else do
    let prec ← readPrec
    pure (count, prec)

/-- `read_normal`, src/normals.rs:144-155. -/
def readNormal (fo : FloatOps) (prec : Nat) (r : BitReader) : Outcome ImportError (Vec3 fo.F × BitReader) := do
  let (sx, r) ← r.readBit
  let (sy, r) ← r.readBit
  let (sz, r) ← r.readBit
  let ((asine, z), r) ← r.read2 prec
  .ok (normalFromEncoding fo prec ⟨asine, z, sx, sy, sz⟩, r)

/-- `read_normal_array` on a slice, src/normals.rs:171-188. -/
def readNormals (fo : FloatOps) (bytes : List UInt8) : Outcome ImportError (List (Vec3 fo.F)) := do
  let ((count, prec), rest) ← readNormalsHeader.runSlice bytes
  let (l, _) ← readMany (readNormal fo prec) count (.new (.slice rest))
  .ok l

/-! ### Tangents -/

/-- `ht_from_bool`, src/tangents.rs:37-43. -/
def htFromBool (fo : FloatOps) (s : Bool) : fo.F := if s then fo.negOne else fo.one

/-- `tangent_to_encoding` and the writes, src/tangents.rs:46-53,80-86. -/
def tangentFields (fo : FloatOps) (b : Build) (prec : Nat) (t : Tangent fo.F) :
    Outcome ExportError (List (Nat × Nat)) := do
  let c ← normalToEncoding fo b prec t.1
  let h := fo.isSignNegative t.2
  .ok [(1, h.toNat), (1, c.sx.toNat), (1, c.sy.toNat), (1, c.sz.toNat), (prec, c.asine), (prec, c.z)]

/-- `save_tangents`, src/tangents.rs:68-90. -/
def saveTangents (fo : FloatOps) (b : Build) (tangents : List (Tangent fo.F)) (prec : Nat) :
    Outcome ExportError (List UInt8) := do
  let fields ← Outcome.mapAll (tangentFields fo b prec) tangents
  let w ← BitWriter.writeAll b fields.flatten .new
  .ok (leBytes 8 tangents.length ++ leBytes 1 prec ++ w.finish)

/-- One iteration of the loop in `read_tangents`, src/tangents.rs:106-116. -/
def readTangent (fo : FloatOps) (prec : Nat) (r : BitReader) : Outcome ImportError (Tangent fo.F × BitReader) := do
  let (h, r) ← r.readBit
  let (sx, r) ← r.readBit
  let (sy, r) ← r.readBit
  let (sz, r) ← r.readBit
  let (asine, r) ← r.read prec
  let (z, r) ← r.read prec
  .ok ((normalFromEncoding fo prec ⟨asine, z, sx, sy, sz⟩, htFromBool fo h), r)

/-- `read_tangents` on a slice, src/tangents.rs:91-118. -/
def readTangents (fo : FloatOps) (bytes : List UInt8) : Outcome ImportError (List (Tangent fo.F)) := do
  let ((count, prec), rest) ← readNormalsHeader.runSlice bytes
  let (l, _) ← readMany (readTangent fo prec) count (.new (.slice rest))
  .ok l

/-! ### Precision settings -/

/-- `UvPrecisionMode::form_texture_resolution`, src/uv.rs:16-18. -/
def uvPrecFromTexture (fo : FloatOps) (resolution pixelDev : fo.F) : Nat :=
  fo.log2CeilU8 (fo.div resolution pixelDev)

/-- `NormalPrecisionMode::from_deg_dev`, src/normals.rs:24-27. -/
def normalPrecFromDeg (fo : FloatOps) (deg : fo.F) : Nat := max (fo.log2CeilU8 (fo.div (fo.lit 90 0) deg)) 1

/-- `NormalPrecisionMode::from_rad_dev`, src/normals.rs:36-39. -/
def normalPrecFromRad (fo : FloatOps) (rad : fo.F) : Nat := fo.log2CeilU8 (fo.div fo.fracPi2 rad)

/-- `TMFPrecisionInfo`, src/lib.rs:105-114. -/
structure PrecisionInfo (F : Type) where
  vertex : F
  normal : Nat
  uv : Nat
  tangent : Nat

/-- `TMFPrecisionInfo::default`, src/lib.rs:115-125. -/
def PrecisionInfo.default (fo : FloatOps) : PrecisionInfo fo.F :=
  ⟨fo.lit 1 1, normalPrecFromDeg fo fo.one, uvPrecFromTexture fo (fo.lit 1024 0) (fo.lit 1 1),
    normalPrecFromDeg fo fo.one⟩

end Tmf
