import Verif.Model.Import
/-
The memory asked for while a file is loaded: the buffers and arrays that the reading functions
create with a length taken from the file, before the bytes or elements themselves are read.

Not counted: the vectors of meshes and of pending segments (at most 65535 entries each,
src/tmf_importer.rs:130,183), buffers of fixed size, and copies of arrays that have been read
already (`to_owned`, `into`, the copies made by `append_*`). Asking is modelled as succeeding
always; only the "capacity overflow" of colour data ends the loading.
-/

namespace Tmf

/-- A buffer or array asked for, with its size in bytes. -/
inductive Request where
  /-- `vec![0; byte_len as usize]`, src/tmf_importer.rs:68 -/
  | name (bytes : Nat)
  /-- `vec![0; data_length]`, src/tmf.rs:149 -/
  | data (bytes : Nat)
  /-- the array that a segment is decoded into -/
  | array (seg : EncodedSegment) (bytes : Nat)
deriving Repr, DecidableEq

/-- The size of a request. -/
def Request.bytes : Request → Nat
  | name n => n
  | data n => n
  | array _ n => n

/-- What a decoder asks for, if it gets past its header: `size` bytes for each of the elements. -/
def sized {α : Type} (size : Nat) (count : α → Nat) : Outcome ImportError (α × List UInt8) → Option Nat
  | .ok (a, _) => some (size * count a)
  | _ => none

/-- `reserve` in `read_default_triangles`, src/tmf_importer.rs:269, and `with_capacity` in
`read_triangles`, src/vertices.rs:206: four bytes for each index. -/
def indexRequest (ctx : DecodeCtx) (bytes : List UInt8) : Option Nat :=
  sized 4 (fun h => h.2.1) ((readTrianglesHeader ctx).runSlice bytes)

/-- `vec![(0.0, 0.0, 0.0, 0.0); len as usize]`, src/custom_data.rs:255: 16 bytes for each colour,
after reading length and width. More than `isize::MAX` bytes are a panic instead. -/
def colorRequest (bytes : List UInt8) : Option Nat :=
  match sized 16 (fun h => h.1)
      ((do let len ← Prog.readU64; let p ← Prog.readU8; pure (len, p) : Prog (Nat × Nat)).runSlice bytes) with
  | some n => if n > 2 ^ 63 - 1 then none else some n
  | none => none

/-- The array that decoding a segment asks for: src/vertices.rs:143 (12 bytes for each vertex),
src/normals.rs:182 (12), src/uv.rs:60,65 (8; not for widths from 64 on), src/tangents.rs:105 (16),
src/custom_data.rs:237 (4 for each float), the index arrays of `decode_triangle_seg`
(src/tmf_importer.rs:304-321, uncompressed only) and of shared triangles (src/tmf.rs:433-452), and
the two above. -/
def EncodedSegment.arrayBytes (fo : FloatOps) (fb : F64Bytes fo) (ctx : DecodeCtx) (seg : EncodedSegment) :
    Option Nat :=
  match seg.segType with
  | .invalid => none
  | .vertex => sized 12 (fun h => h.1) ((readVerticesHeader fo fb).runSlice seg.data)
  | .normal => sized 12 (fun h => h.1) (readNormalsHeader.runSlice seg.data)
  | .uv =>
    match readUvsHeader.runSlice seg.data with
    | .ok ((prec, count), _) => if prec ≥ 64 then none else some (8 * count)
    | _ => none
  | .tangent => sized 16 (fun h => h.1) (readNormalsHeader.runSlice seg.data)
  | .vertexTriangle | .normalTriangle | .uvTriangle | .tangentTriangle =>
    if seg.compression = .none then indexRequest ctx seg.data else none
  | .sharedTriangle =>
    match seg.data with
    | [] => none
    | _ :: rest => if seg.compression = .none then indexRequest ctx rest else none
  | .customIndex | .customInteger =>
    match readCustomName.runSlice seg.data with
    | .ok (_, rest) => indexRequest ctx rest
    | _ => none
  | .customFloat =>
    match readCustomName.runSlice seg.data with
    | .ok (_, rest) => sized 4 (fun h => h.1) ((readFloatsHeader fb).runSlice rest)
    | _ => none
  | .customColor =>
    match readCustomName.runSlice seg.data with
    | .ok (_, rest) => colorRequest rest
    | _ => none

/-- The requests made by decoding segments. -/
def arrayRequests (fo : FloatOps) (fb : F64Bytes fo) (ctx : DecodeCtx) (segs : List EncodedSegment) : List Request :=
  segs.filterMap (fun s => (s.arrayBytes fo fb ctx).map (Request.array s))

/-- `EncodedSegment::read` up to the buffer, src/tmf.rs:139-148: type, compression, length. -/
def readSegmentHead (ctx : ImportCtx) : Prog (SectionType × CompressionType × Nat) := do
  let t ← ctx.readType
  let len ← ctx.readLength
  if len > MAX_SEG_SIZE then .fail .segmentTooLong
  else do
    let c ← Prog.readU8
    let c ← Prog.ofOutcome (CompressionType.fromU8 c)
    pure (t, c, len)

/-- The loop over the segments of a mesh, src/tmf_importer.rs:132-144: the requests, and (unless
reading fails) the segments and what follows them. -/
def segmentRequests (ctx : ImportCtx) : Nat → List UInt8 → List Request × Option (List EncodedSegment × List UInt8)
  | 0, bytes => ([], some ([], bytes))
  | n + 1, bytes =>
    match (readSegmentHead ctx).runSlice bytes with
    | .ok ((t, c, len), rest) =>
      if len ≤ rest.length then
        let r := segmentRequests ctx n (rest.drop len)
        (.data len :: r.1, r.2.map (fun x => (⟨t, c, rest.take len⟩ :: x.1, x.2)))
      else ([.data len], none)
    | _ => ([], none)

/-- `import_mesh`, src/tmf_importer.rs:122-160: the requests, and (if the mesh loads) what follows
it. Simplified: a segment whose decoding panics does not keep the later ones from asking. -/
def meshRequests (fo : FloatOps) (fb : F64Bytes fo) (b : Build) (ctx : ImportCtx) (bytes : List UInt8) :
    List Request × Option (List UInt8) :=
  match Prog.readU16.runSlice bytes with
  | .ok (n, rest) =>
    if n ≤ rest.length ∧ validUtf8 (rest.take n) = true then
      match Prog.readU16.runSlice (rest.drop n) with
      | .ok (count, rest) =>
        let r := segmentRequests ctx count rest
        match r.2 with
        | some (segs, rest) =>
          (.name n :: r.1 ++ arrayRequests fo fb ctx.decode segs,
            match assembleMesh fo fb b ctx.decode segs with
            | .ok _ => some rest
            | _ => none)
        | none => (.name n :: r.1, none)
      | _ => ([.name n], none)
    else ([.name n], none)
  | _ => ([], none)

/-- The loop over the meshes, src/tmf_importer.rs:184-186. -/
def meshesRequests (fo : FloatOps) (fb : F64Bytes fo) (b : Build) (ctx : ImportCtx) :
    Nat → List UInt8 → List Request
  | 0, _ => []
  | n + 1, bytes =>
    let r := meshRequests fo fb b ctx bytes
    r.1 ++ match r.2 with
      | some rest => meshesRequests fo fb b ctx n rest
      | none => []

/-- `import`, src/tmf_importer.rs:177-188: everything asked for while a file is loaded. -/
def fileRequests (fo : FloatOps) (fb : F64Bytes fo) (b : Build) (bytes : List UInt8) : List Request :=
  match (do let ctx ← readHeader; let count ← Prog.readU32; pure (ctx, count) : Prog (ImportCtx × Nat)).runSlice bytes with
  | .ok ((ctx, count), rest) => meshesRequests fo fb b ctx count rest
  | _ => []

end Tmf
