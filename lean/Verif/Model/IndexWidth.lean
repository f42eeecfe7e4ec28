import Verif.Model.Import
import Verif.Model.Verify
/-
The features `long_indices` and `short_indices`, src/lib.rs:61-70: the type of an index has 16, 32
(default) or 64 bits. `k` is the number of bits. Reading cuts every index down to the type; writing
uses the type only as the starting value of a minimum. Everything else (`calc_prec`, the stored minimum,
the stored codes) goes through `usize` and `u64`. Values of a narrower type are numbers below `2 ^ k`.
-/

namespace Tmf

/-! ### Reading -/

/-- `(i + min) as IndexType` on u64, src/vertices.rs:209-214, src/tmf_importer.rs:279-285. -/
def addMinIn (k : Nat) (b : Build) (i min : Nat) : Outcome ImportError Nat :=
  if i + min ≥ 2 ^ 64 ∧ b = .checked then .panic else .ok ((i + min) % 2 ^ 64 % 2 ^ k)

/-- The loop over pairs, src/vertices.rs:207-211 and src/tmf_importer.rs:277-281. -/
def readIndexPairsIn (k : Nat) (b : Build) (prec min : Nat) :
    Nat → BitReader → Outcome ImportError (List Nat × BitReader)
  | 0, r => .ok ([], r)
  | n + 1, r => do
    let ((i1, i2), r) ← r.read2 prec
    let i1 ← addMinIn k b i1 min
    let i2 ← addMinIn k b i2 min
    let (rest, r) ← readIndexPairsIn k b prec min n r
    .ok (i1 :: i2 :: rest, r)

/-- All indices: pairs, then the odd one, src/vertices.rs:207-214, src/tmf_importer.rs:277-285. -/
def readIndicesIn (k : Nat) (b : Build) (prec min length : Nat) (r : BitReader) :
    Outcome ImportError (List Nat) := do
  let (l, r) ← readIndexPairsIn k b prec min (length / 2) r
  if length % 2 ≠ 0 then do
    let (i, _) ← r.read prec
    let i ← addMinIn k b i min
    .ok (l ++ [i])
  else .ok l

/-- `read_triangles`, src/vertices.rs:196-218. -/
def readTrianglesIn (k : Nat) (b : Build) (ctx : DecodeCtx) (bytes : List UInt8) :
    Outcome ImportError (List Nat) := do
  let ((precision, length, min), rest) ← (readTrianglesHeader ctx).runSlice bytes
  readIndicesIn k b precision min length (.new (.slice rest))

/-- `read_default_triangles` into an empty vector, src/tmf_importer.rs:258-289. -/
def readDefaultTrianglesIn (k : Nat) (b : Build) (ctx : DecodeCtx) (bytes : List UInt8) :
    Outcome ImportError (List Nat) := do
  let ((precision, length, min), rest) ← (readTrianglesHeader ctx).runSlice bytes
  if precision = 0 then .ok (List.replicate length 0)
  else readIndicesIn k b precision min length (.new (.slice rest))

/-- `CustomDataSegment::read` on a slice, src/custom_data.rs:192-276. -/
def CustomSeg.readIn (k : Nat) (fo : FloatOps) (fb : F64Bytes fo) (b : Build) (ctx : DecodeCtx) (kind : SectionType)
    (bytes : List UInt8) : Outcome ImportError (CustomSeg fo.F) := do
  let (name, rest) ← readCustomName.runSlice bytes
  match kind with
  | .customIndex => do
    let l ← readTrianglesIn k b ctx rest
    .ok ⟨name, .index l (maxIndex l)⟩
  | .customInteger => do
    let l ← readTrianglesIn k b ctx rest
    .ok ⟨name, .integer l (maxIndex l)⟩
  | .customFloat => do
    let d ← readFloats fo fb rest
    .ok ⟨name, d⟩
  | .customColor => do
    let d ← readColors fo b rest
    .ok ⟨name, d⟩
  | _ => .panic

/-- The compression check and index reading of `decode_triangle_seg`, src/tmf_importer.rs:304-321. -/
def decodeIndicesIn (k : Nat) (b : Build) (ctx : DecodeCtx) (seg : EncodedSegment) : Outcome ImportError (List Nat) :=
  match seg.compression with
  | .none => readDefaultTrianglesIn k b ctx seg.data
  | .sequence => .err (.unsuportedCompressionType CompressionType.ommited.toU8)
  | .ommited => .err (.unsuportedCompressionType CompressionType.ommited.toU8)
  | .unalignedLZZ => .err (.unsuportedCompressionType CompressionType.unalignedLZZ.toU8)

/-- The shared-triangle branch of `decode`, src/tmf.rs:433-452. -/
def decodeSharedIn {F : Type} (k : Nat) (b : Build) (ctx : DecodeCtx) (seg : EncodedSegment) :
    Outcome ImportError (DecodedSegment F) :=
  match seg.data with
  | [] => .err eof
  | mask :: rest =>
    match seg.compression with
    | .none => do
      let l ← readDefaultTrianglesIn k b ctx rest
      .ok (.shared mask.toNat l)
    | c => .err (.unsuportedCompressionType c.toU8)

/-- `decode`, src/tmf.rs:406-453 with src/tmf_importer.rs:205-257,297-338. -/
def EncodedSegment.decodeIn (k : Nat) (fo : FloatOps) (fb : F64Bytes fo) (b : Build) (ctx : DecodeCtx)
    (seg : EncodedSegment) : Outcome ImportError (DecodedSegment fo.F) :=
  match seg.segType with
  | .invalid => .ok .nothing
  | .vertex => do let l ← readVertices fo fb seg.data; .ok (.vertex l)
  | .normal => do let l ← readNormals fo seg.data; .ok (.normal l)
  | .uv => do let l ← readUvs fo seg.data; .ok (.uv l)
  | .tangent => do let l ← readTangents fo seg.data; .ok (.tangent l)
  | .vertexTriangle => do let l ← decodeIndicesIn k b ctx seg; .ok (.triVertex l)
  | .normalTriangle => do let l ← decodeIndicesIn k b ctx seg; .ok (.triNormal l)
  | .uvTriangle => do let l ← decodeIndicesIn k b ctx seg; .ok (.triUv l)
  | .tangentTriangle => do let l ← decodeIndicesIn k b ctx seg; .ok (.triTangent l)
  | .customIndex | .customInteger | .customFloat | .customColor => do
    let s ← CustomSeg.readIn k fo fb b ctx seg.segType seg.data
    .ok (.custom s)
  | .sharedTriangle => decodeSharedIn k b ctx seg

/-- Decoding and applying the segments of one mesh, src/tmf_importer.rs:142-153. -/
def assembleMeshIn (k : Nat) (fo : FloatOps) (fb : F64Bytes fo) (b : Build) (ctx : DecodeCtx) (segs : List EncodedSegment) :
    Outcome ImportError (Mesh fo.F) := do
  let decoded ← collect (segs.map (EncodedSegment.decodeIn k fo fb b ctx))
  .ok (decoded.foldl DecodedSegment.apply .empty)

/-- `import_mesh`, src/tmf_importer.rs:122-154. -/
def importMeshIn (k : Nat) (fo : FloatOps) (fb : F64Bytes fo) (b : Build) (ctx : ImportCtx) :
    Prog (Mesh fo.F × List UInt8) := do
  let name ← readString
  let count ← Prog.readU16
  let segs ← Prog.replicate count (readSegment ctx)
  let mesh ← Prog.ofOutcome (assembleMeshIn k fo fb b ctx.decode segs)
  pure (mesh, name)

/-- `import`, src/tmf_importer.rs:177-188. -/
def importTmfIn (k : Nat) (fo : FloatOps) (fb : F64Bytes fo) (b : Build) : Prog (List (Mesh fo.F × List UInt8)) := do
  let ctx ← readHeader
  let count ← Prog.readU32
  Prog.replicate count (importMeshIn k fo fb b ctx)

/-- `read_tmf`, src/lib.rs:820-822. -/
def readTmfIn (k : Nat) (fo : FloatOps) (fb : F64Bytes fo) (b : Build) (s : Source) :
    Outcome ImportError (List (Mesh fo.F × List UInt8)) := do
  let (l, _) ← (importTmfIn k fo fb b).run s
  .ok l

/-! ### Writing -/

/-- Where `opt_tris` splits, src/tmf_exporter.rs:227-280: the second scan starts from
`IndexType::MAX`, line 255. -/
def trisSplitIn (k : Nat) (b : Build) (triangles : List Nat) : Outcome ExportError (Option Nat) := do
  let totalMax := if triangles = [] then 1 else maxIndex triangles
  let best ← scanMax b totalMax 0 0 triangles ⟨none, 0⟩
  match best.split with
  | some i => .ok (some i)
  | none => do
    let totalMin := if triangles = [] then 1 else minIndex triangles
    let best ← scanMin b totalMin 0 (2 ^ k - 1) triangles ⟨none, 0⟩
    .ok best.split

/-- `opt_tris`, src/tmf_exporter.rs:227-280, with fuel for the recursion. -/
def optTrisFuelIn (k : Nat) (b : Build) : Nat → List Nat → Outcome ExportError (List (List Nat))
  | 0, _ => .panic
  | fuel + 1, triangles => do
    let split ← trisSplitIn k b triangles
    match split with
    | some i => do
      let r1 ← optTrisFuelIn k b fuel (triangles.take i)
      let r2 ← optTrisFuelIn k b fuel (triangles.drop i)
      .ok (r1 ++ r2)
    | none => .ok [triangles]

/-- `opt_tris`, with a recursion depth of at most the length plus one. -/
def optTrisIn (k : Nat) (b : Build) (triangles : List Nat) : Outcome ExportError (List (List Nat)) :=
  optTrisFuelIn k b (triangles.length + 1) triangles

/-- `optimize`, src/tmf.rs:289-342. -/
def DecodedSegment.optimizeIn (k : Nat) (fo : FloatOps) (b : Build) :
    DecodedSegment fo.F → Outcome ExportError (List (DecodedSegment fo.F))
  | .triVertex l => do let ps ← optTrisIn k b l; .ok (ps.map .triVertex)
  | .triUv l => do let ps ← optTrisIn k b l; .ok (ps.map .triUv)
  | .triNormal l => do let ps ← optTrisIn k b l; .ok (ps.map .triNormal)
  | .triTangent l => do let ps ← optTrisIn k b l; .ok (ps.map .triTangent)
  | .vertex l => do let ps ← optVertices fo b l; .ok (ps.map .vertex)
  | .shared kind l => do let ps ← optTrisIn k b l; .ok (ps.map (.shared kind))
  | seg => .ok [seg]

/-- The segments of a mesh as they will be written, src/tmf_exporter.rs:91-107. -/
def encodeMeshIn (k : Nat) (fo : FloatOps) (fb : F64Bytes fo) (b : Build) (prec : PrecisionInfo fo.F) (m : Mesh fo.F) :
    Outcome ExportError (List EncodedSegment) := do
  let edge ← calcShortestEdge fo m.getVertexTriangles m.getVertices
  let merged ← mergeSegments (meshSegs m)
  let pieces ← Outcome.mapAll (DecodedSegment.optimizeIn k fo b) merged
  Outcome.mapAll (DecodedSegment.encode fo fb b prec edge) pieces.flatten

/-- `write_mesh`, src/tmf_exporter.rs:84-113. -/
def writeMeshIn (k : Nat) (fo : FloatOps) (fb : F64Bytes fo) (b : Build) (prec : PrecisionInfo fo.F)
    (mn : Mesh fo.F × List UInt8) : Writes Unit := do
  Writes.writeAll (leBytes 2 mn.2.length)
  Writes.writeAll mn.2
  let encoded ← Writes.compute (encodeMeshIn k fo fb b prec mn.1)
  Writes.writeAll (leBytes 2 encoded.length)
  Writes.forEach EncodedSegment.write encoded

/-- `write_tmf`, src/tmf_exporter.rs:114-125. -/
def writeTmfIn (k : Nat) (fo : FloatOps) (fb : F64Bytes fo) (b : Build) (prec : PrecisionInfo fo.F)
    (meshes : List (Mesh fo.F × List UInt8)) : Writes Unit := do
  writeHeader meshes.length
  Writes.forEach (writeMeshIn k fo fb b prec) meshes

/-- The whole file, as it arrives in a `Vec<u8>`. -/
def tmfBytesIn (k : Nat) (fo : FloatOps) (fb : F64Bytes fo) (b : Build) (prec : PrecisionInfo fo.F)
    (meshes : List (Mesh fo.F × List UInt8)) : Outcome ExportError (List UInt8) :=
  match (writeTmfIn k fo fb b prec meshes).run ⟨[], none, []⟩ with
  | (.ok (), s) => .ok s.data
  | (.err e, _) => .err e
  | (.panic, _) => .panic

/-! ### Checking -/

/-- `verify_vertices`, src/verify.rs:70-90: the length of the array is cut down to the type of an
index. -/
def verifyVerticesIn {F : Type} (k : Nat) (m : Mesh F) : Option (Integrity F) :=
  match m.vertices with
  | none => if m.vertexTriangles.isSome then some .vertexArrayMissing else none
  | some vertices =>
    match m.vertexTriangles with
    | some triangles =>
      match indicesInsideArray triangles (vertices.length % 2 ^ k) with
      | some index => some (.indexOutsideVertexArray index (vertices.length % 2 ^ k))
      | none => none
    | none => none

/-- `verify_uvs`, src/verify.rs:91-118. -/
def verifyUvsIn (k : Nat) (fo : FloatOps) (m : Mesh fo.F) : Option (Integrity fo.F) :=
  match m.uvs with
  | none => if m.uvTriangles.isSome then some .uvArrayMissing else none
  | some uvs =>
    match uvLoop fo uvs with
    | some e => some e
    | none =>
      match m.uvTriangles with
      | some triangles =>
        match indicesInsideArray triangles (uvs.length % 2 ^ k) with
        | some index => some (.indexOutsideUvArray index (uvs.length % 2 ^ k))
        | none => none
      | none => none

/-- `verify_normals`, src/verify.rs:120-149. -/
def verifyNormalsIn (k : Nat) (fo : FloatOps) (m : Mesh fo.F) : Option (Integrity fo.F) :=
  match m.normals with
  | none => if m.normalTriangles.isSome then some .normalArrayMissing else none
  | some normals =>
    if normals.any (notUnit fo) then some .normalsNotNormalized
    else
      match m.normalTriangles with
      | some triangles =>
        match indicesInsideArray triangles (normals.length % 2 ^ k) with
        | some index => some (.indexOutsideNormalArray index (normals.length % 2 ^ k))
        | none => none
      | none => none

/-- `verify_tmf_mesh`, src/verify.rs:150-173. -/
def Mesh.verifyIn (k : Nat) (fo : FloatOps) (m : Mesh fo.F) : Outcome (IntegrityStatus fo.F) Unit :=
  let errors := (verifyVerticesIn k m).toList ++ (verifyNormalsIn k fo m).toList ++ (verifyUvsIn k fo m).toList
  match errors with
  | [] => .ok ()
  | [e] => .err (.single e)
  | es => .err (.composite es)

end Tmf
