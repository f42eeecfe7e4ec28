import Verif.Model.Export
/-
Reading files, src/tmf_importer.rs:1-204 and src/tmf.rs:139-156. Everything is a `Prog`, i.e.
input is consumed only through `read_exact`.
-/

namespace Tmf

/-- A UTF-8 continuation byte. -/
def isCont (c : UInt8) : Bool := 128 ≤ c.toNat && c.toNat < 192

/-- `std::str::from_utf8(..).is_ok()`: well-formed UTF-8 (Unicode standard, table 3-7). -/
def validUtf8 : List UInt8 → Bool
  | [] => true
  | c0 :: l0 =>
    if c0.toNat < 128 then validUtf8 l0
    else match l0 with
      | [] => false
      | c1 :: l1 =>
        if 194 ≤ c0.toNat ∧ c0.toNat < 224 then isCont c1 && validUtf8 l1
        else match l1 with
          | [] => false
          | c2 :: l2 =>
            if 224 ≤ c0.toNat ∧ c0.toNat < 240 then
              isCont c1 && isCont c2 && (c0.toNat ≠ 224 || 160 ≤ c1.toNat)
                && (c0.toNat ≠ 237 || c1.toNat < 160) && validUtf8 l2
            else match l2 with
              | [] => false
              | c3 :: l3 =>
                240 ≤ c0.toNat && c0.toNat < 245 && isCont c1 && isCont c2 && isCont c3
                  && (c0.toNat ≠ 240 || 144 ≤ c1.toNat) && (c0.toNat ≠ 244 || c1.toNat < 144)
                  && validUtf8 l3

/-- `read_string`, src/tmf_importer.rs:66-77. -/
def readString : Prog (List UInt8) := do
  let n ← Prog.readU16
  let bytes ← Prog.readBytes n
  if validUtf8 bytes then pure bytes else .fail (.io .other)

/-- `TMFImportContext`, src/tmf_importer.rs:52-57, by `init_header`, lines 115-121: all three
choices depend on `min_minor > 1` only. -/
structure ImportCtx where
  /-- `SegLenWidth::U32` and `SegTypeWidth::U8` (else `U64` and `U16`) -/
  narrow : Bool
  readMin : Bool
deriving Repr, DecidableEq

def ImportCtx.ofMinMinor (minMinor : Nat) : ImportCtx := ⟨decide (minMinor > 1), decide (minMinor > 1)⟩

def ImportCtx.decode (ctx : ImportCtx) : DecodeCtx := ⟨ctx.readMin⟩

/-- `read_tmf_header`, src/tmf_importer.rs:78-100, followed by `init_header`. -/
def readHeader : Prog ImportCtx := do
  let m ← Prog.readBytes 3
  if m ≠ magic then .fail .notTMFFile
  else do
    let _major ← Prog.readU16
    let _minor ← Prog.readU16
    let minMajor ← Prog.readU16
    let minMinor ← Prog.readU16
    if minMajor > 0 ∨ (minMajor = 0 ∧ minMinor > 2) then .fail .newerVersionRequired
    else pure (.ofMinMinor minMinor)

/-- `SegTypeWidth::read`, src/tmf_importer.rs:45-50. -/
def ImportCtx.readType (ctx : ImportCtx) : Prog SectionType :=
  if ctx.narrow then do let n ← Prog.readU8; pure (SectionType.fromU8 n)
  else do let n ← Prog.readU16; pure (SectionType.fromU16 n)

/-- `SegLenWidth::read`, src/tmf_importer.rs:25-30. -/
def ImportCtx.readLength (ctx : ImportCtx) : Prog Nat := if ctx.narrow then Prog.readU32 else Prog.readU64

/-- `EncodedSegment::read`, src/tmf.rs:139-156. -/
def readSegment (ctx : ImportCtx) : Prog EncodedSegment := do
  let t ← ctx.readType
  let len ← ctx.readLength
  if len > MAX_SEG_SIZE then .fail .segmentTooLong
  else do
    let c ← Prog.readU8
    let c ← Prog.ofOutcome (CompressionType.fromU8 c)
    let data ← Prog.readBytes len
    pure ⟨t, c, data⟩

/-- `for _ in 0..n { push(read()?) }` -/
def Prog.replicate {α : Type} (n : Nat) (p : Prog α) : Prog (List α) :=
  match n with
  | 0 => pure []
  | n + 1 => do
    let a ← p
    let l ← Prog.replicate n p
    pure (a :: l)

/-- `collect::<Result<Vec<_>, _>>()` of the results of tasks that all ran: a panic in any of them
is a panic of the whole, otherwise the first error counts. -/
def collect {ε α : Type} (l : List (Outcome ε α)) : Outcome ε (List α) :=
  if l.any (fun x => match x with | .panic => true | _ => false) then .panic
  else Outcome.mapAll id l

/-- `join_all` over tasks that each compute one result, src/tmf_importer.rs:134-142: a finished
task leaves its result in the slot of its position. `order` lists the tasks as they finish; the
results are available once every slot is filled. -/
def joinAll {α : Type} (results : List α) (order : List Nat) : Option (List α) :=
  let slots := order.foldl (fun slots i => slots.set i results[i]?) (List.replicate results.length none)
  if slots.all Option.isSome then some (slots.filterMap id) else none

/-- Decoding and applying the segments of one mesh, src/tmf_importer.rs:142-153. -/
def assembleMesh (fo : FloatOps) (fb : F64Bytes fo) (b : Build) (ctx : DecodeCtx) (segs : List EncodedSegment) :
    Outcome ImportError (Mesh fo.F) := do
  let decoded ← collect (segs.map (EncodedSegment.decode fo fb b ctx))
  .ok (decoded.foldl DecodedSegment.apply .empty)

/-- The same with the decoding tasks finishing in the given order. -/
def assembleInOrder (fo : FloatOps) (fb : F64Bytes fo) (b : Build) (ctx : DecodeCtx) (order : List Nat)
    (segs : List EncodedSegment) : Option (Outcome ImportError (Mesh fo.F)) := do
  let results ← joinAll (segs.map (EncodedSegment.decode fo fb b ctx)) order
  some (do
    let decoded ← collect results
    .ok (decoded.foldl DecodedSegment.apply .empty))

/-- `import_mesh`, src/tmf_importer.rs:122-154: all segments are read before any is decoded. -/
def importMesh (fo : FloatOps) (fb : F64Bytes fo) (b : Build) (ctx : ImportCtx) : Prog (Mesh fo.F × List UInt8) := do
  let name ← readString
  let count ← Prog.readU16
  let segs ← Prog.replicate count (readSegment ctx)
  let mesh ← Prog.ofOutcome (assembleMesh fo fb b ctx.decode segs)
  pure (mesh, name)

/-- `import`, src/tmf_importer.rs:177-188. -/
def importTmf (fo : FloatOps) (fb : F64Bytes fo) (b : Build) : Prog (List (Mesh fo.F × List UInt8)) := do
  let ctx ← readHeader
  let count ← Prog.readU32
  Prog.replicate count (importMesh fo fb b ctx)

/-- `read_tmf`, src/lib.rs:820-822. -/
def readTmf (fo : FloatOps) (fb : F64Bytes fo) (b : Build) (s : Source) :
    Outcome ImportError (List (Mesh fo.F × List UInt8)) := do
  let (l, _) ← (importTmf fo fb b).run s
  .ok l

/-- `read_tmf_one`, src/lib.rs:852-864. -/
def readTmfOne (fo : FloatOps) (fb : F64Bytes fo) (b : Build) (s : Source) :
    Outcome ImportError (Mesh fo.F × List UInt8) := do
  let meshes ← readTmf fo fb b s
  match meshes with
  | [] => .err .noMeshes
  | [m] => .ok m
  | _ :: _ :: _ => .err .tooManyMeshes

end Tmf
