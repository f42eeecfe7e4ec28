import Verif.Model.Obj
import Verif.Model.Export
/-
Reading and writing .obj text through `std::io::BufReader` and `std::io::BufWriter` (src/obj.rs:28-41,
112-237): readers that deliver text in pieces or fail, targets that take text in pieces or fail, and what
has been written when a mesh is refused.
-/

namespace Tmf

/-! ### Reading -/

/-- `std::io::BufReader`: what has been read ahead, and the reader behind it. -/
structure BufReader where
  buf : List UInt8
  src : Source

/-- `BufReader::fill_buf`: reads only if nothing is left, at most 8192 bytes (the default capacity). -/
def BufReader.fill (r : BufReader) : Outcome IoError BufReader :=
  if r.buf = [] then
    match r.src.read 8192 with
    | .ok (chunk, src) => .ok ⟨chunk, src⟩
    | .err _ => .err .device
    | .panic => .panic
  else .ok r

/-- The bytes up to and with the first line feed, and the rest. -/
def cutLine : List UInt8 → Option (List UInt8 × List UInt8)
  | [] => none
  | c :: rest =>
    if c = 10 then some ([c], rest)
    else match cutLine rest with
      | some (a, r) => some (c :: a, r)
      | none => none

/-- `BufRead::read_until` with a line feed; `acc` is what has been collected. Every turn but the last uses up
at least one byte, which bounds the fuel. -/
def BufReader.readUntil : (fuel : Nat) → (acc : List UInt8) → BufReader → Outcome IoError (List UInt8 × BufReader)
  | 0, _, _ => .panic
  | fuel + 1, acc, r =>
    match r.fill with
    | .ok r =>
      match cutLine r.buf with
      | some (a, rest) => .ok (acc ++ a, ⟨rest, r.src⟩)
      | none => if r.buf = [] then .ok (acc, r) else BufReader.readUntil fuel (acc ++ r.buf) ⟨[], r.src⟩
    | .err e => .err e
    | .panic => .panic

/-- Everything that may still come. -/
def BufReader.pending (r : BufReader) : List UInt8 := r.buf ++ r.src.bytes

/-- What `Lines::next` removes from the end of a line. -/
def stripLine (l : List UInt8) : List UInt8 := if l.getLast? = some 10 then stripCr l.dropLast else l

variable {fo : FloatOps}

/-- The loop of `read_from_obj`, src/obj.rs:34-40, with `Lines::next` in it. `parseLine` reports lines that are
not UTF-8. Every line but the last uses up at least one byte. -/
def readObjLines (ft : FloatText fo) (face : PushFace fo.F) (b : Build) : (fuel : Nat) → BufReader → Importer fo.F →
    Outcome IoError (List (Mesh fo.F × List UInt8))
  | 0, _, _ => .panic
  | fuel + 1, r, oi =>
    match r.readUntil (r.pending.length + 1) [] with
    | .ok (line, r) =>
      if line = [] then do
        let m ← (oi.finish b).widen
        .ok [m]
      else do
        let (m, oi) ← parseLine ft face b (stripLine line) oi
        let ms ← readObjLines ft face b fuel r oi
        .ok (m.toList ++ ms)
    | .err e => .err e
    | .panic => .panic

/-- `read_from_obj`, src/obj.rs:28-41, on any reader. -/
def readObjFrom (ft : FloatText fo) (face : PushFace fo.F) (b : Build) (s : Source) :
    Outcome IoError (List (Mesh fo.F × List UInt8)) :=
  readObjLines ft face b (s.bytes.length + 1) ⟨[], s⟩ .new

/-! ### Writing -/

/-- Text written with `write!` and `writeln!`, one entry per call, and how the computation ended. -/
structure TextOut (α : Type) where
  texts : List (List UInt8)
  result : Outcome IoError α

namespace TextOut

def bind {α β : Type} (w : TextOut α) (f : α → TextOut β) : TextOut β :=
  match w.result with
  | .ok a => ⟨w.texts ++ (f a).texts, (f a).result⟩
  | .err e => ⟨w.texts, .err e⟩
  | .panic => ⟨w.texts, .panic⟩

instance : Monad TextOut where
  pure a := ⟨[], .ok a⟩
  bind := TextOut.bind

/-- `write!(w, ..)?` -/
def write (text : List UInt8) : TextOut Unit := ⟨[text], .ok ()⟩

/-- `write!(w, ..)?` under a condition. -/
def writeIf (c : Bool) (text : List UInt8) : TextOut Unit := if c then write text else ⟨[], .ok ()⟩

/-- A computation that writes nothing. -/
def compute {α : Type} (x : Outcome IoError α) : TextOut α := ⟨[], x⟩

/-- A `for` loop. -/
def forEach {α : Type} (f : α → TextOut Unit) : List α → TextOut Unit
  | [] => ⟨[], .ok ()⟩
  | a :: l => do
    f a
    forEach f l

end TextOut

/-- `a[i] + offset`, src/obj.rs:186,191,198. -/
def shiftedIndex (b : Build) (l : List Nat) (i offset : Nat) : Outcome IoError Nat := do
  let x ← indexAt l i
  addU32 b x offset

/-- The uv part of a corner, src/obj.rs:189-196. -/
def uvOut (b : Build) (uvs normals : Option (List Nat)) (offset i : Nat) : TextOut Unit :=
  match uvs with
  | some uvs => do
    let x ← TextOut.compute (shiftedIndex b uvs i offset)
    TextOut.write (47 :: decimal x)
  | none => TextOut.writeIf normals.isSome [47]

/-- The normal part of a corner, src/obj.rs:197-199. -/
def normalOut (b : Build) (normals : Option (List Nat)) (offset i : Nat) : TextOut Unit :=
  match normals with
  | some normals => do
    let x ← TextOut.compute (shiftedIndex b normals i offset)
    TextOut.write (47 :: decimal x)
  | none => ⟨[], .ok ()⟩

/-- One corner, src/obj.rs:181-205. -/
def cornerOut (b : Build) (v : List Nat) (u n : Option (List Nat)) (offset : Nat × Nat × Nat) (i : Nat) : TextOut Unit := do
  TextOut.writeIf (i % 3 == 0) (ascii "f ")
  let x ← TextOut.compute (shiftedIndex b v i offset.1)
  TextOut.write (decimal x)
  uvOut b u n offset.2.1 i
  normalOut b n offset.2.2 i
  TextOut.write (if i % 3 = 2 then [10] else [32])

/-- The checks and the faces, src/obj.rs:144-219. -/
def facesOut (b : Build) (m : Mesh fo.F) (offset : Nat × Nat × Nat) : TextOut (Nat × Nat × Nat) :=
  match m.vertexTriangles with
  | none =>
    if m.normalTriangles.isSome ∨ m.uvTriangles.isSome then ⟨[], .err .other⟩ else ⟨[], .ok (0, 0, 0)⟩
  | some v =>
    if lengthFits m.normalTriangles v.length && lengthFits m.uvTriangles v.length then do
      TextOut.forEach (cornerOut b v m.uvTriangles m.normalTriangles offset) (List.range v.length)
      pure ((m.vertices.getD []).length % 2 ^ 32, (m.uvs.getD []).length % 2 ^ 32, (m.normals.getD []).length % 2 ^ 32)
    else ⟨[], .err .other⟩

/-- `save_obj`, src/obj.rs:112-220. -/
def saveObjOut (ft : FloatText fo) (b : Build) (m : Mesh fo.F) (offset : Nat × Nat × Nat) (name : List UInt8) :
    TextOut (Nat × Nat × Nat) := do
  TextOut.write (ascii "o " ++ name ++ [10])
  TextOut.forEach (fun x => TextOut.write (vec3Line ft (ascii "v") x)) (m.vertices.getD [])
  TextOut.forEach (fun x => TextOut.write (vec3Line ft (ascii "vn") x)) (m.normals.getD [])
  TextOut.forEach (fun x => TextOut.write (vec2Line ft x)) (m.uvs.getD [])
  facesOut b m offset

/-- `+=` on the three offsets, src/obj.rs:231-233. -/
def addOffsets (b : Build) (offset counts : Nat × Nat × Nat) : Outcome IoError (Nat × Nat × Nat) := do
  let o0 ← addU32 b offset.1 counts.1
  let o1 ← addU32 b offset.2.1 counts.2.1
  let o2 ← addU32 b offset.2.2 counts.2.2
  .ok (o0, o1, o2)

/-- The loop of `write_obj`, src/obj.rs:229-234. -/
def writeObjLoopOut (ft : FloatText fo) (b : Build) : List (Mesh fo.F × List UInt8) → (offset : Nat × Nat × Nat) → TextOut Unit
  | [], _ => ⟨[], .ok ()⟩
  | (m, name) :: rest, offset => do
    let counts ← saveObjOut ft b m offset name
    let offset ← TextOut.compute (addOffsets b offset counts)
    writeObjLoopOut ft b rest offset

/-- What `write_obj` hands to its buffer, src/obj.rs:222-237. -/
def writeObjOut (ft : FloatText fo) (b : Build) (meshes : List (Mesh fo.F × List UInt8)) : TextOut Unit := do
  TextOut.write (ascii "s 1\n")
  writeObjLoopOut ft b meshes (1, 1, 1)

/-- `std::io::BufWriter`: what waits to be written, and the target. -/
structure BufWriter where
  buf : List UInt8
  sink : Sink

/-- `BufWriter::flush_buf`: calls `write` until nothing is left; what was not taken stays in the buffer. -/
def BufWriter.flushLoop : (fuel : Nat) → List UInt8 → Sink → Outcome IoError Unit × BufWriter
  | _, [], s => (.ok (), ⟨[], s⟩)
  | 0, x :: xs, s => (.err .device, ⟨x :: xs, s⟩)
  | fuel + 1, x :: xs, s =>
    match s.write (x :: xs) with
    | .ok (n, s) => flushLoop fuel ((x :: xs).drop n) s
    | .err _ => (.err .device, ⟨x :: xs, s⟩)
    | .panic => (.panic, ⟨x :: xs, s⟩)

def BufWriter.flushBuf (w : BufWriter) : Outcome IoError Unit × BufWriter := flushLoop w.buf.length w.buf w.sink

/-- The end of `write_all`: text as long as the buffer goes straight to the target, other text into the buffer,
which has room for it. -/
def BufWriter.put (w : BufWriter) (text : List UInt8) : Outcome IoError Unit × BufWriter :=
  if 8192 ≤ text.length then
    match w.sink.writeAll text with
    | (.ok (), s) => (.ok (), ⟨w.buf, s⟩)
    | (.err _, s) => (.err .device, ⟨w.buf, s⟩)
    | (.panic, s) => (.panic, ⟨w.buf, s⟩)
  else (.ok (), ⟨w.buf ++ text, w.sink⟩)

/-- `BufWriter::write_all` with the default capacity of 8192 bytes: the buffer is emptied first if the text does not
fit. -/
def BufWriter.writeAll (w : BufWriter) (text : List UInt8) : Outcome IoError Unit × BufWriter :=
  if w.buf.length + text.length ≤ 8192 then w.put text
  else
    match w.flushBuf with
    | (.ok (), w) => w.put text
    | (.err e, w) => (.err e, w)
    | (.panic, w) => (.panic, w)

/-- Several calls of `write_all`, up to the first failure. -/
def BufWriter.writeChunks : List (List UInt8) → BufWriter → Outcome IoError Unit × BufWriter
  | [], w => (.ok (), w)
  | c :: cs, w =>
    match w.writeAll c with
    | (.ok (), w) => writeChunks cs w
    | (.err e, w) => (.err e, w)
    | (.panic, w) => (.panic, w)

/-- Dropping a `BufWriter` empties the buffer and ignores errors, also after an error or a panic of the caller. -/
def BufWriter.drop (w : BufWriter) : Sink := w.flushBuf.2.sink

/-- How a computation that writes into a `BufWriter` and flushes it at the end (src/obj.rs:226-236) ends, and
what its target holds. `pieces` is how `write!` cuts its text into calls of `write_all`. -/
def TextOut.runBuffered (w : TextOut Unit) (pieces : List UInt8 → List (List UInt8)) (s : Sink) : Outcome IoError Unit × Sink :=
  match BufWriter.writeChunks (w.texts.flatMap pieces) ⟨[], s⟩ with
  | (.ok (), bw) =>
    match w.result with
    | .ok () => (bw.flushBuf.1, bw.flushBuf.2.drop)
    | .err e => (.err e, bw.drop)
    | .panic => (.panic, bw.drop)
  | (.err e, bw) => (.err e, bw.drop)
  | (.panic, bw) => (.panic, bw.drop)

/-- `write_obj`, src/obj.rs:222-237, on any target. `Write::flush` of the target is not modelled. -/
def writeObjTo (ft : FloatText fo) (b : Build) (pieces : List UInt8 → List (List UInt8)) (meshes : List (Mesh fo.F × List UInt8))
    (s : Sink) : Outcome IoError Unit × Sink :=
  (writeObjOut ft b meshes).runBuffered pieces s

end Tmf
