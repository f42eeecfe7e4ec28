import Verif.Model.Segments
/-
Writing files, src/tmf_exporter.rs:10-197.

The exporter calls `write_all` on its target between computations that may panic. It is
modelled as the sequence of buffers handed to `write_all` and the result after them; `run`
then performs the writes on a target that may take only part of a buffer at a time and
eventually refuse.
-/

namespace Tmf

/-- The buffers passed to `write_all`, in order, and what happens after the last one (if the
target accepted all of them). -/
structure Writes (α : Type) where
  chunks : List (List UInt8)
  result : Outcome ExportError α

namespace Writes

def bind {α β : Type} (w : Writes α) (f : α → Writes β) : Writes β :=
  match w.result with
  | .ok a => ⟨w.chunks ++ (f a).chunks, (f a).result⟩
  | .err e => ⟨w.chunks, .err e⟩
  | .panic => ⟨w.chunks, .panic⟩

instance : Monad Writes where
  pure a := ⟨[], .ok a⟩
  bind := Writes.bind

/-- `w.write_all(buf)?` -/
def writeAll (buf : List UInt8) : Writes Unit := ⟨[buf], .ok ()⟩

/-- A computation that writes nothing. -/
def compute {α : Type} (x : Outcome ExportError α) : Writes α := ⟨[], x⟩

end Writes

/-- A `std::io::Write`: what arrived so far, how many more bytes it accepts (`none`: any
number) and a schedule of partial writes as in `Source`. -/
structure Sink where
  data : List UInt8
  room : Option Nat
  sched : List Nat
deriving Repr, DecidableEq

/-- How many bytes one call of `write` with a buffer of length `n` takes. -/
def Sink.chunk (s : Sink) (n : Nat) : Nat :=
  let n := match s.sched with
    | [] => n
    | c :: _ => min n (max 1 c)
  match s.room with
  | none => n
  | some k => min n k

/-- One call of `Write::write`: takes part of the buffer and reports how much (`Ok(n)`). A full
target reports an error (or `Ok(0)`, which `write_all` turns into an error as well). -/
def Sink.write (s : Sink) (buf : List UInt8) : Outcome ExportError (Nat × Sink) :=
  if s.room = some 0 then .err .io
  else
    let n := s.chunk buf.length
    .ok (n, ⟨s.data ++ buf.take n, s.room.map (· - n), s.sched.tail⟩)

/-- `Write::write_all`: call `write` until the buffer is used up; the target keeps what it took
even if the call fails. `fuel` bounds the number of calls. -/
def Sink.writeAllLoop : (fuel : Nat) → List UInt8 → Sink → Outcome ExportError Unit × Sink
  | _, [], s => (.ok (), s)
  | 0, _ :: _, s => (.err .io, s)
  | fuel + 1, x :: xs, s =>
    match s.write (x :: xs) with
    | .ok (n, s) => writeAllLoop fuel ((x :: xs).drop n) s
    | .err e => (.err e, s)
    | .panic => (.panic, s)

def Sink.writeAll (s : Sink) (buf : List UInt8) : Outcome ExportError Unit × Sink :=
  Sink.writeAllLoop buf.length buf s

/-- All `write_all` calls in order, stopping at the first failure. -/
def Sink.writeChunks : List (List UInt8) → Sink → Outcome ExportError Unit × Sink
  | [], s => (.ok (), s)
  | c :: cs, s =>
    match s.writeAll c with
    | (.ok (), s) => writeChunks cs s
    | (.err e, s) => (.err e, s)
    | (.panic, s) => (.panic, s)

/-- Run an exporter against a target. -/
def Writes.run {α : Type} (w : Writes α) (s : Sink) : Outcome ExportError α × Sink :=
  match s.writeChunks w.chunks with
  | (.ok (), s) => (w.result, s)
  | (.err e, s) => (.err e, s)
  | (.panic, s) => (.panic, s)

/-- `distance`, src/utilis.rs:63-68. -/
def distance (fo : FloatOps) (a c : Vec3 fo.F) : fo.F :=
  let dx := fo.sub a.1 c.1
  let dy := fo.sub a.2.1 c.2.1
  let dz := fo.sub a.2.2 c.2.2
  fo.sqrt (fo.add (fo.add (fo.mul dx dx) (fo.mul dy dy)) (fo.mul dz dz))

/-- `vertices[i]`. -/
def index {ε α : Type} (l : List α) (i : Nat) : Outcome ε α :=
  match l[i]? with
  | some a => .ok a
  | none => .panic

/-- The loop of `calc_shortest_edge`, src/tmf_exporter.rs:39-53; an incomplete last triangle is
ignored. -/
def shortestEdgeLoop (fo : FloatOps) (vertices : List (Vec3 fo.F)) : List Nat → fo.F → Outcome ExportError fo.F
  | i0 :: i1 :: i2 :: rest, acc => do
    let v0 ← index vertices i0
    let v1 ← index vertices i1
    let v2 ← index vertices i2
    let d1 := distance fo v0 v1
    let d2 := distance fo v1 v2
    let d3 := distance fo v2 v0
    shortestEdgeLoop fo vertices rest (fo.min acc (fo.min d1 (fo.min d2 d3)))
  | _, acc => .ok acc

/-- The assertion at the end of `calc_shortest_edge`, src/tmf_exporter.rs:59-63. -/
def assertFinite (fo : FloatOps) (x : fo.F) : Outcome ExportError fo.F :=
  if fo.isFinite x then .ok x else .panic

/-- `calc_shortest_edge`, src/tmf_exporter.rs:23-64. -/
def calcShortestEdge (fo : FloatOps) (triangles : Option (List Nat)) (vertices : Option (List (Vec3 fo.F))) :
    Outcome ExportError fo.F :=
  match triangles with
  | some [] => .ok (fo.lit 1 1)
  | some tris =>
    match vertices with
    | none => .ok (fo.lit 1 1)
    | some vs => do
      let e ← shortestEdgeLoop fo vs tris fo.infinity
      assertFinite fo e
  | none => assertFinite fo (fo.lit 1 1)

/-- `MeshSegIter`, src/tmf_exporter.rs:141-197. -/
def meshSegs {F : Type} (m : Mesh F) : List (DecodedSegment F) :=
  (m.getVertices.map .vertex).toList ++ (m.getNormals.map .normal).toList ++ (m.getUvs.map .uv).toList
    ++ (m.getVertexTriangles.map .triVertex).toList ++ (m.getNormalTriangles.map .triNormal).toList
    ++ (m.getUvTriangles.map .triUv).toList ++ (m.getTangents.map .tangent).toList
    ++ (m.getTangentTriangles.map .triTangent).toList ++ m.customData.map .custom

/-- The inner loop of `merge_segments`, src/tmf_exporter.rs:76-78: merge `seg` with each of the
remaining segments from front to back. The remaining segments are kept last first (as `pop`
takes them), so the front is the end of the list. -/
def mergeInto {F : Type} (seg : DecodedSegment F) : List (DecodedSegment F) →
    Outcome ExportError (DecodedSegment F × List (DecodedSegment F))
  | [] => .ok (seg, [])
  | other :: rest => do
    let (seg, rest) ← mergeInto seg rest
    let (seg, other) ← seg.merge other
    .ok (seg, other :: rest)

/-- The outer loop of `merge_segments`, src/tmf_exporter.rs:74-81, on the remaining segments last
first. `fuel` is the number of segments. -/
def mergeLoop {F : Type} : Nat → List (DecodedSegment F) → Outcome ExportError (List (DecodedSegment F))
  | _, [] => .ok []
  | 0, _ :: _ => .panic
  | fuel + 1, seg :: rest =>
    if seg.isSomething then do
      let (seg, rest) ← mergeInto seg rest
      let out ← mergeLoop fuel rest
      .ok (seg :: out)
    else mergeLoop fuel rest

/-- `merge_segments`, src/tmf_exporter.rs:71-83. -/
def mergeSegments {F : Type} (segs : List (DecodedSegment F)) : Outcome ExportError (List (DecodedSegment F)) :=
  mergeLoop segs.length segs.reverse

/-- The segments of a mesh as they will be written, src/tmf_exporter.rs:91-107. `join_all` runs
every encoder; none can return an error (they write to a `Vec`), and a panic in any of them is a
panic of the whole. -/
def encodeMesh (fo : FloatOps) (fb : F64Bytes fo) (b : Build) (prec : PrecisionInfo fo.F) (m : Mesh fo.F) :
    Outcome ExportError (List EncodedSegment) := do
  let edge ← calcShortestEdge fo m.getVertexTriangles m.getVertices
  let merged ← mergeSegments (meshSegs m)
  let pieces ← Outcome.mapAll (DecodedSegment.optimize fo b) merged
  Outcome.mapAll (DecodedSegment.encode fo fb b prec edge) pieces.flatten

/-- `EncodedSegment::write`, src/tmf.rs:132-138. -/
def EncodedSegment.write (seg : EncodedSegment) : Writes Unit := do
  Writes.writeAll (leBytes 1 seg.segType.toU8)
  Writes.writeAll (leBytes 4 seg.data.length)
  Writes.writeAll (leBytes 1 seg.compression.toU8)
  Writes.writeAll seg.data

/-- Write every element in order. -/
def Writes.forEach {α : Type} (f : α → Writes Unit) : List α → Writes Unit
  | [] => pure ()
  | a :: l => do
    f a
    forEach f l

/-- `write_mesh`, src/tmf_exporter.rs:84-113, with `write_mesh_name`, lines 66-70. -/
def writeMesh (fo : FloatOps) (fb : F64Bytes fo) (b : Build) (prec : PrecisionInfo fo.F)
    (mn : Mesh fo.F × List UInt8) : Writes Unit := do
  Writes.writeAll (leBytes 2 mn.2.length)
  Writes.writeAll mn.2
  let encoded ← Writes.compute (encodeMesh fo fb b prec mn.1)
  Writes.writeAll (leBytes 2 encoded.length)
  Writes.forEach EncodedSegment.write encoded

/-- "TMF" -/
def magic : List UInt8 := [84, 77, 70]

/-- `write_tmf_header`, src/tmf_exporter.rs:126-136; the versions are 0.2 and 0.2
(src/lib.rs:56-59). -/
def writeHeader (meshCount : Nat) : Writes Unit := do
  Writes.writeAll magic
  Writes.writeAll (leBytes 2 0)
  Writes.writeAll (leBytes 2 2)
  Writes.writeAll (leBytes 2 0)
  Writes.writeAll (leBytes 2 2)
  Writes.writeAll (leBytes 4 meshCount)

/-- `write_tmf`, src/tmf_exporter.rs:114-125, called from src/lib.rs:773-779. -/
def writeTmf (fo : FloatOps) (fb : F64Bytes fo) (b : Build) (prec : PrecisionInfo fo.F)
    (meshes : List (Mesh fo.F × List UInt8)) : Writes Unit := do
  writeHeader meshes.length
  Writes.forEach (writeMesh fo fb b prec) meshes

/-- The whole file, as it arrives in a `Vec<u8>`. -/
def tmfBytes (fo : FloatOps) (fb : F64Bytes fo) (b : Build) (prec : PrecisionInfo fo.F)
    (meshes : List (Mesh fo.F × List UInt8)) : Outcome ExportError (List UInt8) :=
  match (writeTmf fo fb b prec meshes).run ⟨[], none, []⟩ with
  | (.ok (), s) => .ok s.data
  | (.err e, _) => .err e
  | (.panic, _) => .panic

end Tmf
