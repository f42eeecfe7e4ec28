import Verif.Model.ObjIo
import Verif.Model.IndexWidthObj
/-
Reading and writing .obj text through `std::io::BufReader` and `std::io::BufWriter` as in `Model/ObjIo`, for
a type of indices with `w` bits (features `long_indices` and `short_indices`, src/lib.rs:61-70).
-/

namespace Tmf

variable {fo : FloatOps}

/-- The loop of `read_from_obj`, src/obj.rs:34-40, with `Lines::next` in it. `parseLine` reports lines that are
not UTF-8. Every line but the last uses up at least one byte. -/
def readObjLinesIn (w : Nat) (ft : FloatText fo) (face : PushFace fo.F) (b : Build) : (fuel : Nat) → BufReader → Importer fo.F →
    Outcome IoError (List (Mesh fo.F × List UInt8))
  | 0, _, _ => .panic
  | fuel + 1, r, oi =>
    match r.readUntil (r.pending.length + 1) [] with
    | .ok (line, r) =>
      if line = [] then do
        let m ← (oi.finishIn w b).widen
        .ok [m]
      else do
        let (m, oi) ← parseLineIn w ft face b (stripLine line) oi
        let ms ← readObjLinesIn w ft face b fuel r oi
        .ok (m.toList ++ ms)
    | .err e => .err e
    | .panic => .panic

/-- `read_from_obj`, src/obj.rs:28-41, on any reader. -/
def readObjFromIn (w : Nat) (ft : FloatText fo) (face : PushFace fo.F) (b : Build) (s : Source) :
    Outcome IoError (List (Mesh fo.F × List UInt8)) :=
  readObjLinesIn w ft face b (s.bytes.length + 1) ⟨[], s⟩ .new

/-- `a[i] + offset`, src/obj.rs:186,191,198. -/
def shiftedIndexIn (w : Nat) (b : Build) (l : List Nat) (i offset : Nat) : Outcome IoError Nat := do
  let x ← indexAt l i
  addUIntIn w b x offset

/-- The uv part of a corner, src/obj.rs:189-196. -/
def uvOutIn (w : Nat) (b : Build) (uvs normals : Option (List Nat)) (offset i : Nat) : TextOut Unit :=
  match uvs with
  | some uvs => do
    let x ← TextOut.compute (shiftedIndexIn w b uvs i offset)
    TextOut.write (47 :: decimal x)
  | none => TextOut.writeIf normals.isSome [47]

/-- The normal part of a corner, src/obj.rs:197-199. -/
def normalOutIn (w : Nat) (b : Build) (normals : Option (List Nat)) (offset i : Nat) : TextOut Unit :=
  match normals with
  | some normals => do
    let x ← TextOut.compute (shiftedIndexIn w b normals i offset)
    TextOut.write (47 :: decimal x)
  | none => ⟨[], .ok ()⟩

/-- One corner, src/obj.rs:181-205. -/
def cornerOutIn (w : Nat) (b : Build) (v : List Nat) (u n : Option (List Nat)) (offset : Nat × Nat × Nat) (i : Nat) : TextOut Unit := do
  TextOut.writeIf (i % 3 == 0) (ascii "f ")
  let x ← TextOut.compute (shiftedIndexIn w b v i offset.1)
  TextOut.write (decimal x)
  uvOutIn w b u n offset.2.1 i
  normalOutIn w b n offset.2.2 i
  TextOut.write (if i % 3 = 2 then [10] else [32])

/-- The checks and the faces, src/obj.rs:144-219. -/
def facesOutIn (w : Nat) (b : Build) (m : Mesh fo.F) (offset : Nat × Nat × Nat) : TextOut (Nat × Nat × Nat) :=
  match m.vertexTriangles with
  | none =>
    if m.normalTriangles.isSome ∨ m.uvTriangles.isSome then ⟨[], .err .other⟩ else ⟨[], .ok (0, 0, 0)⟩
  | some v =>
    if lengthFits m.normalTriangles v.length && lengthFits m.uvTriangles v.length then do
      TextOut.forEach (cornerOutIn w b v m.uvTriangles m.normalTriangles offset) (List.range v.length)
      pure ((m.vertices.getD []).length % 2 ^ w, (m.uvs.getD []).length % 2 ^ w, (m.normals.getD []).length % 2 ^ w)
    else ⟨[], .err .other⟩

/-- `save_obj`, src/obj.rs:112-220. -/
def saveObjOutIn (w : Nat) (ft : FloatText fo) (b : Build) (m : Mesh fo.F) (offset : Nat × Nat × Nat) (name : List UInt8) :
    TextOut (Nat × Nat × Nat) := do
  TextOut.write (ascii "o " ++ name ++ [10])
  TextOut.forEach (fun x => TextOut.write (vec3Line ft (ascii "v") x)) (m.vertices.getD [])
  TextOut.forEach (fun x => TextOut.write (vec3Line ft (ascii "vn") x)) (m.normals.getD [])
  TextOut.forEach (fun x => TextOut.write (vec2Line ft x)) (m.uvs.getD [])
  facesOutIn w b m offset

/-- `+=` on the three offsets, src/obj.rs:231-233. -/
def addOffsetsIn (w : Nat) (b : Build) (offset counts : Nat × Nat × Nat) : Outcome IoError (Nat × Nat × Nat) := do
  let o0 ← addUIntIn w b offset.1 counts.1
  let o1 ← addUIntIn w b offset.2.1 counts.2.1
  let o2 ← addUIntIn w b offset.2.2 counts.2.2
  .ok (o0, o1, o2)

/-- The loop of `write_obj`, src/obj.rs:229-234. -/
def writeObjLoopOutIn (w : Nat) (ft : FloatText fo) (b : Build) : List (Mesh fo.F × List UInt8) → (offset : Nat × Nat × Nat) → TextOut Unit
  | [], _ => ⟨[], .ok ()⟩
  | (m, name) :: rest, offset => do
    let counts ← saveObjOutIn w ft b m offset name
    let offset ← TextOut.compute (addOffsetsIn w b offset counts)
    writeObjLoopOutIn w ft b rest offset

/-- What `write_obj` hands to its buffer, src/obj.rs:222-237. -/
def writeObjOutIn (w : Nat) (ft : FloatText fo) (b : Build) (meshes : List (Mesh fo.F × List UInt8)) : TextOut Unit := do
  TextOut.write (ascii "s 1\n")
  writeObjLoopOutIn w ft b meshes (1, 1, 1)

/-- `write_obj`, src/obj.rs:222-237, on any target. `Write::flush` of the target is not modelled. -/
def writeObjToIn (w : Nat) (ft : FloatText fo) (b : Build) (pieces : List UInt8 → List (List UInt8)) (meshes : List (Mesh fo.F × List UInt8))
    (s : Sink) : Outcome IoError Unit × Sink :=
  (writeObjOutIn w ft b meshes).runBuffered pieces s

end Tmf
