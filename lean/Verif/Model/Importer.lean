import Verif.Model.Reorder
/-
The state of the .obj importer, src/model_importer.rs, and the optional triangulation,
src/triangulation.rs.
-/

namespace Tmf

/-- A call that cannot fail inside one that can. -/
def Outcome.widen {ε α : Type} : Outcome Empty α → Outcome ε α
  | .ok a => .ok a
  | .err e => e.elim
  | .panic => .panic

/-- `ModelImporter`, src/model_importer.rs:9-17. -/
structure Importer (F : Type) where
  vertices : List (Vec3 F)
  normals : List (Vec3 F)
  uvs : List (Vec2 F)
  vertexTriangles : List Nat
  normalTriangles : List Nat
  uvTriangles : List Nat
  name : List UInt8
deriving Repr, DecidableEq

namespace Importer
variable {F : Type}

/-- `ModelImporter::new`, src/model_importer.rs:19-29. -/
def new : Importer F := ⟨[], [], [], [], [], [], []⟩

/-- The mesh built from the current state, src/model_importer.rs:36-53 and 62-80: a copy of
everything read so far, pruned. -/
def build (b : Build) (oi : Importer F) : Outcome Empty (Mesh F) := do
  let v ← fastPrune b oi.vertices oi.vertexTriangles
  let n ← fastPrune b oi.normals oi.normalTriangles
  let u ← fastPrune b oi.uvs oi.uvTriangles
  let m := (Mesh.empty.setVertices v.1).1
  let m := (m.setNormals n.1).1
  let m := (m.setUvs u.1).1
  let m := (m.setVertexTriangles v.2).1
  let m := (m.setNormalTriangles n.2).1
  .ok (m.setUvTriangles u.2).1

/-- `next_mesh`, src/model_importer.rs:30-60: the new name is stored; a mesh is delivered under the
old one if there were faces. -/
def nextMesh (b : Build) (name : List UInt8) (oi : Importer F) :
    Outcome Empty (Option (Mesh F × List UInt8) × Importer F) :=
  if oi.vertexTriangles = [] then .ok (none, { oi with name := name })
  else do
    let m ← oi.build b
    .ok (some (m, oi.name), { oi with
      name := name
      vertexTriangles := []
      normalTriangles := []
      uvTriangles := [] })

/-- `finish`, src/model_importer.rs:61-83. -/
def finish (b : Build) (oi : Importer F) : Outcome Empty (Mesh F × List UInt8) := do
  let m ← oi.build b
  .ok (m, oi.name)

/-- Pushing the indices of faces, src/model_importer.rs:94-104. -/
def pushIndices (oi : Importer F) (v u n : List Nat) : Importer F :=
  { oi with
    vertexTriangles := oi.vertexTriangles ++ v
    uvTriangles := oi.uvTriangles ++ u
    normalTriangles := oi.normalTriangles ++ n }

/-- `push_face`, src/model_importer.rs:105-148. `larger` handles faces with more than three
corners. The error text is not modelled. -/
def pushFaceWith (larger : Importer F → (v u n : List Nat) → Outcome IoError (Importer F))
    (v u n : List Nat) (oi : Importer F) : Outcome IoError (Importer F) :=
  if v.length = u.length ∧ v.length = n.length then
    if v.length < 3 then .err .other
    else if v.length = 3 then .ok (oi.pushIndices v u n)
    else larger oi v u n
  else .err .other

/-- `push_face` without the feature "triangulation", src/model_importer.rs:134-137. -/
def pushFace (v u n : List Nat) (oi : Importer F) : Outcome IoError (Importer F) :=
  pushFaceWith (fun _ _ _ _ => .err .other) v u n oi

end Importer

/-! ### Triangulation -/

/-- `dot`, src/utilis.rs:69-71. -/
def dot (fo : FloatOps) (a b : Vec3 fo.F) : fo.F :=
  fo.add (fo.add (fo.mul a.1 b.1) (fo.mul a.2.1 b.2.1)) (fo.mul a.2.2 b.2.2)

/-- Differences of vectors, src/triangulation.rs:7-8. -/
def subVec3 (fo : FloatOps) (a b : Vec3 fo.F) : Vec3 fo.F :=
  (fo.sub a.1 b.1, fo.sub a.2.1 b.2.1, fo.sub a.2.2 b.2.2)

/-- `compute_angle`, src/triangulation.rs:6-12; `acos` is the libm function. -/
def computeAngle (fo : FloatOps) (acos : fo.F → fo.F) (prev curr next : Vec3 fo.F) : fo.F :=
  acos (dot fo (normalize fo (subVec3 fo curr prev)) (normalize fo (subVec3 fo curr next)))

/-- `index.wrapping_sub(1) % len` on `usize`. -/
def prevIndex (index len : Nat) : Nat := (if index = 0 then 2 ^ 64 - 1 else index - 1) % len

/-- `index.wrapping_add(1) % len`. -/
def nextIndex (index len : Nat) : Nat := (index + 1) % len

/-- Indexing a slice. -/
def at? {α : Type} (l : List α) (i : Nat) : Outcome Empty α :=
  match l[i]? with
  | some x => .ok x
  | none => .panic

/-- `calc_ear_val_at_index`, src/triangulation.rs:34-49, with `eval_ear` (13-25) and
`is_line_inside_poly` (26-33), which always answers `true`. -/
def calcEarVal (fo : FloatOps) (acos : fo.F → fo.F) (vertices : List (Vec3 fo.F)) (indices : List Nat) (index : Nat) :
    Outcome Empty fo.F := do
  let p0 ← at? indices (prevIndex index indices.length)
  let p1 ← at? indices index
  let p2 ← at? indices (nextIndex index indices.length)
  let a ← at? vertices p0
  let b ← at? vertices p1
  let c ← at? vertices p2
  .ok (computeAngle fo acos a b c)

/-- The search for the best ear, src/triangulation.rs:63-68; `ear_vals` has an entry for every
index. -/
def bestEar (fo : FloatOps) (ears : List fo.F) : (indices : List Nat) → (best : Nat) → Outcome Empty Nat
  | [], best => .ok best
  | i :: rest, best => do
    let x ← at? ears i
    let y ← at? ears best
    bestEar fo ears rest (if fo.lt y x then i else best)

/-- Three entries of a list. -/
def pick3 (l : List Nat) (i j k : Nat) : Outcome Empty (List Nat) := do
  let a ← at? l i
  let b ← at? l j
  let c ← at? l k
  .ok [a, b, c]

/-- `SmallVec::remove` and `Vec::remove`: a position past the end panics. -/
def removeAt {α : Type} (l : List α) (i : Nat) : Outcome Empty (List α) :=
  if i < l.length then .ok (l.eraseIdx i) else .panic

/-- `v[i] = x`. -/
def setAt {α : Type} (l : List α) (i : Nat) (x : α) : Outcome Empty (List α) :=
  if i < l.length then .ok (l.set i x) else .panic

/-- The loop of `triangulate` and the last triangle, src/triangulation.rs:62-107. The face shrinks
by one corner per iteration, so `fuel = v.length` is enough. -/
def triangulateLoop (fo : FloatOps) (acos : fo.F → fo.F) : (fuel : Nat) → (v n u : List Nat) → (ears : List fo.F) →
    Importer fo.F → Outcome Empty (Importer fo.F)
  | 0, _, _, _, _, _ => .panic
  | fuel + 1, v, n, u, ears, mi =>
    if v.length > 3 then do
      let best ← bestEar fo ears (List.range v.length) 0
      let prev := prevIndex best v.length
      let next := nextIndex best v.length
      let tv ← pick3 v prev best next
      let tn ← pick3 n prev best next
      let tu ← pick3 u prev best next
      let mi := mi.pushIndices tv tu tn
      let v ← removeAt v best
      let n ← removeAt n best
      let u ← removeAt u best
      let ears ← removeAt ears best
      let curr := best % v.length
      let prev := prevIndex best v.length
      let e ← calcEarVal fo acos mi.vertices v curr
      let ears ← setAt ears curr e
      let e ← calcEarVal fo acos mi.vertices v prev
      let ears ← setAt ears prev e
      triangulateLoop fo acos fuel v n u ears mi
    else do
      let tv ← pick3 v 0 1 2
      let tn ← pick3 n 0 1 2
      let tu ← pick3 u 0 1 2
      .ok (mi.pushIndices tv tu tn)

/-- The first loop, src/triangulation.rs:58-61. -/
def earVals (fo : FloatOps) (acos : fo.F → fo.F) (vertices : List (Vec3 fo.F)) (v : List Nat) : List Nat → Outcome Empty (List fo.F)
  | [] => .ok []
  | i :: rest => do
    let e ← calcEarVal fo acos vertices v i
    let es ← earVals fo acos vertices v rest
    .ok (e :: es)

/-- `triangulate`, src/triangulation.rs:51-108. Its `debug_assert` on the lengths has been checked by
`push_face`. -/
def triangulate (fo : FloatOps) (acos : fo.F → fo.F) (mi : Importer fo.F) (v u n : List Nat) :
    Outcome IoError (Importer fo.F) := Outcome.widen do
  let ears ← earVals fo acos mi.vertices v (List.range v.length)
  triangulateLoop fo acos v.length v n u ears mi

/-- `push_face` with the feature "triangulation", src/model_importer.rs:138-145. -/
def Importer.pushFaceTri (fo : FloatOps) (acos : fo.F → fo.F) (v u n : List Nat) (oi : Importer fo.F) :
    Outcome IoError (Importer fo.F) :=
  pushFaceWith (triangulate fo acos) v u n oi

end Tmf
