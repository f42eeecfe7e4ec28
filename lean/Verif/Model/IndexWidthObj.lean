import Verif.Model.Obj
import Verif.Model.Unify
/-
The features `long_indices` and `short_indices`, src/lib.rs:61-70, in reordering, pruning, unifying and .obj
files: the functions of `Model/Reorder`, `Model/Unify`, `Model/Importer` and `Model/Obj` for a type of indices
with `k` bits. Triangulation does not depend on the type.
-/

namespace Tmf

/-! ### Reordering and pruning -/

/-- `index_map[*index as usize] as IndexType`, src/utilis.rs:106. -/
def newIndexIn (k : Nat) (map : List (Option Nat)) (i : Nat) : Outcome Empty Nat :=
  match map[i]? with
  | none => .panic
  | some none => .ok (2 ^ k - 1)
  | some (some j) => .ok (j % 2 ^ k)

/-- `optimize_triangle_indices`, src/utilis.rs:85-109. -/
def optimizeTriangleIndicesIn (k : Nat) {α : Type} (indices : List Nat) (data : List α) : Outcome Empty (List Nat × List α) :=
  if indices = [] ∨ data = [] then .ok (indices, data)
  else do
    let (map, mapped) ← mapLoop data indices (List.replicate data.length none) [] 0
    let new ← Outcome.mapAll (newIndexIn k map) indices
    .ok (new, mapped)

/-- One block of `reorder_data`: nothing unless both arrays are there. -/
def reorderPairIn (k : Nat) {α : Type} (data : Option (List α)) (indices : Option (List Nat)) :
    Outcome Empty (Option (List α) × Option (List Nat)) :=
  match data, indices with
  | some d, some i => do
    let (i, d) ← optimizeTriangleIndicesIn k i d
    .ok (some d, some i)
  | d, i => .ok (d, i)

/-- `reorder_data`, src/lib.rs:167-189. -/
def Mesh.reorderDataIn (k : Nat) {F : Type} (m : Mesh F) : Outcome Empty (Mesh F) := do
  let v ← reorderPairIn k m.vertices m.vertexTriangles
  let m := { m with vertices := v.1, vertexTriangles := v.2 }
  let n ← reorderPairIn k m.normals m.normalTriangles
  let m := { m with normals := n.1, normalTriangles := n.2 }
  let u ← reorderPairIn k m.uvs m.uvTriangles
  .ok { m with uvs := u.1, uvTriangles := u.2 }

/-- `*index -= min_index` on a type with `k` bits, src/utilis.rs:21. -/
def subUIntIn (k : Nat) (b : Build) (x y : Nat) : Outcome Empty Nat :=
  if y ≤ x then .ok (x - y)
  else match b with
    | .checked => .panic
    | .wrapping => .ok (2 ^ k + x - y)

/-- `fast_prune`, src/utilis.rs:6-23; `drain` beyond the end panics. -/
def fastPruneIn (k : Nat) {α : Type} (b : Build) (data : List α) (indices : List Nat) : Outcome Empty (List α × List Nat) :=
  match pruneMin indices (if indices = [] then 0 else data.length % 2 ^ k) with
  | none => .ok (data, indices)
  | some minIndex =>
    if minIndex ≤ data.length then do
      let indices ← Outcome.mapAll (fun i => subUIntIn k b i minIndex) indices
      .ok (data.drop minIndex, indices)
    else .panic

/-! ### Unifying -/

/-- The loop over positions, src/unify_data.rs:18-30. -/
def comboLoopIn (k : Nat) (indices : List (List Nat)) : List Nat → Combos → (next : Nat) → Outcome Empty (List Nat × Combos)
  | [], combos, _ => .ok ([], combos)
  | index :: rest, combos, next => do
    let c ← comboAt indices index
    let (id, combos, next) := combos.entry c next
    let (ids, combos) ← comboLoopIn k indices rest combos next
    .ok (id % 2 ^ k :: ids, combos)

/-- `unfiy_data_common`, src/unify_data.rs:5-42. `order` is the order in which the hash map is
iterated. -/
def unifyCommonIn (k : Nat) (order : Combos → Combos) (indices : List (List Nat)) :
    Outcome Empty (List Nat × List (List Nat)) :=
  match indices with
  | [] => .panic
  | first :: _ =>
    if indices.all (fun arr => arr.length = first.length) then do
      let (ids, combos) ← comboLoopIn k indices (List.range first.length) [] 0
      let combos := (sortById (order combos)).map Prod.fst
      let dataMap ← Outcome.mapAll (fun i => Outcome.mapAll (comboGet i) combos) (List.range indices.length)
      .ok (ids, dataMap)
    else .panic

/-- `merge_data_2`, src/unify_data.rs:43-58. -/
def mergeData2In (k : Nat) {A B : Type} (order : Combos → Combos) (ia ib : List Nat) (a : List A) (b : List B) :
    Outcome Empty (List Nat × List A × List B) := do
  let (ids, dm) ← unifyCommonIn k order [ia, ib]
  let a ← gather a dm 0
  let b ← gather b dm 1
  .ok (ids, a, b)

/-- `merge_data_3`, src/unify_data.rs:59-79. -/
def mergeData3In (k : Nat) {A B C : Type} (order : Combos → Combos) (ia ib ic : List Nat) (a : List A) (b : List B) (c : List C) :
    Outcome Empty (List Nat × List A × List B × List C) := do
  let (ids, dm) ← unifyCommonIn k order [ia, ib, ic]
  let a ← gather a dm 0
  let b ← gather b dm 1
  let c ← gather c dm 2
  .ok (ids, a, b, c)

/-- `merge_data_4`, src/unify_data.rs:80-105. -/
def mergeData4In (k : Nat) {A B C D : Type} (order : Combos → Combos) (ia ib ic id : List Nat) (a : List A) (b : List B)
    (c : List C) (d : List D) : Outcome Empty (List Nat × List A × List B × List C × List D) := do
  let (ids, dm) ← unifyCommonIn k order [ia, ib, ic, id]
  let a ← gather a dm 0
  let b ← gather b dm 1
  let c ← gather c dm 2
  let d ← gather d dm 3
  .ok (ids, a, b, c, d)

/-- `smart_merge_data_2`, src/unify_data.rs:116-130. -/
def smartMerge2In (k : Nat) {A B : Type} (order : Combos → Combos) (a : Option (List A)) (b : Option (List B))
    (ia ib : Option (List Nat)) : Outcome Empty (Option (List A) × Option (List B) × Option (List Nat)) :=
  if isMergeNeeded [ia, ib] then
    match a, ia, b, ib with
    | some a, some ia, some b, some ib => do
      let (ids, a, b) ← mergeData2In k order ia ib a b
      .ok (some a, some b, some ids)
    | _, _, _, _ => .ok (none, none, none)
  else .ok (none, none, none)

/-- `smart_merge_data_3`, src/unify_data.rs:131-159. -/
def smartMerge3In (k : Nat) {A B C : Type} (order : Combos → Combos) (a : Option (List A)) (b : Option (List B))
    (c : Option (List C)) (ia ib ic : Option (List Nat)) :
    Outcome Empty (Option (List A) × Option (List B) × Option (List C) × Option (List Nat)) :=
  if isMergeNeeded [ia, ib, ic] then
    if noData a || ia.isNone then do
      let (b, c, i) ← smartMerge2In k order b c ib ic
      .ok (none, b, c, i)
    else if noData b || ib.isNone then do
      let (a, c, i) ← smartMerge2In k order a c ia ic
      .ok (a, none, c, i)
    else if noData c || ic.isNone then do
      let (a, b, i) ← smartMerge2In k order a b ia ib
      .ok (a, b, none, i)
    else
      match a, ia, b, ib, c, ic with
      | some a, some ia, some b, some ib, some c, some ic => do
        let (ids, a, b, c) ← mergeData3In k order ia ib ic a b c
        .ok (some a, some b, some c, some ids)
      | _, _, _, _, _, _ => .ok (none, none, none, none)
  else .ok (none, none, none, none)

/-- `smart_merge_data_4`, src/unify_data.rs:160-201. -/
def smartMerge4In (k : Nat) {A B C D : Type} (order : Combos → Combos) (a : Option (List A)) (b : Option (List B))
    (c : Option (List C)) (d : Option (List D)) (ia ib ic id : Option (List Nat)) :
    Outcome Empty (Option (List A) × Option (List B) × Option (List C) × Option (List D) × Option (List Nat)) :=
  if isMergeNeeded [ia, ib, ic, id] then
    if noData a || ia.isNone then do
      let (b, c, d, i) ← smartMerge3In k order b c d ib ic id
      .ok (none, b, c, d, i)
    else if noData b || ib.isNone then do
      let (a, c, d, i) ← smartMerge3In k order a c d ia ic id
      .ok (a, none, c, d, i)
    else if noData c || ic.isNone then do
      let (a, b, d, i) ← smartMerge3In k order a b d ia ib id
      .ok (a, b, none, d, i)
    else if noData d || id.isNone then do
      let (a, b, c, i) ← smartMerge3In k order a b c ia ib ic
      .ok (a, b, c, none, i)
    else
      match a, ia, b, ib, c, ic, d, id with
      | some a, some ia, some b, some ib, some c, some ic, some d, some id => do
        let (ids, a, b, c, d) ← mergeData4In k order ia ib ic id a b c d
        .ok (some a, some b, some c, some d, some ids)
      | _, _, _, _, _, _, _, _ => .ok (none, none, none, none, none)
  else .ok (none, none, none, none, none)

/-- `unify_index_data`, src/lib.rs:211-247. -/
def Mesh.unifyIndexDataIn (k : Nat) {F : Type} (order : Combos → Combos) (m : Mesh F) : Outcome Empty (Mesh F) := do
  let (v, n, u, t, indices) ← smartMerge4In k order m.vertices m.normals m.uvs m.tangents
    m.vertexTriangles m.normalTriangles m.uvTriangles m.tangentTriangles
  match indices with
  | some i =>
    let v := takeMerged v i (m.vertices, m.vertexTriangles)
    let n := takeMerged n i (m.normals, m.normalTriangles)
    let u := takeMerged u i (m.uvs, m.uvTriangles)
    let t := takeMerged t i (m.tangents, m.tangentTriangles)
    .ok { m with
      vertices := v.1
      vertexTriangles := v.2
      normals := n.1
      normalTriangles := n.2
      uvs := u.1
      uvTriangles := u.2
      tangents := t.1
      tangentTriangles := t.2 }
  | none => .ok m

/-! ### The state of the .obj importer -/

/-- The mesh built from the current state, src/model_importer.rs:36-53 and 62-80: a copy of
everything read so far, pruned. -/
def Importer.buildIn (k : Nat) {F : Type} (b : Build) (oi : Importer F) : Outcome Empty (Mesh F) := do
  let v ← fastPruneIn k b oi.vertices oi.vertexTriangles
  let n ← fastPruneIn k b oi.normals oi.normalTriangles
  let u ← fastPruneIn k b oi.uvs oi.uvTriangles
  let m := (Mesh.empty.setVertices v.1).1
  let m := (m.setNormals n.1).1
  let m := (m.setUvs u.1).1
  let m := (m.setVertexTriangles v.2).1
  let m := (m.setNormalTriangles n.2).1
  .ok (m.setUvTriangles u.2).1

/-- `next_mesh`, src/model_importer.rs:30-60: the new name is stored; a mesh is delivered under the
old one if there were faces. -/
def Importer.nextMeshIn (k : Nat) {F : Type} (b : Build) (name : List UInt8) (oi : Importer F) :
    Outcome Empty (Option (Mesh F × List UInt8) × Importer F) :=
  if oi.vertexTriangles = [] then .ok (none, { oi with name := name })
  else do
    let m ← oi.buildIn k b
    .ok (some (m, oi.name), { oi with
      name := name
      vertexTriangles := []
      normalTriangles := []
      uvTriangles := [] })

/-- `finish`, src/model_importer.rs:61-83. -/
def Importer.finishIn (k : Nat) {F : Type} (b : Build) (oi : Importer F) : Outcome Empty (Mesh F × List UInt8) := do
  let m ← oi.buildIn k b
  .ok (m, oi.name)

/-! ### .obj text -/

variable {fo : FloatOps}

/-- `str::parse::<IndexType>`: an optional plus sign and at least one digit; no overflow. -/
def parseUIntIn (k : Nat) (w : List UInt8) : Option Nat :=
  let ds := unsignedDigits w
  if ds = [] then none
  else match digitsValue 0 ds with
    | some n => if n < 2 ^ k then some n else none
    | none => none

/-- `parse_index`, src/obj.rs:51-53: anything that is not a number counts as 1. -/
def parseIndexIn (k : Nat) (w : List UInt8) : Nat := (parseUIntIn k w).getD 1

/-- `load_indices`, src/obj.rs:65-80. -/
def loadIndicesIn (k : Nat) (ws : List (List UInt8)) : Outcome IoError ((Nat × Nat × Nat) × List (List UInt8)) := do
  let (w0, ws) ← nextWord ws
  let (w1, ws) ← nextWord ws
  let (w2, ws) ← nextWord ws
  if parseIndexIn k w0 < 1 ∨ parseIndexIn k w1 < 1 ∨ parseIndexIn k w2 < 1 then .err .other
  else .ok ((parseIndexIn k w0 - 1, parseIndexIn k w1 - 1, parseIndexIn k w2 - 1), ws)

/-- The loop of `load_face`, src/obj.rs:86-90: it stops at the first error of any kind. Every
iteration uses up words, so `fuel = ws.length + 1` is enough. -/
def loadFaceLoopIn (k : Nat) : (fuel : Nat) → List (List UInt8) → (v u n : List Nat) → Outcome IoError (List Nat × List Nat × List Nat)
  | 0, _, _, _, _ => .panic
  | fuel + 1, ws, v, u, n =>
    match loadIndicesIn k ws with
    | .ok ((i, j, l), ws) => loadFaceLoopIn k fuel ws (v ++ [i]) (u ++ [j]) (n ++ [l])
    | .err _ => .ok (v, u, n)
    | .panic => .panic

/-- `load_face`, src/obj.rs:82-95. -/
def loadFaceIn (k : Nat) {F : Type} (face : PushFace F) (ws : List (List UInt8)) (oi : Importer F) : Outcome IoError (Importer F) := do
  let (v, u, n) ← loadFaceLoopIn k (ws.length + 1) ws [] [] []
  face v u n oi

/-- The `match` of `parse_line`, src/obj.rs:11-25: `beg` is the first word. All other words are
ignored. -/
def parseWordsIn (k : Nat) (ft : FloatText fo) (face : PushFace fo.F) (b : Build) (beg : List UInt8) (ws : List (List UInt8))
    (oi : Importer fo.F) : Outcome IoError (Option (Mesh fo.F × List UInt8) × Importer fo.F) :=
  if beg = ascii "v" then do
    let x ← loadVec3 ft ws
    .ok (none, { oi with vertices := oi.vertices ++ [x] })
  else if beg = ascii "vn" then do
    let x ← loadVec3 ft ws
    .ok (none, { oi with normals := oi.normals ++ [x] })
  else if beg = ascii "vt" then do
    let x ← loadVec2 ft ws
    .ok (none, { oi with uvs := oi.uvs ++ [x] })
  else if beg = ascii "f" then do
    let oi ← loadFaceIn k face ws oi
    .ok (none, oi)
  else if beg = ascii "o" then do
    let (name, _) ← nextWord ws
    (oi.nextMeshIn k b name).widen
  else .ok (none, oi)

/-- `parse_line`, src/obj.rs:5-27. A line that is not UTF-8 is an error of the reader. -/
def parseLineIn (k : Nat) (ft : FloatText fo) (face : PushFace fo.F) (b : Build) (line : List UInt8) (oi : Importer fo.F) :
    Outcome IoError (Option (Mesh fo.F × List UInt8) × Importer fo.F) :=
  if validUtf8 line then do
    let (beg, ws) ← nextWord (splitBytes isObjSep line)
    parseWordsIn k ft face b beg ws oi
  else .err .other

/-- The loop and the end of `read_from_obj`, src/obj.rs:34-40. -/
def readObjLoopIn (k : Nat) (ft : FloatText fo) (face : PushFace fo.F) (b : Build) : List (List UInt8) → Importer fo.F →
    Outcome IoError (List (Mesh fo.F × List UInt8))
  | [], oi => do
    let m ← (oi.finishIn k b).widen
    .ok [m]
  | line :: rest, oi => do
    let (m, oi) ← parseLineIn k ft face b line oi
    let ms ← readObjLoopIn k ft face b rest oi
    .ok (m.toList ++ ms)

/-- `read_from_obj`, src/obj.rs:28-41, on a reader that delivers `text`. -/
def readFromObjIn (k : Nat) (ft : FloatText fo) (face : PushFace fo.F) (b : Build) (text : List UInt8) :
    Outcome IoError (List (Mesh fo.F × List UInt8)) :=
  readObjLoopIn k ft face b (textLines text) .new

/-- `+` on a type with `k` bits. -/
def addUIntIn (k : Nat) (b : Build) (x y : Nat) : Outcome IoError Nat :=
  if x + y < 2 ^ k then .ok (x + y)
  else match b with
    | .checked => .panic
    | .wrapping => .ok ((x + y) % 2 ^ k)

/-- The uv part of a corner, src/obj.rs:189-196. -/
def uvTextIn (k : Nat) (b : Build) (uvs normals : Option (List Nat)) (offset i : Nat) : Outcome IoError (List UInt8) :=
  match uvs with
  | some uvs => do
    let x ← indexAt uvs i
    let x ← addUIntIn k b x offset
    .ok (47 :: decimal x)
  | none => .ok (if normals.isSome then [47] else [])

/-- The normal part of a corner, src/obj.rs:197-199. -/
def normalTextIn (k : Nat) (b : Build) (normals : Option (List Nat)) (offset i : Nat) : Outcome IoError (List UInt8) :=
  match normals with
  | some normals => do
    let x ← indexAt normals i
    let x ← addUIntIn k b x offset
    .ok (47 :: decimal x)
  | none => .ok []

/-- The loop over corners, src/obj.rs:181-205. -/
def facesTextIn (k : Nat) (b : Build) (v : List Nat) (u n : Option (List Nat)) (offset : Nat × Nat × Nat) :
    List Nat → Outcome IoError (List UInt8)
  | [] => .ok []
  | i :: rest => do
    let x ← indexAt v i
    let x ← addUIntIn k b x offset.1
    let ut ← uvTextIn k b u n offset.2.1 i
    let nt ← normalTextIn k b n offset.2.2 i
    let text ← facesTextIn k b v u n offset rest
    .ok ((if i % 3 = 0 then ascii "f " else []) ++ decimal x ++ ut ++ nt ++ (if i % 3 = 2 then [10] else [32]) ++ text)

/-- `save_obj`, src/obj.rs:112-220: the text written and the counts returned. What is written before
an error is not modelled. -/
def saveObjIn (k : Nat) (ft : FloatText fo) (b : Build) (m : Mesh fo.F) (offset : Nat × Nat × Nat) (name : List UInt8) :
    Outcome IoError (List UInt8 × Nat × Nat × Nat) :=
  match m.vertexTriangles with
  | none =>
    if m.normalTriangles.isSome ∨ m.uvTriangles.isSome then .err .other
    else .ok (meshText ft m name, 0, 0, 0)
  | some v =>
    if lengthFits m.normalTriangles v.length && lengthFits m.uvTriangles v.length then do
      let faces ← facesTextIn k b v m.uvTriangles m.normalTriangles offset (List.range v.length)
      .ok (meshText ft m name ++ faces, (m.vertices.getD []).length % 2 ^ k, (m.uvs.getD []).length % 2 ^ k,
        (m.normals.getD []).length % 2 ^ k)
    else .err .other

/-- The loop of `write_obj`, src/obj.rs:229-234. -/
def writeObjLoopIn (k : Nat) (ft : FloatText fo) (b : Build) : List (Mesh fo.F × List UInt8) → (offset : Nat × Nat × Nat) →
    Outcome IoError (List UInt8)
  | [], _ => .ok []
  | (m, name) :: rest, offset => do
    let (text, counts) ← saveObjIn k ft b m offset name
    let o0 ← addUIntIn k b offset.1 counts.1
    let o1 ← addUIntIn k b offset.2.1 counts.2.1
    let o2 ← addUIntIn k b offset.2.2 counts.2.2
    let texts ← writeObjLoopIn k ft b rest (o0, o1, o2)
    .ok (text ++ texts)

/-- `write_obj` into a buffer, src/obj.rs:222-237. -/
def writeObjIn (k : Nat) (ft : FloatText fo) (b : Build) (meshes : List (Mesh fo.F × List UInt8)) : Outcome IoError (List UInt8) := do
  let text ← writeObjLoopIn k ft b meshes (1, 1, 1)
  .ok (ascii "s 1\n" ++ text)

end Tmf
