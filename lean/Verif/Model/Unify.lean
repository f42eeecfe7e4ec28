import Verif.Model.Reorder
/-
Unifying index arrays, src/unify_data.rs:5-201 and src/lib.rs:211-247.
-/

namespace Tmf

/-- A `HashMap<[IndexType; N], usize>` as an association list. `IterOrder` below says in which
order `iter` delivers the entries. -/
abbrev Combos := List (List Nat × Nat)

/-- `combos.entry(c).or_insert_with(..)`: the id of `c` and the new map. -/
def Combos.entry (combos : Combos) (c : List Nat) (next : Nat) : Nat × Combos × Nat :=
  match combos.lookup c with
  | some id => (id, combos, next)
  | none => (next, combos ++ [(c, next)], next + 1)

/-- `indices[sub_index][index]` for all arrays, src/unify_data.rs:19-22. -/
def comboAt (indices : List (List Nat)) (index : Nat) : Outcome Empty (List Nat) :=
  Outcome.mapAll (fun arr : List Nat => match arr[index]? with | some i => .ok i | none => .panic) indices

/-- The loop over positions, src/unify_data.rs:18-30. -/
def comboLoop (indices : List (List Nat)) : List Nat → Combos → (next : Nat) → Outcome Empty (List Nat × Combos)
  | [], combos, _ => .ok ([], combos)
  | index :: rest, combos, next => do
    let c ← comboAt indices index
    let (id, combos, next) := combos.entry c next
    let (ids, combos) ← comboLoop indices rest combos next
    .ok (id % 2 ^ 32 :: ids, combos)

/-- Insert before the first entry with a larger id. -/
def insertById (e : List Nat × Nat) : Combos → Combos
  | [] => [e]
  | x :: rest => if e.2 ≤ x.2 then e :: x :: rest else x :: insertById e rest

/-- `sort_by(|a, b| a.1.cmp(b.1))`: a stable sort. -/
def sortById : Combos → Combos
  | [] => []
  | e :: rest => insertById e (sortById rest)

/-- `combo[i]`. -/
def comboGet (i : Nat) (c : List Nat) : Outcome Empty Nat :=
  match c[i]? with
  | some x => .ok x
  | none => .panic

/-- `unfiy_data_common`, src/unify_data.rs:5-42. `order` is the order in which the hash map is
iterated. -/
def unifyCommon (order : Combos → Combos) (indices : List (List Nat)) :
    Outcome Empty (List Nat × List (List Nat)) :=
  match indices with
  | [] => .panic
  | first :: _ =>
    if indices.all (fun arr => arr.length = first.length) then do
      let (ids, combos) ← comboLoop indices (List.range first.length) [] 0
      let combos := (sortById (order combos)).map Prod.fst
      let dataMap ← Outcome.mapAll (fun i => Outcome.mapAll (comboGet i) combos) (List.range indices.length)
      .ok (ids, dataMap)
    else .panic

/-- `index_map[k].iter().map(|index| a[*index as usize]).collect()`. -/
def gather {α : Type} (data : List α) (dataMap : List (List Nat)) (k : Nat) : Outcome Empty (List α) :=
  match dataMap[k]? with
  | none => .panic
  | some l => Outcome.mapAll (fun i => match data[i]? with | some x => .ok x | none => .panic) l

/-- `merge_data_2`, src/unify_data.rs:43-58. -/
def mergeData2 {A B : Type} (order : Combos → Combos) (ia ib : List Nat) (a : List A) (b : List B) :
    Outcome Empty (List Nat × List A × List B) := do
  let (ids, dm) ← unifyCommon order [ia, ib]
  let a ← gather a dm 0
  let b ← gather b dm 1
  .ok (ids, a, b)

/-- `merge_data_3`, src/unify_data.rs:59-79. -/
def mergeData3 {A B C : Type} (order : Combos → Combos) (ia ib ic : List Nat) (a : List A) (b : List B) (c : List C) :
    Outcome Empty (List Nat × List A × List B × List C) := do
  let (ids, dm) ← unifyCommon order [ia, ib, ic]
  let a ← gather a dm 0
  let b ← gather b dm 1
  let c ← gather c dm 2
  .ok (ids, a, b, c)

/-- `merge_data_4`, src/unify_data.rs:80-105. -/
def mergeData4 {A B C D : Type} (order : Combos → Combos) (ia ib ic id : List Nat) (a : List A) (b : List B)
    (c : List C) (d : List D) : Outcome Empty (List Nat × List A × List B × List C × List D) := do
  let (ids, dm) ← unifyCommon order [ia, ib, ic, id]
  let a ← gather a dm 0
  let b ← gather b dm 1
  let c ← gather c dm 2
  let d ← gather d dm 3
  .ok (ids, a, b, c, d)

/-- `is_merge_needed`, src/unify_data.rs:107-115. -/
def isMergeNeeded (indices : List (Option (List Nat))) : Bool :=
  match indices.filterMap id with
  | first :: rest => !rest.all (fun a => a = first)
  | [] => false

/-- `!a.is_some_and(|data| !data.is_empty())`. -/
def noData {α : Type} (a : Option (List α)) : Bool :=
  match a with
  | some (_ :: _) => false
  | _ => true

/-- `smart_merge_data_2`, src/unify_data.rs:116-130. -/
def smartMerge2 {A B : Type} (order : Combos → Combos) (a : Option (List A)) (b : Option (List B))
    (ia ib : Option (List Nat)) : Outcome Empty (Option (List A) × Option (List B) × Option (List Nat)) :=
  if isMergeNeeded [ia, ib] then
    match a, ia, b, ib with
    | some a, some ia, some b, some ib => do
      let (ids, a, b) ← mergeData2 order ia ib a b
      .ok (some a, some b, some ids)
    | _, _, _, _ => .ok (none, none, none)
  else .ok (none, none, none)

/-- `smart_merge_data_3`, src/unify_data.rs:131-159. -/
def smartMerge3 {A B C : Type} (order : Combos → Combos) (a : Option (List A)) (b : Option (List B))
    (c : Option (List C)) (ia ib ic : Option (List Nat)) :
    Outcome Empty (Option (List A) × Option (List B) × Option (List C) × Option (List Nat)) :=
  if isMergeNeeded [ia, ib, ic] then
    if noData a || ia.isNone then do
      let (b, c, i) ← smartMerge2 order b c ib ic
      .ok (none, b, c, i)
    else if noData b || ib.isNone then do
      let (a, c, i) ← smartMerge2 order a c ia ic
      .ok (a, none, c, i)
    else if noData c || ic.isNone then do
      let (a, b, i) ← smartMerge2 order a b ia ib
      .ok (a, b, none, i)
    else
      match a, ia, b, ib, c, ic with
      | some a, some ia, some b, some ib, some c, some ic => do
        let (ids, a, b, c) ← mergeData3 order ia ib ic a b c
        .ok (some a, some b, some c, some ids)
      | _, _, _, _, _, _ => .ok (none, none, none, none)
  else .ok (none, none, none, none)

/-- `smart_merge_data_4`, src/unify_data.rs:160-201. -/
def smartMerge4 {A B C D : Type} (order : Combos → Combos) (a : Option (List A)) (b : Option (List B))
    (c : Option (List C)) (d : Option (List D)) (ia ib ic id : Option (List Nat)) :
    Outcome Empty (Option (List A) × Option (List B) × Option (List C) × Option (List D) × Option (List Nat)) :=
  if isMergeNeeded [ia, ib, ic, id] then
    if noData a || ia.isNone then do
      let (b, c, d, i) ← smartMerge3 order b c d ib ic id
      .ok (none, b, c, d, i)
    else if noData b || ib.isNone then do
      let (a, c, d, i) ← smartMerge3 order a c d ia ic id
      .ok (a, none, c, d, i)
    else if noData c || ic.isNone then do
      let (a, b, d, i) ← smartMerge3 order a b d ia ib id
      .ok (a, b, none, d, i)
    else if noData d || id.isNone then do
      let (a, b, c, i) ← smartMerge3 order a b c ia ib ic
      .ok (a, b, c, none, i)
    else
      match a, ia, b, ib, c, ic, d, id with
      | some a, some ia, some b, some ib, some c, some ic, some d, some id => do
        let (ids, a, b, c, d) ← mergeData4 order ia ib ic id a b c d
        .ok (some a, some b, some c, some d, some ids)
      | _, _, _, _, _, _, _, _ => .ok (none, none, none, none, none)
  else .ok (none, none, none, none, none)

/-- Replace data and indices by the merged ones, if there are any. -/
def takeMerged {α : Type} (merged : Option (List α)) (indices : List Nat) (old : Option (List α) × Option (List Nat)) :
    Option (List α) × Option (List Nat) :=
  match merged with
  | some d => (some d, some indices)
  | none => old

/-- `unify_index_data`, src/lib.rs:211-247. -/
def Mesh.unifyIndexData {F : Type} (order : Combos → Combos) (m : Mesh F) : Outcome Empty (Mesh F) := do
  let (v, n, u, t, indices) ← smartMerge4 order m.vertices m.normals m.uvs m.tangents
    m.vertexTriangles m.normalTriangles m.uvTriangles m.tangentTriangles
  match indices with
  | some i =>
    let v := takeMerged v i (m.vertices, m.vertexTriangles)
    let n := takeMerged n i (m.normals, m.normalTriangles)
    let u := takeMerged u i (m.uvs, m.uvTriangles)
    let t := takeMerged t i (m.tangents, m.tangentTriangles)
    .ok { m with
      vertices := v.1
      vertexTriangles := v.2
      normals := n.1
      normalTriangles := n.2
      uvs := u.1
      uvTriangles := u.2
      tangents := t.1
      tangentTriangles := t.2 }
  | none => .ok m

end Tmf
