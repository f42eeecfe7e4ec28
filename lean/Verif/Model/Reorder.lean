import Verif.Model.Mesh
import Verif.Model.Arrays
/-
Reordering and pruning of data arrays: src/utilis.rs:6-23,46-62,85-109, src/lib.rs:167-189,626-632,
src/normals.rs:189-194. These functions return no `Result`, so the error type is `Empty`.
-/

namespace Tmf

/-- The loop of `optimize_triangle_indices`, src/utilis.rs:96-103. Simplified: `INDEX_NOT_MAPPED`
(`usize::MAX`) is `none`. -/
def mapLoop {α : Type} (data : List α) : List Nat → (map : List (Option Nat)) → (mapped : List α) → (curr : Nat) →
    Outcome Empty (List (Option Nat) × List α)
  | [], map, mapped, _ => .ok (map, mapped)
  | i :: rest, map, mapped, curr =>
    match map[i]? with
    | none => .panic
    | some none =>
      match data[i]? with
      | none => .panic
      | some x => mapLoop data rest (map.set i (some curr)) (mapped ++ [x]) (curr + 1)
    | some (some _) => mapLoop data rest map mapped curr

/-- `index_map[*index as usize] as IndexType`, src/utilis.rs:106. -/
def newIndex (map : List (Option Nat)) (i : Nat) : Outcome Empty Nat :=
  match map[i]? with
  | none => .panic
  | some none => .ok (2 ^ 32 - 1)
  | some (some j) => .ok (j % 2 ^ 32)

/-- `optimize_triangle_indices`, src/utilis.rs:85-109. -/
def optimizeTriangleIndices {α : Type} (indices : List Nat) (data : List α) : Outcome Empty (List Nat × List α) :=
  if indices = [] ∨ data = [] then .ok (indices, data)
  else do
    let (map, mapped) ← mapLoop data indices (List.replicate data.length none) [] 0
    let new ← Outcome.mapAll (newIndex map) indices
    .ok (new, mapped)

/-- One block of `reorder_data`: nothing unless both arrays are there. -/
def reorderPair {α : Type} (data : Option (List α)) (indices : Option (List Nat)) :
    Outcome Empty (Option (List α) × Option (List Nat)) :=
  match data, indices with
  | some d, some i => do
    let (i, d) ← optimizeTriangleIndices i d
    .ok (some d, some i)
  | d, i => .ok (d, i)

/-- `reorder_data`, src/lib.rs:167-189. -/
def Mesh.reorderData {F : Type} (m : Mesh F) : Outcome Empty (Mesh F) := do
  let v ← reorderPair m.vertices m.vertexTriangles
  let m := { m with vertices := v.1, vertexTriangles := v.2 }
  let n ← reorderPair m.normals m.normalTriangles
  let m := { m with normals := n.1, normalTriangles := n.2 }
  let u ← reorderPair m.uvs m.uvTriangles
  .ok { m with uvs := u.1, uvTriangles := u.2 }

/-- The search of `fast_prune`, src/utilis.rs:12-17: `none` if an index is 0. -/
def pruneMin : List Nat → (minIndex : Nat) → Option Nat
  | [], minIndex => some minIndex
  | i :: rest, minIndex => if i = 0 then none else pruneMin rest (min minIndex i)

/-- `*index -= min_index` on `u32`, src/utilis.rs:21. -/
def subU32 (b : Build) (x y : Nat) : Outcome Empty Nat :=
  if y ≤ x then .ok (x - y)
  else match b with
    | .checked => .panic
    | .wrapping => .ok (2 ^ 32 + x - y)

/-- `fast_prune`, src/utilis.rs:6-23; `drain` beyond the end panics. -/
def fastPrune {α : Type} (b : Build) (data : List α) (indices : List Nat) : Outcome Empty (List α × List Nat) :=
  match pruneMin indices (if indices = [] then 0 else data.length % 2 ^ 32) with
  | none => .ok (data, indices)
  | some minIndex =>
    if minIndex ≤ data.length then do
      let indices ← Outcome.mapAll (fun i => subU32 b i minIndex) indices
      .ok (data.drop minIndex, indices)
    else .panic

/-- `magnitude`, src/utilis.rs:46-51. -/
def magnitude (fo : FloatOps) (i : Vec3 fo.F) : fo.F :=
  fo.sqrt (fo.add (fo.add (fo.mul i.1 i.1) (fo.mul i.2.1 i.2.1)) (fo.mul i.2.2 i.2.2))

/-- `normalize`, src/utilis.rs:52-62. -/
def normalize (fo : FloatOps) (i : Vec3 fo.F) : Vec3 fo.F :=
  let mag := fo.sqrt (fo.add (fo.add (fo.mul i.1 i.1) (fo.mul i.2.1 i.2.1)) (fo.mul i.2.2 i.2.2))
  if fo.isNaN mag then (fo.zero, fo.zero, fo.zero)
  else (fo.div i.1 mag, fo.div i.2.1 mag, fo.div i.2.2 mag)

/-- `TMFMesh::normalize`, src/lib.rs:626-632. -/
def Mesh.normalize (fo : FloatOps) (m : Mesh fo.F) : Mesh fo.F :=
  { m with normals := m.normals.map (fun l => l.map (Tmf.normalize fo)) }

end Tmf
