import Verif.Model.Basic
/-
Reordering triangles, src/reorder_triangles.rs:2-54. Nothing in the library calls it; the final
`println!` is not modelled. `IndexType` is `u32`, so the differences fit `isize`.
-/

namespace Tmf

/-- `triangles[..][index]` of every array. -/
def column (arrays : List (List Nat)) (index : Nat) : List Nat := arrays.map (·.getD index 0)

/-- The inner loop, src/reorder_triangles.rs:13-18: the largest change of an index in any array. -/
def columnDelta (curr last : List Nat) : Nat :=
  (List.zipWith (fun c l => max c l - min c l) curr last).foldl max 0

/-- The first loop, src/reorder_triangles.rs:12-20. -/
def deltaLoop (arrays : List (List Nat)) : (indices : List Nat) → (last : List Nat) → List Nat
  | [], _ => []
  | i :: rest, last => columnDelta (column arrays i) last :: deltaLoop arrays rest (column arrays i)

/-- `max_deltas`, src/reorder_triangles.rs:10-20. -/
def maxDeltas (count : Nat) (arrays : List (List Nat)) (len : Nat) : List Nat :=
  deltaLoop arrays (List.range len) (List.replicate count 0)

/-- The largest delta of a triangle's corners, src/reorder_triangles.rs:25-27. -/
def triangleDelta (deltas : List Nat) (index : Nat) : Nat :=
  max (max (deltas.getD (index * 3) 0) (deltas.getD (index * 3 + 1) 0)) (deltas.getD (index * 3 + 2) 0)

/-- The corners of a triangle in all arrays, src/reorder_triangles.rs:29-34. -/
def triangleColumns (arrays : List (List Nat)) (index : Nat) : List (List Nat) :=
  [column arrays (index * 3), column arrays (index * 3 + 1), column arrays (index * 3 + 2)]

/-- The second loop, src/reorder_triangles.rs:24-41, with `res_sorted` and `res_unorganized`. -/
def sortLoop (arrays : List (List Nat)) (deltas : List Nat) :
    (indices : List Nat) → (sorted rest : List (List Nat)) → List (List Nat) × List (List Nat)
  | [], sorted, rest => (sorted, rest)
  | i :: is, sorted, rest =>
    if triangleDelta deltas i < 16 then sortLoop arrays deltas is (sorted ++ triangleColumns arrays i) rest
    else sortLoop arrays deltas is sorted (rest ++ triangleColumns arrays i)

/-- `reorder_triangles::<count>`, src/reorder_triangles.rs:2-54. The assertions and `triangles[0]`
panic. -/
def reorderTriangles (count : Nat) (arrays : List (List Nat)) : Outcome Empty (List (List Nat)) :=
  if arrays.length ≠ count then .panic
  else match arrays with
    | [] => .panic
    | a :: _ =>
      let len := a.length
      if arrays.all (fun x => x.length == len) then
        let (sorted, rest) := sortLoop arrays (maxDeltas count arrays len) (List.range (len / 3)) [] []
        .ok ((List.range count).map fun k => sorted.map (·.getD k 0) ++ rest.map (·.getD k 0))
      else .panic

end Tmf
