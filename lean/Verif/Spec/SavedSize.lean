import Verif.Model.Triangles
import Verif.Spec.Arrays
/-
File size of saved index arrays.
-/

namespace Tmf.Spec

/-- Total size of the segments of several arrays, each saved with its own maximum. -/
def savedSize (b : Build) (pieces : List (List Nat)) : Outcome ExportError Nat :=
  match pieces with
  | [] => .ok 0
  | p :: ps => do
    let d ← saveTriangles b p (maxIndex p)
    let n ← savedSize b ps
    .ok (segmentBytes d.length + n)

end Tmf.Spec
