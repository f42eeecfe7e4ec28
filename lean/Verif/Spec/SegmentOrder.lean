import Verif.Spec.FileFormat
import Verif.Spec.DecodedSize
/-
Which arrays of a mesh a segment of a file is for.
-/

namespace Tmf.Spec

/-- The arrays of a mesh. -/
inductive MeshArray where
  | vertices | normals | uvs | tangents | vertexTriangles | normalTriangles | uvTriangles | tangentTriangles | custom
deriving Repr, DecidableEq

/-- Whether a segment adds to an array: by its type code and, for indices shared by several arrays, by
the bits of its first byte. -/
def feeds (a : MeshArray) (s : RawSeg) : Bool :=
  match a with
  | .vertices => s.kind == 1
  | .normals => s.kind == 3
  | .uvs => s.kind == 5
  | .tangents => s.kind == 9
  | .vertexTriangles => s.kind == 2 || (s.kind == 25 && (byteAt s.data 0).testBit 0)
  | .normalTriangles => s.kind == 4 || (s.kind == 25 && (byteAt s.data 0).testBit 1)
  | .uvTriangles => s.kind == 6 || (s.kind == 25 && (byteAt s.data 0).testBit 2)
  | .tangentTriangles => s.kind == 10
  | .custom => s.kind == 15 || s.kind == 16 || s.kind == 23 || s.kind == 24

/-- Two lists of segments that give every array the same segments in the same order; the second has no
others but segments of unknown type. -/
structure SameSegments (segs segs' : List RawSeg) : Prop where
  arrays : ∀ a, segs'.filter (feeds a) = segs.filter (feeds a)
  others : ∀ s ∈ segs', s ∈ segs ∨ s.kind ∉ knownKinds

end Tmf.Spec
