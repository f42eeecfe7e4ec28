import Verif.Model.Export
import Verif.Spec.SegmentCount
/-
How many bytes the parts of a file take, from the numbers of elements and the widths.
-/

namespace Tmf.Spec

/-- Bytes taken by a number of bits. -/
def packed (bits : Nat) : Nat := (bits + 7) / 8

/-- The bits one vertex of an array takes: the sum of the three widths. -/
def vertexWidth (fo : FloatOps) (pr edge : fo.F) (l : List (Vec3 fo.F)) : Nat :=
  match vertexBox fo l with
  | .ok s => (s.precs fo pr edge).1 + (s.precs fo pr edge).2.1 + (s.precs fo pr edge).2.2
  | _ => 0

/-- An index array: width, count, minimum, then the indices. -/
def indexSize (maxIdx n : Nat) : Nat := 17 + packed (n * calcPrec maxIdx)

/-- The contents of custom data, without the name. -/
def customSize (fo : FloatOps) : CustomData fo.F → Nat
  | .index l m => indexSize m l.length
  | .integer l m => indexSize m l.length
  | .float l p => 25 + packed (l.length * floatPrec fo l p)
  | .color l p => 9 + packed (l.length * (4 * colorPrec fo p))

/-- The contents of a segment, without its header of 6 bytes. -/
def dataSize (fo : FloatOps) (prec : PrecisionInfo fo.F) (edge : fo.F) : DecodedSegment fo.F → Nat
  | .vertex l => 59 + packed (l.length * vertexWidth fo prec.vertex edge l)
  | .normal l => 9 + packed (l.length * (3 + 2 * prec.normal))
  | .tangent l => 9 + packed (l.length * (4 + 2 * prec.tangent))
  | .uv l => 9 + packed (l.length * (2 * prec.uv))
  | .triVertex l | .triNormal l | .triUv l | .triTangent l => indexSize (maxIndex l) l.length
  | .shared _ l => 1 + indexSize (maxIndex l) l.length
  | .custom s => 1 + s.name.length + customSize fo s.data
  | .nothing => 0

/-- The bytes of a named mesh: two lengths, the name, and 6 bytes and the contents of every segment that
is left after merging and cutting. -/
def MeshSize (fo : FloatOps) (b : Build) (prec : PrecisionInfo fo.F) (mn : Mesh fo.F × List UInt8) (n : Nat) : Prop :=
  ∃ edge merged pieces, calcShortestEdge fo mn.1.vertexTriangles mn.1.vertices = .ok edge ∧
    mergeSegments (meshSegs mn.1) = .ok merged ∧ Outcome.mapAll (DecodedSegment.optimize fo b) merged = .ok pieces ∧
    n = 4 + mn.2.length + (pieces.flatten.map fun s => 6 + dataSize fo prec edge s).sum

/-- The number of elements of custom data. -/
def customCount {F : Type} : CustomData F → Nat
  | .index l _ => l.length
  | .integer l _ => l.length
  | .float l _ => l.length
  | .color l _ => l.length

def elementCount {α : Type} : Option (List α) → Nat
  | none => 0
  | some l => l.length

/-- The number of elements in all arrays of a mesh. -/
def elements {F : Type} (m : Mesh F) : Nat :=
  elementCount m.vertices + elementCount m.normals + elementCount m.uvs + elementCount m.tangents +
    elementCount m.vertexTriangles + elementCount m.normalTriangles + elementCount m.uvTriangles + elementCount m.tangentTriangles

/-- 128 bytes for each element of custom data, and the names. -/
def customLoad {F : Type} (m : Mesh F) : Nat := (m.customData.map fun c => 128 * customCount c.data + c.name.length).sum

/-- The most bytes a named mesh can take: 128 for each element, 66 for each segment, and the names. -/
def meshSizeBound {F : Type} (mn : Mesh F × List UInt8) : Nat :=
  4 + mn.2.length + 66 * segmentBound mn.1 + 128 * elements mn.1 + customLoad mn.1

end Tmf.Spec
