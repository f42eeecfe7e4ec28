import Verif.Spec.EndToEnd
import Verif.Spec.ObjFile
/-
Scenes in .obj files that can be stored as .tmf, and what they become.
-/

namespace Tmf.Spec
open Ieee

/-- Two neighbouring corners of a face. -/
def FaceEdge (f : List (CornerData (Val b32))) (a c : Vec3 (Val b32)) : Prop :=
  ∃ x y z, f = [x, y, z] ∧
    (x.vertex = some a ∧ y.vertex = some c ∨ y.vertex = some a ∧ z.vertex = some c ∨ z.vertex = some a ∧ x.vertex = some c)

/-- The most pieces an index array for `f` faces and `n` elements is cut into. -/
def facePieces (n f : Nat) : Nat := 1 + 3 * f * (Nat.log2 n + 1) / 89

/-- The most segments an object can take. -/
def objectSegments {F : Type} (s : Scene F) (o : List UInt8 × List (List (CornerData F))) : Nat :=
  facePieces s.vertices.length o.2.length + facePieces s.normals.length o.2.length + facePieces s.uvs.length o.2.length +
    s.vertices.length + 3

/-- The most bytes an object can take. -/
def objectSizeBound {F : Type} (s : Scene F) (o : List UInt8 × List (List (CornerData F))) : Nat :=
  4 + o.1.length + 66 * objectSegments s o + 128 * (s.vertices.length + s.normals.length + s.uvs.length + 9 * o.2.length)

/-- A scene that can be stored with at most `k` bits for each coordinate of a vertex at precision `P`: there is a
vertex, coordinates are between `-M` and `M`, no edge of a face is shorter than `δ`, steps of `δ P` divide four times
`M` into fewer than `2^k` parts, names fit, and there is not too much of anything. -/
structure StorableScene (k : Nat) (P M δ : ℚ) (s : Scene (Val b32)) : Prop where
  some : s.vertices ≠ []
  range : M ≤ 2 ^ 58
  inner : ∀ v ∈ s.vertices, VecWithin M v
  least : 1 / 2 ^ 39 ≤ δ
  most : δ ≤ 1 / 10
  edges : ∀ o ∈ s.objects, ∀ f ∈ o.2, ∀ a c, FaceEdge f a c → (δ : ℝ) ≤ chord a c
  bits : 4 * M + 1 / 2 ^ 18 ≤ 2 ^ k * (δ * P)
  names : ∀ o ∈ s.objects, NameOk o.1
  segments : ∀ o ∈ s.objects, objectSegments s o < 2 ^ 16
  size : 15 + ((delivered s.objects).map (objectSizeBound s)).sum ≤ 2 ^ 31

/-- Unit normals, and uv coordinates between 0 and 1; with 25 bits or more, not those that are lost. -/
structure MeaningfulScene (prec : PrecisionInfo (Val b32)) (s : Scene (Val b32)) : Prop where
  normals : ∀ n ∈ s.normals, UnitNormal n ∧ (25 ≤ prec.normal → OffAxes n)
  uvs : ∀ uv ∈ s.uvs, Storable prec.uv uv.1 ∧ Storable prec.uv uv.2

/-- A corner and what it becomes: uv and normal are near. -/
structure CornerKept (prec : PrecisionInfo (Val b32)) (c c' : CornerData (Val b32)) : Prop where
  vertex : c'.vertex.isSome
  uv : ∃ x x', c.uv = some (some x) ∧ c'.uv = some (some x') ∧ StepBelow prec.uv x.1 x'.1 ∧ StepBelow prec.uv x.2 x'.2
  normal : ∃ x x', c.normal = some (some x) ∧ c'.normal = some (some x') ∧ KeptNormal prec.normal x x'

end Tmf.Spec
