import Verif.Spec.Convert
import Verif.Spec.Polygon
/-
C108: scenes with polygons that can be stored as .tmf.
-/

namespace Tmf.Spec
open Ieee

/-- One more line of a file with polygons. -/
def Scene.polyStep {F : Type} (s : Scene F) : PolyLine F → Scene F
  | .plain l => s.step l.means
  | .face corners _ _ => { s with objects := addFace (corners.map fun c => s.corner c.number) s.objects }

/-- The scene a file with polygons describes: its faces have any number of corners. -/
def polyScene {F : Type} (lines : List (PolyLine F)) : Scene F := lines.foldl Scene.polyStep Scene.start

/-- The triangles the faces of an object are cut into. -/
def triangleCount {F : Type} (o : List UInt8 × List (List (CornerData F))) : Nat := (o.2.map fun f => f.length - 2).sum

/-- An object with that many faces. -/
def cutUp {F : Type} (o : List UInt8 × List (List (CornerData F))) : List UInt8 × List (List (CornerData F)) :=
  (o.1, List.replicate (triangleCount o) [])

/-- Two corners of a face are at least `δ` apart. -/
def Apart (δ : ℚ) (x y : CornerData (Val b32)) : Prop := ∀ a c, x.vertex = some a → y.vertex = some c → (δ : ℝ) ≤ chord a c

/-- A scene with polygons that can be stored: as `StorableScene`, where any two corners of a face are at least `δ` apart. -/
structure StorablePolygons (k : Nat) (P M δ : ℚ) (s : Scene (Val b32)) : Prop where
  some : s.vertices ≠ []
  range : M ≤ 2 ^ 58
  inner : ∀ v ∈ s.vertices, VecWithin M v
  least : 1 / 2 ^ 39 ≤ δ
  most : δ ≤ 1 / 10
  apart : ∀ o ∈ s.objects, ∀ f ∈ o.2, f.Pairwise (Apart δ)
  bits : 4 * M + 1 / 2 ^ 18 ≤ 2 ^ k * (δ * P)
  names : ∀ o ∈ s.objects, NameOk o.1
  segments : ∀ o ∈ s.objects, objectSegments s (cutUp o) < 2 ^ 16
  size : 15 + ((delivered s.objects).map fun o => objectSizeBound s (cutUp o)).sum ≤ 2 ^ 31

/-- No face has more than four corners. -/
def QuadsAtMost {F : Type} (s : Scene F) : Prop := ∀ o ∈ s.objects, ∀ f ∈ o.2, f.length ≤ 4

end Tmf.Spec
