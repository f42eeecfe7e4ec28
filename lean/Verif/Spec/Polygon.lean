import Verif.Spec.Face
import Verif.Spec.ObjFile
/-
C80: .obj files with faces of any number of corners.
-/

namespace Tmf.Spec

/-- A corner in a file: its numbers count from 1. -/
def Corner.number (c : Corner) : ObjCorner := ⟨c.vertex + 1, some (c.uv + 1), some (c.normal + 1)⟩

/-- A line of a file: any line, or a face with any number of corners, perhaps with a blank at its end. -/
inductive PolyLine (F : Type) where
  | plain (l : TextLine F)
  | face (corners : List Corner) (blank cr : Bool)

/-- The text of a face. -/
def polygonText (corners : List Corner) (blank : Bool) : List UInt8 :=
  102 :: (corners.flatMap (fun c => 32 :: c.number.render) ++ if blank then [32] else [])

/-- The line as text. (The meaning of a polygon is not used.) -/
def PolyLine.line {F : Type} : PolyLine F → TextLine F
  | .plain l => l
  | .face corners blank cr => ⟨polygonText corners blank, cr, .smooth⟩

/-- The line of a triangle. -/
def triangleLine {F : Type} (cr : Bool) (t : Triangle) : TextLine F :=
  ⟨ascii "f " ++ t.1.number.render ++ [32] ++ t.2.1.number.render ++ [32] ++ t.2.2.number.render ++ [], cr,
    .face t.1.number t.2.1.number t.2.2.number⟩

/-- A line and lines that say the same with triangles: one less than two for the corners of the face, made by cutting
off its corners one after the other. Those of triangles and quads cover the face. -/
inductive Rewritten {F : Type} : PolyLine F → List (TextLine F) → Prop
  | plain (l : TextLine F) : Rewritten (.plain l) [l]
  | face {corners : List Corner} (blank cr : Bool) {ps : List Nat} {tris : List Triangle} (count : tris.length + 2 = corners.length)
      (cut : CutOff corners ps tris) (inside : CornersFrom corners tris) (cover : corners.length ≤ 4 → Covers corners tris) :
      Rewritten (.face corners blank cr) (tris.map (triangleLine cr))

/-- Plain lines have the meaning they are given. Faces have at least three corners, and these are defined by lines
before. -/
def PolyDefined {fo : FloatOps} (ft : FloatText fo) : Scene fo.F → List (PolyLine fo.F) → Prop
  | _, [] => True
  | s, .plain l :: rest => LineChars l.text ∧ LineMeans ft l.text l.means ∧
      (∀ a b c, l.means = .face a b c → s.Defines a ∧ s.Defines b ∧ s.Defines c) ∧ PolyDefined ft (s.step l.means) rest
  | s, .face corners _ _ :: rest => 3 ≤ corners.length ∧ (∀ c ∈ corners, s.Defines c.number) ∧ PolyDefined ft s rest

end Tmf.Spec
