import Verif.Spec.Obj
/-
Specification of .obj files as other programs write them: lines in any order, with comments, further
words, either kind of line end and perhaps no line end after the last line.
-/

namespace Tmf.Spec

/-- The characters up to the first blank or slash. -/
def firstWord (text : List UInt8) : List UInt8 := text.takeWhile (fun c => c ≠ 32 ∧ c ≠ 47)

/-- A word: no blanks and no slashes. -/
def IsWord (w : List UInt8) : Prop := ∀ c ∈ w, c ≠ 32 ∧ c ≠ 47

/-- Nothing, or a blank and anything. -/
def Further (rest : List UInt8) : Prop := rest = [] ∨ ∃ t, rest = 32 :: t

/-- A word that spells a number. -/
def Spells {fo : FloatOps} (ft : FloatText fo) (w : List UInt8) (x : fo.F) : Prop := IsWord w ∧ ft.parse w = some x

/-- What the text of a line means. Anything that starts with none of the five words means nothing,
like "s 1". -/
inductive LineMeans {fo : FloatOps} (ft : FloatText fo) : List UInt8 → ObjLine fo.F → Prop where
  | vertex {a b c rest : List UInt8} {x : Vec3 fo.F} : Spells ft a x.1 → Spells ft b x.2.1 → Spells ft c x.2.2 → Further rest →
    LineMeans ft (ascii "v " ++ a ++ [32] ++ b ++ [32] ++ c ++ rest) (.vertex x)
  | normal {a b c rest : List UInt8} {x : Vec3 fo.F} : Spells ft a x.1 → Spells ft b x.2.1 → Spells ft c x.2.2 → Further rest →
    LineMeans ft (ascii "vn " ++ a ++ [32] ++ b ++ [32] ++ c ++ rest) (.normal x)
  | uv {a b rest : List UInt8} {x : Vec2 fo.F} : Spells ft a x.1 → Spells ft b x.2 → Further rest →
    LineMeans ft (ascii "vt " ++ a ++ [32] ++ b ++ rest) (.uv x)
  | face {a b c : ObjCorner} {rest : List UInt8} : rest = [] ∨ rest = [32] →
    LineMeans ft (ascii "f " ++ a.render ++ [32] ++ b.render ++ [32] ++ c.render ++ rest) (.face a b c)
  | object {name rest : List UInt8} : IsWord name → Further rest → LineMeans ft (ascii "o " ++ name ++ rest) (.object name)
  | nothing {text : List UInt8} : firstWord text ∉ [ascii "v", ascii "vn", ascii "vt", ascii "f", ascii "o"] →
    LineMeans ft text .smooth

/-- A line of a file: its text, whether a carriage return precedes the line feed, and what it means. -/
structure TextLine (F : Type) where
  text : List UInt8
  cr : Bool
  means : ObjLine F

/-- UTF-8 without line feed, not ending in a carriage return. -/
def LineChars (text : List UInt8) : Prop := IsText text ∧ (∀ c ∈ text, c ≠ 10) ∧ text.getLast? ≠ some 13

/-- The text of a file. `last` is a line without line end. -/
def fileText {F : Type} (lines : List (TextLine F)) (last : Option (TextLine F)) : List UInt8 :=
  lines.flatMap (fun l => l.text ++ if l.cr then [13, 10] else [10]) ++ (last.map TextLine.text).getD []

/-- Everything a file says. -/
def fileMeans {F : Type} (lines : List (TextLine F)) (last : Option (TextLine F)) : List (ObjLine F) :=
  (lines ++ last.toList).map TextLine.means

/-- A corner with vertex, uv and normal, all defined by lines before. -/
def Scene.Defines {F : Type} (s : Scene F) (c : ObjCorner) : Prop :=
  (1 ≤ c.v ∧ c.v ≤ s.vertices.length ∧ c.v < 2 ^ 32) ∧
    (∃ u, c.u = some u ∧ 1 ≤ u ∧ u ≤ s.uvs.length ∧ u < 2 ^ 32) ∧
    ∃ n, c.n = some n ∧ 1 ≤ n ∧ n ≤ s.normals.length ∧ n < 2 ^ 32

/-- All corners of all faces are defined before. -/
def Defined {F : Type} : Scene F → List (ObjLine F) → Prop
  | _, [] => True
  | s, l :: rest => (∀ a b c, l = .face a b c → s.Defines a ∧ s.Defines b ∧ s.Defines c) ∧ Defined (s.step l) rest

/-- At the start of a file there is an object without name. -/
def Scene.start {F : Type} : Scene F := ⟨[], [], [], [([], [])]⟩

/-- The scene a file describes, where faces may come before the first object. -/
def sceneOf {F : Type} (lines : List (ObjLine F)) : Scene F := lines.foldl Scene.step Scene.start

/-- The objects of a file that are delivered: those with faces, and the last. -/
def delivered {F : Type} (objects : List (List UInt8 × List (List (CornerData F)))) :
    List (List UInt8 × List (List (CornerData F))) :=
  objects.dropLast.filter (fun o => !o.2.isEmpty) ++ objects.getLast?.toList

/-- A mesh read from a file: its name, exactly the faces of an object, and all three index arrays whole
and in range. -/
structure ReadAs {F : Type} (m : Mesh F × List UInt8) (o : List UInt8 × List (List (CornerData F))) : Prop where
  name : m.2 = o.1
  faces : meshFaces m.1 = o.2
  whole : HasFaces m.1
  uvs : m.1.uvTriangles.isSome
  normals : m.1.normalTriangles.isSome

/-- Whole triangles: the three index arrays are there, have the same length, and it is a multiple of
three. -/
def WholeTriangles {F : Type} (m : Mesh F) : Prop :=
  ∃ v u n, m.vertexTriangles = some v ∧ m.uvTriangles = some u ∧ m.normalTriangles = some n ∧
    u.length = v.length ∧ n.length = v.length ∧ 3 ∣ v.length

end Tmf.Spec
