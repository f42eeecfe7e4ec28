import Verif.Spec.Text
import Verif.Model.Obj
import Verif.Spec.Reorder
/-
Specification of .obj text: lines, what they look like, and the scene a file describes.
-/

namespace Tmf.Spec

/-- What is assumed of printing and parsing floats: printed floats are ASCII without blanks, slashes
and line ends, and parsing recovers the value. NaN prints and parses but is not equal to itself, so
nothing is assumed about it. -/
structure FloatTextLaws {fo : FloatOps} (ft : FloatText fo) : Prop where
  clean : ∀ x, ∀ c ∈ ft.print x, c.toNat < 128 ∧ c ≠ 32 ∧ c ≠ 47 ∧ c ≠ 10 ∧ c ≠ 13
  parse_print : ∀ x, fo.isNaN x = false → ft.parse (ft.print x) = some x

/-- A corner of a face: numbers of a vertex and perhaps of a uv and a normal, counted from 1. -/
structure ObjCorner where
  v : Nat
  u : Option Nat
  n : Option Nat
deriving Repr, DecidableEq

/-- The lines that occur in exported files. -/
inductive ObjLine (F : Type) where
  | smooth
  | object (name : List UInt8)
  | vertex (x : Vec3 F)
  | normal (x : Vec3 F)
  | uv (x : Vec2 F)
  | face (a b c : ObjCorner)

/-- `v`, `v/u`, `v//n` or `v/u/n`. -/
def ObjCorner.render (c : ObjCorner) : List UInt8 :=
  match c.u, c.n with
  | none, none => decimal c.v
  | some u, none => decimal c.v ++ [47] ++ decimal u
  | none, some n => decimal c.v ++ [47, 47] ++ decimal n
  | some u, some n => decimal c.v ++ [47] ++ decimal u ++ [47] ++ decimal n

/-- A line of text without its line feed. -/
def ObjLine.render {fo : FloatOps} (ft : FloatText fo) : ObjLine fo.F → List UInt8
  | smooth => ascii "s 1"
  | object name => ascii "o " ++ name
  | vertex x => ascii "v " ++ ft.print x.1 ++ [32] ++ ft.print x.2.1 ++ [32] ++ ft.print x.2.2
  | normal x => ascii "vn " ++ ft.print x.1 ++ [32] ++ ft.print x.2.1 ++ [32] ++ ft.print x.2.2
  | uv x => ascii "vt " ++ ft.print x.1 ++ [32] ++ ft.print x.2
  | face a b c => ascii "f " ++ a.render ++ [32] ++ b.render ++ [32] ++ c.render

/-- The text of a file. -/
def objText {fo : FloatOps} (ft : FloatText fo) (lines : List (ObjLine fo.F)) : List UInt8 :=
  lines.flatMap (fun l => l.render ft ++ [10])

/-- A line whose text can be understood: names have no line feeds, coordinates are not NaN. -/
def ObjLine.Readable (fo : FloatOps) : ObjLine fo.F → Prop
  | smooth => True
  | object name => ∀ c ∈ name, c ≠ 10
  | vertex x => fo.isNaN x.1 = false ∧ fo.isNaN x.2.1 = false ∧ fo.isNaN x.2.2 = false
  | normal x => fo.isNaN x.1 = false ∧ fo.isNaN x.2.1 = false ∧ fo.isNaN x.2.2 = false
  | uv x => fo.isNaN x.1 = false ∧ fo.isNaN x.2 = false
  | face a b c => ∀ k ∈ [a, b, c], k.v < 2 ^ 32 ∧ (∀ u, k.u = some u → u < 2 ^ 32) ∧ ∀ n, k.n = some n → n < 2 ^ 32

/-- What a corner stands for; uv and normal may be absent. The inner `none` stands for a number
without element. -/
structure CornerData (F : Type) where
  vertex : Option (Vec3 F)
  uv : Option (Option (Vec2 F))
  normal : Option (Option (Vec3 F))
deriving DecidableEq

/-- A file read so far: all vertices, normals and uvs, numbered across objects, and the faces of every
object. -/
structure Scene (F : Type) where
  vertices : List (Vec3 F)
  normals : List (Vec3 F)
  uvs : List (Vec2 F)
  objects : List (List UInt8 × List (List (CornerData F)))

/-- The element with a number counted from 1. -/
def numbered {α : Type} (l : List α) (k : Nat) : Option α := if k = 0 then none else l[k - 1]?

/-- What a corner stands for in a scene. -/
def Scene.corner {F : Type} (s : Scene F) (c : ObjCorner) : CornerData F :=
  ⟨numbered s.vertices c.v, c.u.map (numbered s.uvs), c.n.map (numbered s.normals)⟩

/-- Add a face to the object begun last. -/
def addFace {F : Type} (face : List (CornerData F)) :
    List (List UInt8 × List (List (CornerData F))) → List (List UInt8 × List (List (CornerData F)))
  | [] => []
  | [(name, faces)] => [(name, faces ++ [face])]
  | o :: rest => o :: addFace face rest

/-- One more line. -/
def Scene.step {F : Type} (s : Scene F) : ObjLine F → Scene F
  | .smooth => s
  | .object name => { s with objects := s.objects ++ [(name, [])] }
  | .vertex x => { s with vertices := s.vertices ++ [x] }
  | .normal x => { s with normals := s.normals ++ [x] }
  | .uv x => { s with uvs := s.uvs ++ [x] }
  | .face a b c => { s with objects := addFace [s.corner a, s.corner b, s.corner c] s.objects }

/-- The scene a file describes. -/
def scene {F : Type} (lines : List (ObjLine F)) : Scene F := lines.foldl Scene.step ⟨[], [], [], []⟩

/-- What corner `i` of a mesh stands for. -/
def meshCorner {F : Type} (m : Mesh F) (i : Nat) : CornerData F :=
  ⟨((m.vertexTriangles.getD [])[i]?).bind fun k => (m.vertices.getD [])[k]?,
   m.uvTriangles.map fun t => (t[i]?).bind fun k => (m.uvs.getD [])[k]?,
   m.normalTriangles.map fun t => (t[i]?).bind fun k => (m.normals.getD [])[k]?⟩

/-- The triangles of a mesh. -/
def meshFaces {F : Type} (m : Mesh F) : List (List (CornerData F)) :=
  (List.range ((m.vertexTriangles.getD []).length / 3)).map fun t =>
    [meshCorner m (3 * t), meshCorner m (3 * t + 1), meshCorner m (3 * t + 2)]

/-- A mesh with whole triangles whose indices are in range. Normals and uvs may be absent. -/
structure HasFaces {F : Type} (m : Mesh F) : Prop where
  vertices : ∃ t, m.vertexTriangles = some t ∧ 3 ∣ t.length ∧ InRange (m.vertices.getD []).length t
  normals : ∀ t, m.normalTriangles = some t →
    t.length = (m.vertexTriangles.getD []).length ∧ InRange (m.normals.getD []).length t
  uvs : ∀ t, m.uvTriangles = some t →
    t.length = (m.vertexTriangles.getD []).length ∧ InRange (m.uvs.getD []).length t

/-- All elements of a list of meshes together can be numbered by `u32`. -/
structure FitsU32 {F : Type} (meshes : List (Mesh F × List UInt8)) : Prop where
  vertices : 1 + (meshes.map fun m => (m.1.vertices.getD []).length).sum < 2 ^ 32
  normals : 1 + (meshes.map fun m => (m.1.normals.getD []).length).sum < 2 ^ 32
  uvs : 1 + (meshes.map fun m => (m.1.uvs.getD []).length).sum < 2 ^ 32

/-- No coordinate is NaN. -/
def NoNaN (fo : FloatOps) (m : Mesh fo.F) : Prop :=
  (∀ x ∈ m.vertices.getD [], fo.isNaN x.1 = false ∧ fo.isNaN x.2.1 = false ∧ fo.isNaN x.2.2 = false) ∧
    (∀ x ∈ m.normals.getD [], fo.isNaN x.1 = false ∧ fo.isNaN x.2.1 = false ∧ fo.isNaN x.2.2 = false) ∧
    (∀ x ∈ m.uvs.getD [], fo.isNaN x.1 = false ∧ fo.isNaN x.2 = false)

/-- A mesh with at least one triangle, normals and uvs, and no NaN. -/
structure CompleteMesh (fo : FloatOps) (m : Mesh fo.F) : Prop where
  faces : HasFaces m
  nonempty : m.vertexTriangles ≠ some []
  vertices : m.vertices.isSome
  normals : m.normals.isSome
  uvs : m.uvs.isSome
  normalTriangles : m.normalTriangles.isSome
  uvTriangles : m.uvTriangles.isSome
  noNaN : NoNaN fo m

/-- A name that survives: text without blanks, slashes and line ends. -/
def ObjName (name : List UInt8) : Prop :=
  IsText name ∧ (∀ c ∈ name, c ≠ 32 ∧ c ≠ 47 ∧ c ≠ 10) ∧ name.getLast? ≠ some 13

/-- The same name and the same vertex, normal and uv buffers. -/
def SameGeometry {F : Type} (a b : Mesh F × List UInt8) : Prop :=
  a.2 = b.2 ∧ a.1.getVertexBuffer = b.1.getVertexBuffer ∧ a.1.getNormalBuffer = b.1.getNormalBuffer ∧
    a.1.getUvBuffer = b.1.getUvBuffer

end Tmf.Spec
