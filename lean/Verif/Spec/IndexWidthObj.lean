import Verif.Spec.Unify
import Verif.Spec.IndexWidth
import Verif.Spec.Obj
/-
C73: reordering, pruning, unifying and .obj files with other types of indices.
-/

namespace Tmf.Spec

/-- The data corner `p` of a mesh refers to: vertex, normal, uv and tangent, where there are any. -/
def cornerAt {F : Type} (m : Mesh F) (p : Nat) :
    Option (Option (Vec3 F)) × Option (Option (Vec3 F)) × Option (Option (Vec2 F)) × Option (Option (Tangent F)) :=
  ((selected m.vertices m.vertexTriangles).bind (·[p]?), (selected m.normals m.normalTriangles).bind (·[p]?),
    (selected m.uvs m.uvTriangles).bind (·[p]?), (selected m.tangents m.tangentTriangles).bind (·[p]?))

/-- The mesh with all indices of the four arrays cut down to `k` bits. -/
def cutIndices {F : Type} (k : Nat) (m : Mesh F) : Mesh F :=
  { m with
    vertexTriangles := m.vertexTriangles.map (cut k)
    normalTriangles := m.normalTriangles.map (cut k)
    uvTriangles := m.uvTriangles.map (cut k)
    tangentTriangles := m.tangentTriangles.map (cut k) }

/-- A word that is an unsigned number: digits, perhaps after a plus sign. -/
def Numeral (w : List UInt8) (n : Nat) : Prop :=
  ∃ ds, ds ≠ [] ∧ (w = ds ∨ w = 43 :: ds) ∧ (∀ c ∈ ds, 48 ≤ c.toNat ∧ c.toNat ≤ 57) ∧
    n = ds.foldl (fun x c => 10 * x + (c.toNat - 48)) 0

/-- A word after the `f` of a line. -/
def FaceWord (text w : List UInt8) : Prop := ∃ line ∈ textLines text, ∃ ws, splitBytes isObjSep line = ascii "f" :: ws ∧ w ∈ ws

/-- All numbers in the faces of a text are values of a type with `k` bits. -/
def NumbersIn (k : Nat) (text : List UInt8) : Prop := ∀ w n, FaceWord text w → Numeral w n → n < 2 ^ k

/-- The number of lines that begin with a word. -/
def linesWith (beg text : List UInt8) : Nat := (textLines text).countP fun line => (splitBytes isObjSep line).head? = some beg

/-- Fewer vertices, normals and uvs in a text than a type with `k` bits has values. -/
structure LinesIn (k : Nat) (text : List UInt8) : Prop where
  vertices : linesWith (ascii "v") text < 2 ^ k
  normals : linesWith (ascii "vn") text < 2 ^ k
  uvs : linesWith (ascii "vt") text < 2 ^ k

/-- Pushing faces leaves vertices, normals and uvs as they are. -/
def AddsIndices {F : Type} (face : PushFace F) : Prop := ∀ v u n oi oi', face v u n oi = .ok oi' →
  oi'.vertices = oi.vertices ∧ oi'.normals = oi.normals ∧ oi'.uvs = oi.uvs

/-- The same name, and the indices select the same vertices, normals and uvs. -/
structure SameSelection {F : Type} (a b : Mesh F × List UInt8) : Prop where
  name : b.2 = a.2
  vertices : selected b.1.vertices b.1.vertexTriangles = selected a.1.vertices a.1.vertexTriangles
  normals : selected b.1.normals b.1.normalTriangles = selected a.1.normals a.1.normalTriangles
  uvs : selected b.1.uvs b.1.uvTriangles = selected a.1.uvs a.1.uvTriangles

open Classical in
/-- The word, or 1 if it is a number a type with `k` bits cannot hold. -/
noncomputable def orOneIn (k : Nat) (w : List UInt8) : List UInt8 := if ∃ n, Numeral w n ∧ 2 ^ k ≤ n then ascii "1" else w

/-- The indices of a mesh are inside their arrays. -/
structure IndicesInside {F : Type} (m : Mesh F) : Prop where
  vertices : ∀ t, m.vertexTriangles = some t → ∀ i ∈ t, i < (m.vertices.getD []).length
  normals : ∀ t, m.normalTriangles = some t → ∀ i ∈ t, i < (m.normals.getD []).length
  uvs : ∀ t, m.uvTriangles = some t → ∀ i ∈ t, i < (m.uvs.getD []).length

/-- The elements of all meshes together, and one more, can be numbered by a type with `k` bits. -/
structure FitsIn {F : Type} (k : Nat) (meshes : List (Mesh F × List UInt8)) : Prop where
  vertices : 1 + (meshes.map fun m => (m.1.vertices.getD []).length).sum < 2 ^ k
  normals : 1 + (meshes.map fun m => (m.1.normals.getD []).length).sum < 2 ^ k
  uvs : 1 + (meshes.map fun m => (m.1.uvs.getD []).length).sum < 2 ^ k

end Tmf.Spec
