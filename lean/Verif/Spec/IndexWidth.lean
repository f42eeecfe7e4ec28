import Mathlib.Data.List.Forall2
import Verif.Model.Mesh
/-
C69: what the size of the type of indices may change.
-/

namespace Tmf.Spec

/-- The number is the largest of the list, or 0 if there is none. -/
def Largest (l : List Nat) (m : Nat) : Prop := (∀ i ∈ l, i ≤ m) ∧ (m ∈ l ∨ l = [] ∧ m = 0)

/-- All indices without their upper bits: `k` bits are left. -/
def cut (k : Nat) (l : List Nat) : List Nat := l.map (· % 2 ^ k)

/-- Custom data read with a wider and a narrower type: indices and integers lose their upper bits, the
maximum is the largest of what is there, everything else is the same. -/
inductive CutCustom {F : Type} (k : Nat) : CustomData F → CustomData F → Prop
  | index (l : List Nat) (m m' : Nat) (h : Largest l m) (h' : Largest (cut k l) m') : CutCustom k (.index l m) (.index (cut k l) m')
  | integer (l : List Nat) (m m' : Nat) (h : Largest l m) (h' : Largest (cut k l) m') :
      CutCustom k (.integer l m) (.integer (cut k l) m')
  | float (l : List F) (p : F) : CutCustom k (.float l p) (.float l p)
  | color (l : List (Vec4 F)) (p : F) : CutCustom k (.color l p) (.color l p)

/-- The mesh `m'` is `m` with all indices and custom integers cut down to `k` bits. -/
structure CutMesh {F : Type} (k : Nat) (m m' : Mesh F) : Prop where
  vertices : m'.vertices = m.vertices
  normals : m'.normals = m.normals
  uvs : m'.uvs = m.uvs
  tangents : m'.tangents = m.tangents
  vertexTriangles : m'.vertexTriangles = m.vertexTriangles.map (cut k)
  normalTriangles : m'.normalTriangles = m.normalTriangles.map (cut k)
  uvTriangles : m'.uvTriangles = m.uvTriangles.map (cut k)
  tangentTriangles : m'.tangentTriangles = m.tangentTriangles.map (cut k)
  customData : List.Forall₂ (fun c c' => c'.name = c.name ∧ CutCustom k c.data c'.data) m.customData m'.customData

/-- All indices of the four arrays are values of a type with `k` bits. -/
structure ArraysIn {F : Type} (k : Nat) (m : Mesh F) : Prop where
  vertex : ∀ l, m.vertexTriangles = some l → ∀ i ∈ l, i < 2 ^ k
  normal : ∀ l, m.normalTriangles = some l → ∀ i ∈ l, i < 2 ^ k
  uv : ∀ l, m.uvTriangles = some l → ∀ i ∈ l, i < 2 ^ k
  tangent : ∀ l, m.tangentTriangles = some l → ∀ i ∈ l, i < 2 ^ k

/-- The integers of custom data are values of a type with `k` bits. -/
def CustomIn {F : Type} (k : Nat) : CustomData F → Prop
  | .index l _ => ∀ i ∈ l, i < 2 ^ k
  | .integer l _ => ∀ i ∈ l, i < 2 ^ k
  | _ => True

/-- All indices and integers of a mesh are values of a type with `k` bits. -/
structure MeshIn {F : Type} (k : Nat) (m : Mesh F) : Prop where
  arrays : ArraysIn k m
  custom : ∀ c ∈ m.customData, CustomIn k c.data

end Tmf.Spec
