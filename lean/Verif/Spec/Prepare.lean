import Verif.Spec.EndToEnd
import Verif.Spec.Unify
/-
Preparing meshes before saving them: reordering and unifying, in any order and any number of times.
-/

namespace Tmf.Spec
open Ieee

/-- A step of the preparation. Unifying goes through a hash map, whose iteration order is part of the step. -/
inductive Prep
  | reorder
  | unify (order : Combos → Combos)

/-- The iteration order is one of a hash map. -/
def Prep.Fair : Prep → Prop
  | .reorder => True
  | .unify order => IterOrder order

def Prep.run {F : Type} : Prep → Mesh F → Outcome Empty (Mesh F)
  | .reorder, m => m.reorderData
  | .unify order, m => m.unifyIndexData order

/-- One step after the other. -/
def prepare {F : Type} : List Prep → Mesh F → Outcome Empty (Mesh F)
  | [], m => .ok m
  | s :: l, m => do
    let m ← s.run m
    prepare l m

/-- The number of entries of the longest index array. -/
def corners {F : Type} (m : Mesh F) : Nat :=
  Nat.max (Nat.max (elementCount m.vertexTriangles) (elementCount m.normalTriangles))
    (Nat.max (elementCount m.uvTriangles) (elementCount m.tangentTriangles))

/-- The most elements an array can get: one for each corner. -/
def mostElements {α : Type} (n : Nat) : Option (List α) → Nat
  | none => 0
  | some l => Nat.max l.length n

/-- The most pieces an index array for `n` corners can be cut into after preparation; without data it stays as it is. -/
def preparedPieces {α : Type} (n : Nat) (data : Option (List α)) (indices : Option (List Nat)) : Nat :=
  match data with
  | none => indexPieces indices
  | some _ => 1 + n * (Nat.log2 (mostElements n data) + 1) / 89

/-- The most segments a mesh can take after preparation. -/
def preparedSegments {F : Type} (m : Mesh F) : Nat :=
  m.customData.length + preparedPieces (corners m) m.tangents m.tangentTriangles + preparedPieces (corners m) m.uvs m.uvTriangles +
    preparedPieces (corners m) m.normals m.normalTriangles + preparedPieces (corners m) m.vertices m.vertexTriangles +
    mostElements (corners m) m.vertices + 4

/-- The most bytes a named mesh can take after preparation. -/
def preparedSize {F : Type} (mn : Mesh F × List UInt8) : Nat :=
  4 + mn.2.length + 66 * preparedSegments mn.1 + customLoad mn.1 +
    128 * (mostElements (corners mn.1) mn.1.vertices + mostElements (corners mn.1) mn.1.normals + mostElements (corners mn.1) mn.1.uvs +
      mostElements (corners mn.1) mn.1.tangents + 4 * corners mn.1)

/-- A mesh that can be prepared and saved: index arrays with data are in range and equally long, the vertices are
sensible, and there is room for what the preparation may add. -/
structure PreparableMesh (k : Nat) (P : ℚ) (m : Mesh (Val b32)) : Prop where
  input : UnifyInput m (corners m)
  vertices : ∀ l, m.vertices = some l → ∃ M δ, SensibleVertices k P M δ l m.vertexTriangles
  vertexTriangles : SmallIndices m.vertexTriangles
  normalTriangles : SmallIndices m.normalTriangles
  uvTriangles : SmallIndices m.uvTriangles
  tangentTriangles : SmallIndices m.tangentTriangles
  custom : ∀ c ∈ m.customData, SensibleCustom c
  segments : preparedSegments m < 2 ^ 16

/-- Meshes and settings for which preparation and saving succeed. -/
structure Preparable (k : Nat) (prec : PrecisionInfo (Val b32)) (meshes : List (Mesh (Val b32) × List UInt8)) : Prop where
  finite : isFinite prec.vertex = true
  vertex : valueOf prec.vertex ≤ 2 ^ 20
  normal : prec.normal ≤ 30
  uv : prec.uv ≤ 30
  tangent : prec.tangent ≤ 30
  names : ∀ mn ∈ meshes, NameOk mn.2
  mesh : ∀ mn ∈ meshes, PreparableMesh k (valueOf prec.vertex) mn.1
  size : 15 + (meshes.map preparedSize).sum ≤ 2 ^ 31

/-- Two arrays with their indices have the same number of corners, and corner by corner they are related. -/
def CornersRelated {α : Type} (R : α → α → Prop) (data data' : Option (List α)) (indices indices' : Option (List Nat)) : Prop :=
  ∀ c, selected data indices = some c → ∃ c', selected data' indices' = some c' ∧
    List.Forall₂ (fun x x' => ∃ e e', x = some e ∧ x' = some e' ∧ R e e') c c'

/-- Corner by corner the same uv coordinates, normals and tangents, and the same custom data. -/
structure SameCorners {F : Type} (m m' : Mesh F) : Prop where
  normals : selected m'.normals m'.normalTriangles = selected m.normals m.normalTriangles
  uvs : selected m'.uvs m'.uvTriangles = selected m.uvs m.uvTriangles
  tangents : selected m'.tangents m'.tangentTriangles = selected m.tangents m.tangentTriangles
  custom : m'.customData = m.customData

/-- All index arrays with data are `t`. -/
structure Unified {F : Type} (m : Mesh F) (t : List Nat) : Prop where
  vertices : IndexedBy m.vertices m.vertexTriangles t
  normals : IndexedBy m.normals m.normalTriangles t
  uvs : IndexedBy m.uvs m.uvTriangles t
  tangents : IndexedBy m.tangents m.tangentTriangles t

end Tmf.Spec
