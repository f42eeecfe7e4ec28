import Verif.Model.Export
import Verif.Spec.FileFormat
/-
The limits within which saving and loading is lossless for everything that is not quantised.
-/

namespace Tmf.Spec

/-- Custom data the format can hold: the name fits its length byte, index data is bounded by its
declared maximum (which avoids the width 32 and everything from 64 on), and there are at most 2^31
elements. -/
inductive CustomFits {F : Type} : CustomSeg F → Prop where
  | index (name : List UInt8) (l : List Nat) (m : Nat) (hn : name.length < 256) (hl : l.length ≤ 2 ^ 31)
      (hi : ∀ i ∈ l, i ≤ m ∧ i < 2 ^ 32) (hm : m < 2 ^ 31 ∨ 2 ^ 32 ≤ m ∧ m < 2 ^ 63) :
      CustomFits ⟨name, .index l m⟩
  | integer (name : List UInt8) (l : List Nat) (m : Nat) (hn : name.length < 256) (hl : l.length ≤ 2 ^ 31)
      (hi : ∀ i ∈ l, i ≤ m ∧ i < 2 ^ 32) (hm : m < 2 ^ 31 ∨ 2 ^ 32 ≤ m ∧ m < 2 ^ 63) :
      CustomFits ⟨name, .integer l m⟩
  | float (name : List UInt8) (l : List F) (p : F) (hn : name.length < 256) (hl : l.length ≤ 2 ^ 31) :
      CustomFits ⟨name, .float l p⟩
  | color (name : List UInt8) (l : List (Vec4 F)) (p : F) (hn : name.length < 256) (hl : l.length ≤ 2 ^ 31) :
      CustomFits ⟨name, .color l p⟩

/-- An index array the format can hold. -/
def IndicesFit (o : Option (List Nat)) : Prop := ∀ l, o = some l → l.length ≤ 2 ^ 31 ∧ ∀ i ∈ l, i < 2 ^ 31

/-- A data array the format can hold. -/
def LengthFits {α : Type} (o : Option (List α)) : Prop := ∀ l, o = some l → l.length ≤ 2 ^ 31

/-- A mesh the format can hold at the given precisions. A precision of 64 bits or more is only
written (and then cannot be read) for empty normal or tangent arrays. -/
structure MeshFits {F : Type} (prec : PrecisionInfo F) (m : Mesh F) : Prop where
  vertices : LengthFits m.vertices
  normals : LengthFits m.normals
  uvs : LengthFits m.uvs
  tangents : LengthFits m.tangents
  vertexTriangles : IndicesFit m.vertexTriangles
  normalTriangles : IndicesFit m.normalTriangles
  uvTriangles : IndicesFit m.uvTriangles
  tangentTriangles : IndicesFit m.tangentTriangles
  custom : ∀ c ∈ m.customData, CustomFits c
  normalPrec : m.normals = some [] → prec.normal < 64
  tangentPrec : m.tangents = some [] → prec.tangent < 64

/-- Custom data whose quantised numbers take at most 30 bits. -/
def LowCustom (fo : FloatOps) : CustomData fo.F → Prop
  | .float l p => floatPrec fo l p ≤ 30
  | .color _ p => colorPrec fo p ≤ 30
  | _ => True

/-- The quantised numbers of the mesh take at most 30 bits: the settings for the arrays that are there,
the custom data, and all the pieces the vertices are cut into. A writer with overflow checks panics
above 30 bits. `b` is the build of the writer. -/
structure Low (fo : FloatOps) (b : Build) (prec : PrecisionInfo fo.F) (m : Mesh fo.F) : Prop where
  normals : m.normals.isSome → prec.normal ≤ 30
  uvs : m.uvs.isSome → prec.uv ≤ 30
  tangents : m.tangents.isSome → prec.tangent ≤ 30
  custom : ∀ c ∈ m.customData, LowCustom fo c.data
  vertices : ∀ l edge pieces piece s, m.vertices = some l →
    calcShortestEdge fo m.vertexTriangles m.vertices = .ok edge → optVertices fo b l = .ok pieces → piece ∈ pieces →
    vertexBox fo piece = .ok s → (s.precs fo prec.vertex edge).1 ≤ 30 ∧ (s.precs fo prec.vertex edge).2.1 ≤ 30 ∧
      (s.precs fo prec.vertex edge).2.2 ≤ 30

/-- A list of named meshes inside the limits of the format: mesh and segment counts fit their
fields, names are text of at most 65535 bytes, every mesh fits. -/
structure Limits (fo : FloatOps) (fb : F64Bytes fo) (prec : PrecisionInfo fo.F)
    (meshes : List (Mesh fo.F × List UInt8)) : Prop where
  count : meshes.length < 2 ^ 32
  names : ∀ mn ∈ meshes, NameOk mn.2
  fits : ∀ mn ∈ meshes, MeshFits prec mn.1
  segments : ∀ mn ∈ meshes, ∀ segs, encodeMesh fo fb .checked prec mn.1 = .ok segs → segs.length < 2 ^ 16

/-- Limits within which what comes back is known number by number, for a writer of either build. -/
structure LimitsLow (fo : FloatOps) (fb : F64Bytes fo) (b : Build) (prec : PrecisionInfo fo.F)
    (meshes : List (Mesh fo.F × List UInt8)) : Prop where
  count : meshes.length < 2 ^ 32
  names : ∀ mn ∈ meshes, NameOk mn.2
  fits : ∀ mn ∈ meshes, MeshFits prec mn.1
  segments : ∀ mn ∈ meshes, ∀ segs, encodeMesh fo fb b prec mn.1 = .ok segs → segs.length < 2 ^ 16
  low : b = .checked ∨ ∀ mn ∈ meshes, Low fo b prec mn.1

/-- The parts of a mesh that must come back exactly. -/
structure SameIndices {F : Type} (m m' : Mesh F) : Prop where
  vertex : m'.vertexTriangles = m.vertexTriangles
  normal : m'.normalTriangles = m.normalTriangles
  uv : m'.uvTriangles = m.uvTriangles
  tangent : m'.tangentTriangles = m.tangentTriangles

/-- The parts of a mesh whose size must come back exactly. -/
structure SameSizes {F : Type} (m m' : Mesh F) : Prop where
  vertices : m'.vertices.map List.length = m.vertices.map List.length
  normals : m'.normals.map List.length = m.normals.map List.length
  uvs : m'.uvs.map List.length = m.uvs.map List.length
  tangents : m'.tangents.map List.length = m.tangents.map List.length

/-- The same kind of custom data: integers exactly, quantised data with the same number of
entries. -/
inductive SameCustom {F : Type} : CustomData F → CustomData F → Prop where
  | index (l : List Nat) (m m' : Nat) : SameCustom (.index l m) (.index l m')
  | integer (l : List Nat) (m m' : Nat) : SameCustom (.integer l m) (.integer l m')
  | float (l l' : List F) (p p' : F) (h : l'.length = l.length) : SameCustom (.float l p) (.float l' p')
  | color (l l' : List (Vec4 F)) (p p' : F) (h : l'.length = l.length) : SameCustom (.color l p) (.color l' p')

end Tmf.Spec
