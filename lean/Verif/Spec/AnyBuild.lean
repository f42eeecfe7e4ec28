import Mathlib.Data.List.Forall2
import Verif.Spec.RoundTrip
/-
What is needed of meshes and settings for files written by either build.
-/

namespace Tmf.Spec

/-- The bit widths in the settings are bytes. -/
structure ByteSettings {F : Type} (prec : PrecisionInfo F) : Prop where
  normal : prec.normal < 256
  uv : prec.uv < 256
  tangent : prec.tangent < 256

/-- A mesh the format can hold, at whatever precision. -/
structure MeshHolds {F : Type} (m : Mesh F) : Prop where
  vertices : LengthFits m.vertices
  normals : LengthFits m.normals
  uvs : LengthFits m.uvs
  tangents : LengthFits m.tangents
  vertexTriangles : IndicesFit m.vertexTriangles
  normalTriangles : IndicesFit m.normalTriangles
  uvTriangles : IndicesFit m.uvTriangles
  tangentTriangles : IndicesFit m.tangentTriangles
  custom : ∀ c ∈ m.customData, CustomFits c

/-- A list of named meshes inside the limits of the format, at whatever precision and from either
build. -/
structure LimitsAny (fo : FloatOps) (fb : F64Bytes fo) (b : Build) (prec : PrecisionInfo fo.F)
    (meshes : List (Mesh fo.F × List UInt8)) : Prop where
  count : meshes.length < 2 ^ 32
  names : ∀ mn ∈ meshes, NameOk mn.2
  holds : ∀ mn ∈ meshes, MeshHolds mn.1
  segments : ∀ mn ∈ meshes, ∀ segs, encodeMesh fo fb b prec mn.1 = .ok segs → segs.length < 2 ^ 16

/-- Custom data that asks for fewer than 64 bits. A reader without overflow checks (`b'`) takes
colours of any width. -/
def NarrowCustom (fo : FloatOps) (b' : Build) : CustomData fo.F → Prop
  | .float l p => floatPrec fo l p < 64
  | .color _ p => b' = .checked → colorPrec fo p < 64
  | _ => True

/-- No array of the mesh asks for 64 bits or more: neither the settings for the arrays that are
there, nor the custom data, nor any of the pieces the vertices are cut into. `b` is the build of
the writer, `b'` that of the reader. -/
structure Narrow (fo : FloatOps) (b b' : Build) (prec : PrecisionInfo fo.F) (m : Mesh fo.F) : Prop where
  normals : m.normals.isSome → prec.normal < 64
  uvs : m.uvs.isSome → prec.uv < 64
  tangents : m.tangents.isSome → prec.tangent < 64
  custom : ∀ c ∈ m.customData, NarrowCustom fo b' c.data
  vertices : ∀ l edge pieces piece s, m.vertices = some l →
    calcShortestEdge fo m.vertexTriangles m.vertices = .ok edge → optVertices fo b l = .ok pieces → piece ∈ pieces →
    vertexBox fo piece = .ok s → (s.precs fo prec.vertex edge).1 < 64 ∧ (s.precs fo prec.vertex edge).2.1 < 64 ∧
      (s.precs fo prec.vertex edge).2.2 < 64

/-- What must come back: the name, the four index arrays, the sizes of the arrays, the handedness
of the tangents, and the custom data in reversed order. -/
structure CameBack (fo : FloatOps) (mn mn' : Mesh fo.F × List UInt8) : Prop where
  name : mn'.2 = mn.2
  indices : SameIndices mn.1 mn'.1
  sizes : SameSizes mn.1 mn'.1
  hands : mn'.1.tangents.map (List.map Prod.snd) = mn.1.tangents.map (List.map fun t =>
    if fo.isSignNegative t.2 then fo.negOne else fo.one)
  custom : List.Forall₂ (fun c c' => c'.name = c.name ∧ SameCustom c.data c'.data) mn.1.customData.reverse mn'.1.customData

end Tmf.Spec
