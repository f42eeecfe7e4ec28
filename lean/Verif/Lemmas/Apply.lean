import Verif.Model.Segments
import Verif.Spec.Concat
/-
Applying decoded segments to a mesh: every array is the concatenation of its pieces.
-/

namespace Tmf
open Spec
variable {F : Type}

/-- Append pieces to what is there. -/
def joinOnto {α : Type} (o : Option (List α)) (pieces : List (List α)) : Option (List α) :=
  match pieces with
  | [] => o
  | _ => some (o.getD [] ++ pieces.flatten)

theorem joinOnto_none {α : Type} (pieces : List (List α)) : joinOnto none pieces = joined pieces := by
  cases pieces <;> rfl

theorem joinOnto_append {α : Type} (o : Option (List α)) (p q : List (List α)) :
    joinOnto (joinOnto o p) q = joinOnto o (p ++ q) := by
  cases p <;> cases q <;> simp [joinOnto]

namespace DecodedSegment

def pVertices : DecodedSegment F → List (List (Vec3 F)) | vertex l => [l] | _ => []
def pNormals : DecodedSegment F → List (List (Vec3 F)) | normal l => [l] | _ => []
def pUvs : DecodedSegment F → List (List (Vec2 F)) | uv l => [l] | _ => []
def pTangents : DecodedSegment F → List (List (Tangent F)) | tangent l => [l] | _ => []
def pVertexTriangles : DecodedSegment F → List (List Nat)
  | triVertex l => [l]
  | shared mask l => if hasVertex mask then [l] else []
  | _ => []
def pNormalTriangles : DecodedSegment F → List (List Nat)
  | triNormal l => [l]
  | shared mask l => if hasNormal mask then [l] else []
  | _ => []
def pUvTriangles : DecodedSegment F → List (List Nat)
  | triUv l => [l]
  | shared mask l => if hasUv mask then [l] else []
  | _ => []
def pTangentTriangles : DecodedSegment F → List (List Nat) | triTangent l => [l] | _ => []
def pCustom : DecodedSegment F → List (CustomSeg F) | custom s => [s] | _ => []

end DecodedSegment
open DecodedSegment

theorem apply_eq (m : Mesh F) (s : DecodedSegment F) : s.apply m =
    { normals := joinOnto m.normals s.pNormals
      normalTriangles := joinOnto m.normalTriangles s.pNormalTriangles
      vertices := joinOnto m.vertices s.pVertices
      vertexTriangles := joinOnto m.vertexTriangles s.pVertexTriangles
      uvs := joinOnto m.uvs s.pUvs
      uvTriangles := joinOnto m.uvTriangles s.pUvTriangles
      tangents := joinOnto m.tangents s.pTangents
      tangentTriangles := joinOnto m.tangentTriangles s.pTangentTriangles
      customData := m.customData ++ s.pCustom } := by
  obtain ⟨n, nt, v, vt, u, ut, t, tt, c⟩ := m
  cases s with
  | nothing => simp [apply, joinOnto, pNormals, pNormalTriangles, pVertices, pVertexTriangles, pUvs, pUvTriangles,
      pTangents, pTangentTriangles, pCustom]
  | vertex l => cases v <;> simp [apply, Mesh.appendVertices, Mesh.setVertices, joinOnto, pNormals, pNormalTriangles, pVertices, pVertexTriangles, pUvs, pUvTriangles,
      pTangents, pTangentTriangles, pCustom]
  | normal l => cases n <;> simp [apply, Mesh.appendNormals, Mesh.setNormals, joinOnto, pNormals, pNormalTriangles, pVertices, pVertexTriangles, pUvs, pUvTriangles,
      pTangents, pTangentTriangles, pCustom]
  | uv l => cases u <;> simp [apply, Mesh.appendUvs, Mesh.setUvs, joinOnto, pNormals, pNormalTriangles, pVertices, pVertexTriangles, pUvs, pUvTriangles,
      pTangents, pTangentTriangles, pCustom]
  | tangent l => cases t <;> simp [apply, Mesh.appendTangents, Mesh.setTangents, joinOnto, pNormals, pNormalTriangles, pVertices, pVertexTriangles, pUvs, pUvTriangles,
      pTangents, pTangentTriangles, pCustom]
  | triVertex l => cases vt <;> simp [apply, Mesh.appendVertexTriangles, Mesh.setVertexTriangles, joinOnto, pNormals, pNormalTriangles, pVertices, pVertexTriangles, pUvs, pUvTriangles,
      pTangents, pTangentTriangles, pCustom]
  | triNormal l => cases nt <;> simp [apply, Mesh.appendNormalTriangles, Mesh.setNormalTriangles, joinOnto, pNormals, pNormalTriangles, pVertices, pVertexTriangles, pUvs, pUvTriangles,
      pTangents, pTangentTriangles, pCustom]
  | triUv l => cases ut <;> simp [apply, Mesh.appendUvTriangles, Mesh.setUvTriangles, joinOnto, pNormals, pNormalTriangles, pVertices, pVertexTriangles, pUvs, pUvTriangles,
      pTangents, pTangentTriangles, pCustom]
  | triTangent l => cases tt <;> simp [apply, Mesh.appendTangentTriangles, Mesh.setTangentTriangles, joinOnto, pNormals, pNormalTriangles, pVertices, pVertexTriangles, pUvs, pUvTriangles,
      pTangents, pTangentTriangles, pCustom]
  | custom sg => simp [apply, Mesh.addCustomDataSeg, joinOnto, pNormals, pNormalTriangles, pVertices, pVertexTriangles, pUvs, pUvTriangles,
      pTangents, pTangentTriangles, pCustom]
  | shared mask l =>
    cases h1 : hasVertex mask <;> cases h2 : hasNormal mask <;> cases h3 : hasUv mask <;>
    cases vt <;> cases nt <;> cases ut <;>
    simp [apply, h1, h2, h3, Mesh.appendVertexTriangles, Mesh.setVertexTriangles, Mesh.appendNormalTriangles,
      Mesh.setNormalTriangles, Mesh.appendUvTriangles, Mesh.setUvTriangles, joinOnto, pNormals, pNormalTriangles,
      pVertices, pVertexTriangles, pUvs, pUvTriangles, pTangents, pTangentTriangles, pCustom]

theorem applyAll_onto (segs : List (DecodedSegment F)) : ∀ (m : Mesh F), segs.foldl DecodedSegment.apply m =
    { normals := joinOnto m.normals (segs.flatMap pNormals)
      normalTriangles := joinOnto m.normalTriangles (segs.flatMap pNormalTriangles)
      vertices := joinOnto m.vertices (segs.flatMap pVertices)
      vertexTriangles := joinOnto m.vertexTriangles (segs.flatMap pVertexTriangles)
      uvs := joinOnto m.uvs (segs.flatMap pUvs)
      uvTriangles := joinOnto m.uvTriangles (segs.flatMap pUvTriangles)
      tangents := joinOnto m.tangents (segs.flatMap pTangents)
      tangentTriangles := joinOnto m.tangentTriangles (segs.flatMap pTangentTriangles)
      customData := m.customData ++ segs.flatMap pCustom } := by
  induction segs with
  | nil => intro m; simp [joinOnto]
  | cons s segs ih =>
    intro m
    rw [List.foldl_cons, ih, apply_eq]
    simp only [joinOnto_append, List.flatMap_cons, List.append_assoc]

/-- The mesh made of decoded segments. -/
theorem applyAll_eq (segs : List (DecodedSegment F)) : segs.foldl DecodedSegment.apply Mesh.empty =
    { normals := joined (segs.flatMap pNormals)
      normalTriangles := joined (segs.flatMap pNormalTriangles)
      vertices := joined (segs.flatMap pVertices)
      vertexTriangles := joined (segs.flatMap pVertexTriangles)
      uvs := joined (segs.flatMap pUvs)
      uvTriangles := joined (segs.flatMap pUvTriangles)
      tangents := joined (segs.flatMap pTangents)
      tangentTriangles := joined (segs.flatMap pTangentTriangles)
      customData := segs.flatMap pCustom } := by
  rw [applyAll_onto]
  simp [Mesh.empty, joinOnto_none]

end Tmf
