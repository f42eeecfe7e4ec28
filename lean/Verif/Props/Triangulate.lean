import Verif.Lemmas.Triangulate
import Verif.Model.Ieee
/-
C47: faces and their triangulation.
-/

namespace Tmf.Props
open Spec

/-- C47. With the feature "triangulation", a face of `n ≥ 3` corners whose vertex indices are in
range becomes `n - 2` triangles appended to the three index arrays. Each corner of each triangle is a
corner of the face, with its own uv and normal index; nothing else changes. Whatever the arithmetic
and `acos` are. -/
theorem C47_triangulate (fo : FloatOps) (acos : fo.F → fo.F) (oi : Importer fo.F) (face : List Corner)
    (hn : 3 ≤ face.length) (hv : ∀ c ∈ face, c.vertex < oi.vertices.length) :
    ∃ (tris : List Triangle) (oi' : Importer fo.F),
      Importer.pushFaceTri fo acos (face.map Corner.vertex) (face.map Corner.uv) (face.map Corner.normal) oi = .ok oi' ∧
      tris.length = face.length - 2 ∧ CornersFrom face tris ∧
      oi'.vertexTriangles = oi.vertexTriangles ++ triangleIndices Corner.vertex tris ∧
      oi'.uvTriangles = oi.uvTriangles ++ triangleIndices Corner.uv tris ∧
      oi'.normalTriangles = oi.normalTriangles ++ triangleIndices Corner.normal tris ∧
      oi'.vertices = oi.vertices ∧ oi'.normals = oi.normals ∧ oi'.uvs = oi.uvs ∧ oi'.name = oi.name := by
  unfold Importer.pushFaceTri Importer.pushFaceWith
  simp only [List.length_map, and_self, if_true]
  rw [if_neg (by omega)]
  split
  · next h =>
    match face, h with
    | [a, b, c], _ =>
      refine ⟨[(a, b, c)], _, rfl, rfl, ?_, rfl, rfl, rfl, rfl, rfl, rfl, rfl⟩
      intro t ht
      cases List.mem_singleton.mp ht
      simp
  · next h =>
    unfold triangulate
    obtain ⟨es, hes, hl⟩ := earVals_ok fo acos oi.vertices (face.map Corner.vertex)
      (by intro x hx; obtain ⟨c, hc, rfl⟩ := List.mem_map.mp hx; exact hv c hc)
      (List.range (face.map Corner.vertex).length) (fun i hi => List.mem_range.mp hi)
    obtain ⟨tris, hr, htl, hc, _, _⟩ := triangulateLoop_ok fo acos face.length face es oi hn (by omega) (by simpa using hl) hv
    rw [hes, Outcome.bind_ok, List.length_map, hr]
    exact ⟨tris, _, rfl, htl, hc, rfl, rfl, rfl, rfl, rfl, rfl, rfl⟩

/-- A face with fewer than three corners is rejected, in both configurations. -/
theorem C47_small_rejected (fo : FloatOps) (acos : fo.F → fo.F) (oi : Importer fo.F) (face : List Corner) (hn : face.length < 3) :
    Importer.pushFaceTri fo acos (face.map Corner.vertex) (face.map Corner.uv) (face.map Corner.normal) oi = .err .other ∧
    Importer.pushFace (face.map Corner.vertex) (face.map Corner.uv) (face.map Corner.normal) oi = .err .other := by
  constructor <;> simp [Importer.pushFaceTri, Importer.pushFace, Importer.pushFaceWith, hn]

/-- Five points of which the first has the largest ear value. -/
def pentagon : Importer (Ieee.Val Ieee.b32) :=
  { (Importer.new : Importer (Ieee.Val Ieee.b32)) with
    vertices := [(Ieee.ofNat 0, Ieee.ofNat 0, Ieee.ofNat 0), (Ieee.ofNat 2, Ieee.ofNat 0, Ieee.ofNat 0),
      (Ieee.ofNat 3, Ieee.ofNat 2, Ieee.ofNat 0), (Ieee.ofNat 1, Ieee.ofNat 3, Ieee.ofNat 0),
      (Ieee.ofNat 0, Ieee.ofNat 2, Ieee.ofNat 0)] }

def pentagonFace : List Corner := [⟨0, 0, 0⟩, ⟨1, 1, 1⟩, ⟨2, 2, 2⟩, ⟨3, 3, 3⟩, ⟨4, 4, 4⟩]

example : 3 ≤ pentagonFace.length ∧ ∀ c ∈ pentagonFace, c.vertex < pentagon.vertices.length := by decide

theorem dot_lib (lib lib' : Ieee.Libm) (a b : Vec3 (Ieee.Val Ieee.b32)) : dot (Ieee.ops lib) a b = dot (Ieee.ops lib') a b := rfl
theorem subVec3_lib (lib lib' : Ieee.Libm) (a b : Vec3 (Ieee.Val Ieee.b32)) :
    subVec3 (Ieee.ops lib) a b = subVec3 (Ieee.ops lib') a b := rfl
theorem normalize_lib (lib lib' : Ieee.Libm) (a : Vec3 (Ieee.Val Ieee.b32)) :
    normalize (Ieee.ops lib) a = normalize (Ieee.ops lib') a := rfl

/-- What C47 does not promise. The neighbour before the first corner is computed as
`usize::MAX % n`, which is the last corner only if `n` divides `2^64`. For a pentagon it is the first
corner itself, whose ear value is then NaN, which no other value exceeds: the first triangle is always
degenerate and the face is not covered. (`acos` need only map NaN to NaN.) -/
theorem C47_degenerate (lib : Ieee.Libm) (acos : Ieee.Val Ieee.b32 → Ieee.Val Ieee.b32) (hn : acos .nan = .nan) :
    ∃ (oi' : Importer (Ieee.Val Ieee.b32)),
      Importer.pushFaceTri (Ieee.ops lib) acos (pentagonFace.map Corner.vertex) (pentagonFace.map Corner.uv)
        (pentagonFace.map Corner.normal) pentagon = .ok oi' ∧ oi'.vertexTriangles.take 3 = [0, 0, 1] := by
  have hv : ∀ c ∈ pentagonFace, c.vertex < pentagon.vertices.length := by decide
  have h0 : calcEarVal (Ieee.ops lib) acos pentagon.vertices [0, 1, 2, 3, 4] 0 = .ok .nan := by
    have : ∀ x, x = Ieee.Val.nan → (Outcome.ok (acos x) : Outcome Empty _) = .ok .nan := by rintro x rfl; rw [hn]
    have hd : dot (Ieee.ops ⟨id, id, id, id⟩)
        (normalize (Ieee.ops ⟨id, id, id, id⟩) (subVec3 (Ieee.ops ⟨id, id, id, id⟩) (Ieee.ofNat 0, Ieee.ofNat 0, Ieee.ofNat 0) (Ieee.ofNat 0, Ieee.ofNat 0, Ieee.ofNat 0)))
        (normalize (Ieee.ops ⟨id, id, id, id⟩) (subVec3 (Ieee.ops ⟨id, id, id, id⟩) (Ieee.ofNat 0, Ieee.ofNat 0, Ieee.ofNat 0) (Ieee.ofNat 2, Ieee.ofNat 0, Ieee.ofNat 0))) =
        Ieee.Val.nan := by decide +kernel
    refine this _ ?_
    rw [dot_lib lib ⟨id, id, id, id⟩, normalize_lib lib ⟨id, id, id, id⟩, normalize_lib lib ⟨id, id, id, id⟩, subVec3_lib lib ⟨id, id, id, id⟩,
      subVec3_lib lib ⟨id, id, id, id⟩]
    exact hd
  obtain ⟨es, hes, hl⟩ := earVals_ok (Ieee.ops lib) acos pentagon.vertices [0, 1, 2, 3, 4]
    (show ∀ x ∈ [0, 1, 2, 3, 4], x < 5 by decide) [1, 2, 3, 4] (by decide)
  have hes' : earVals (Ieee.ops lib) acos pentagon.vertices [0, 1, 2, 3, 4] (List.range 5) = .ok (.nan :: es) := by
    show earVals (Ieee.ops lib) acos pentagon.vertices [0, 1, 2, 3, 4] (0 :: [1, 2, 3, 4]) = _
    rw [earVals, h0, Outcome.bind_ok, hes]
    rfl
  obtain ⟨tris, hr, _, _, hf, _⟩ := triangulateLoop_ok (Ieee.ops lib) acos pentagonFace.length pentagonFace (.nan :: es)
    pentagon (by decide) (by decide) (by simpa [pentagonFace] using hl) hv
  obtain ⟨x, y, z, hx, hy, hz, ht⟩ := hf (by decide) 0 (bestEar_first (Ieee.ops lib) .nan es (fun x => by cases x <;> rfl) _
    (by intro i hi; rw [List.mem_range] at hi; simp only [List.length_cons, hl]; exact hi))
  cases hx; cases hy; cases hz
  refine ⟨pentagon.pushTriangles tris, ?_, ?_⟩
  · show triangulate (Ieee.ops lib) acos pentagon [0, 1, 2, 3, 4] [0, 1, 2, 3, 4] [0, 1, 2, 3, 4] = _
    unfold triangulate
    rw [show [0, 1, 2, 3, 4].length = 5 from rfl, hes', Outcome.bind_ok]
    exact congrArg Outcome.widen hr
  · cases tris with
    | nil => cases ht
    | cons t tris => cases ht; rfl

example : (fun x : Ieee.Val Ieee.b32 => x) .nan = .nan := rfl

end Tmf.Props
