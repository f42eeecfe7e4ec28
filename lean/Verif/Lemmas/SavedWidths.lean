import Verif.Lemmas.FileRoundTrip
/-
A file written within `LimitsLow` has numbers of at most 30 bits: without overflow checks by
assumption, with them because a wider number is a panic.
-/

namespace Tmf
open Spec DecodedSegment

/-- The widths of the numbers of a saved mesh. -/
structure Narrow (fo : FloatOps) (b : Build) (prec : PrecisionInfo fo.F) (m : Mesh fo.F) : Prop where
  normals : ∀ l, m.normals = some l → l = [] ∨ prec.normal ≤ 30
  uvs : ∀ l, m.uvs = some l → prec.uv ≤ 30
  tangents : ∀ l, m.tangents = some l → l = [] ∨ prec.tangent ≤ 30
  custom : ∀ c ∈ m.customData, LowCustom fo c.data
  vertices : ∀ l edge pieces piece s, m.vertices = some l →
    calcShortestEdge fo m.vertexTriangles m.vertices = .ok edge → optVertices fo b l = .ok pieces → piece ∈ pieces →
    vertexBox fo piece = .ok s → (s.precs fo prec.vertex edge).1 ≤ 30 ∧ (s.precs fo prec.vertex edge).2.1 ≤ 30 ∧
      (s.precs fo prec.vertex edge).2.2 ≤ 30

section
variable {fo : FloatOps} {fb : F64Bytes fo} {b : Build} {prec : PrecisionInfo fo.F}

theorem narrow_of_low {m : Mesh fo.F} (h : Low fo b prec m) : Narrow fo b prec m where
  normals l hl := .inr (h.normals (by rw [hl]; rfl))
  uvs l hl := h.uvs (by rw [hl]; rfl)
  tangents l hl := .inr (h.tangents (by rw [hl]; rfl))
  custom := h.custom
  vertices := h.vertices

theorem narrow_of_checked {m : Mesh fo.F} {segs : List EncodedSegment} (h : encodeMesh fo fb .checked prec m = .ok segs) :
    Narrow fo .checked prec m := by
  rw [encodeMesh, Outcome.bind_eq_ok] at h
  obtain ⟨edge, he, h⟩ := h
  rw [mergeSegments_eq] at h
  simp only [Outcome.bind_ok, Outcome.bind_eq_ok] at h
  obtain ⟨pieces, hp, hs⟩ := h
  have key : ∀ s ∈ mergedSegs m, ∃ ps, s.optimize fo .checked = .ok ps ∧ ∀ p ∈ ps, SegLow fo prec edge p := by
    intro s hmem
    obtain ⟨ps, hps, h⟩ := forall₂_mem (mapAll_forall₂ hp) s hmem
    refine ⟨ps, h, fun p hp' => ?_⟩
    obtain ⟨e, _, h⟩ := forall₂_mem (mapAll_forall₂ hs) p (List.mem_flatten.mpr ⟨ps, hps, hp'⟩)
    exact segLow_of_checked h
  constructor
  · intro l hl
    obtain ⟨ps, h, hlow⟩ := key (.normal l) (by simp [mergedSegs, hl])
    cases h
    exact hlow _ List.mem_cons_self
  · intro l hl
    obtain ⟨ps, h, hlow⟩ := key (.uv l) (by simp [mergedSegs, hl])
    cases h
    exact hlow _ List.mem_cons_self
  · intro l hl
    obtain ⟨ps, h, hlow⟩ := key (.tangent l) (by simp [mergedSegs, hl])
    cases h
    exact hlow _ List.mem_cons_self
  · intro c hc
    obtain ⟨ps, h, hlow⟩ := key (.custom c) (by simp [mergedSegs, hc])
    cases h
    exact hlow _ List.mem_cons_self
  · intro l edge' qs q s hl he' hq hmem hbox
    have he : calcShortestEdge fo m.vertexTriangles m.vertices = .ok edge := he
    rw [he] at he'
    cases he'
    obtain ⟨ps, h, hlow⟩ := key (.vertex l) (by simp [mergedSegs, hl])
    simp only [optimize, hq, Outcome.bind_ok] at h
    cases h
    exact hlow _ (List.mem_map.mpr ⟨q, hmem, rfl⟩) s hbox

/-- The widths of the numbers of a written file. -/
theorem saved_narrow {meshes : List (Mesh fo.F × List UInt8)} {bytes : List UInt8}
    (h : tmfBytes fo fb b prec meshes = .ok bytes) (hl : LimitsLow fo fb b prec meshes) :
    ∀ mn ∈ meshes, Narrow fo b prec mn.1 := by
  intro mn hmn
  rcases hl.low with rfl | hlow
  · obtain ⟨enc, hE, _⟩ := tmfBytes_ok fo fb .checked prec h
    obtain ⟨segs, _, e⟩ := forall₂_mem (mapAll_forall₂ hE) mn hmn
    exact narrow_of_checked e
  · exact narrow_of_low (hlow mn hmn)

end

end Tmf
