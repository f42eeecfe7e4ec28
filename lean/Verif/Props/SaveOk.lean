import Verif.Lemmas.SaveOk
import Verif.Props.Verify
import Verif.Props.OptVertices
/-
C29: saving verified meshes.
-/

namespace Tmf.Props
open Spec DecodedSegment
variable {fo : FloatOps} {fb : F64Bytes fo}

/-- C29 with its exceptions. A verified mesh is saved without a panic unless its vertex array is
empty, an index equals the length of the vertex array, its shortest edge is not finite, or (in debug
builds) a quantised value needs more than 30 bits. The laws hold for IEEE arithmetic. -/
theorem C29_saved_partial (laws : OrderLaws fo) (b : Build) (prec : PrecisionInfo fo.F) (meshes : List (Mesh fo.F × List UInt8))
    (hv : ∀ mn ∈ meshes, mn.1.verify fo = .ok () ∧ SmallArrays mn.1 ∧ U32Mesh mn.1)
    (hne : ∀ mn ∈ meshes, mn.1.vertices ≠ some [])
    (hlast : ∀ mn ∈ meshes, ∀ vs t, mn.1.vertices = some vs → mn.1.vertexTriangles = some t → vs.length ∉ t)
    (he : ∀ mn ∈ meshes, EdgeFinite fo mn.1)
    (hw : b = .checked → ∀ mn ∈ meshes, WidthsFit fo prec mn.1) :
    ∃ bytes, tmfBytes fo fb b prec meshes = .ok bytes := by
  obtain ⟨enc, henc⟩ := mapAll_exists (f := fun mn : Mesh fo.F × List UInt8 => encodeMesh fo fb b prec mn.1) (l := meshes) (by
    intro mn hm
    obtain ⟨h1, h2, h3⟩ := hv mn hm
    refine encodeMesh_ok laws mn.1 (hne mn hm) (he mn hm) ?_ h3 (fun hb => hw hb mn hm)
    intro vs t hvs ht i hi
    have hp := (verifyVertices_none h2.vertices).mp (foundErrors_nil.mp (verify_ok.mp h1)).1
    obtain ⟨d, hd, hle⟩ := hp t ht
    rw [hvs] at hd
    cases hd
    have h1 := hle i hi
    have h2 : i ≠ vs.length := by rintro rfl; exact hlast mn hm vs t hvs ht hi
    omega)
  exact ⟨_, tmfBytes_of fo fb b prec henc⟩

theorem tmfBytes_panic {b : Build} {prec : PrecisionInfo fo.F} {m : Mesh fo.F} {name : List UInt8}
    (h : encodeMesh fo fb b prec m = .panic) : tmfBytes fo fb b prec [(m, name)] = .panic := by
  rw [tmfBytes_eq]
  have : (writeTmf fo fb b prec [(m, name)]).result = .panic := by
    simp [writeTmf, Writes.forEach, writeMesh, h, Bind.bind, Writes.bind, Writes.compute, Writes.writeAll, writeHeader]
  rw [this]
  rfl

theorem bitCount_no_err (b : Build) (span : Span fo.F) (edge : fo.F) (e : ExportError) :
    rangeToVertexBitCount fo b span edge ≠ .err e := by
  have ha : ∀ x y, (∃ n, addU8 b x y = .ok n) ∨ addU8 b x y = .panic := by
    intro x y
    unfold addU8
    split
    · exact .inl ⟨_, rfl⟩
    · cases b
      · exact .inr rfl
      · exact .inl ⟨_, rfl⟩
  unfold rangeToVertexBitCount
  simp only
  rcases ha (fo.log2CeilU8 (fo.div fo.one (fo.div edge (fo.sub span.2.1 span.1.1))))
    (fo.log2CeilU8 (fo.div fo.one (fo.div edge (fo.sub span.2.2.1 span.1.2.1)))) with ⟨n, h⟩ | h
  · rw [h, Outcome.bind_ok]
    rcases ha n (fo.log2CeilU8 (fo.div fo.one (fo.div edge (fo.sub span.2.2.1 span.1.2.1)))) with ⟨k, h⟩ | h
    · rw [h]; simp
    · rw [h]; simp
  · rw [h]; simp

/-- An array of at most one vertex is not cut (or the bit count overflows). -/
theorem optVertices_short (laws : OrderLaws fo) (b : Build) {l : List (Vec3 fo.F)} (hl : l.length ≤ 1) :
    optVertices fo b l = .panic ∨ optVertices fo b l = .ok [l] := by
  unfold optVertices optVerticesFuel findBestVertexSplit
  simp only
  cases hc : rangeToVertexBitCount fo b (List.foldl (expandSpan fo) (zeroSpan fo) l) (fo.lit 1 2) with
  | err e => exact absurd hc (bitCount_no_err b _ _ e)
  | panic => left; rfl
  | ok n =>
    rcases l with - | ⟨v, - | ⟨w, l⟩⟩
    · right; rfl
    · right
      have h1 : vertexScan fo b (fo.lit 1 2) n 0 (zeroSpan fo) 0 [v] ⟨none, 0⟩ = .ok ⟨none, 0⟩ := by
        rw [vertexScan, if_neg (by rw [insideSpan_zero laws]; simp)]
        simp only
        rw [show rangeToVertexBitCount fo b (expandSpan fo (zeroSpan fo) v) (fo.lit 1 2) = .ok n from hc, Outcome.bind_ok]
        rfl
      rw [Outcome.bind_ok, h1]
      rfl
    · simp at hl

/-- C29 is false: an empty vertex array. `verify` accepts the mesh, every save panics. -/
theorem C29_violated_empty (laws : OrderLaws fo) (b : Build) (prec : PrecisionInfo fo.F) (name : List UInt8) :
    ∃ m : Mesh fo.F, m.verify fo = .ok () ∧ tmfBytes fo fb b prec [(m, name)] = .panic := by
  refine ⟨{ (Mesh.empty : Mesh fo.F) with vertices := some [] }, rfl, tmfBytes_panic ?_⟩
  unfold encodeMesh
  have h1 : calcShortestEdge fo ({ (Mesh.empty : Mesh fo.F) with vertices := some [] } : Mesh fo.F).getVertexTriangles
      ({ (Mesh.empty : Mesh fo.F) with vertices := some [] } : Mesh fo.F).getVertices = .panic ∨
      calcShortestEdge fo ({ (Mesh.empty : Mesh fo.F) with vertices := some [] } : Mesh fo.F).getVertexTriangles
      ({ (Mesh.empty : Mesh fo.F) with vertices := some [] } : Mesh fo.F).getVertices = .ok (fo.lit 1 1) := by
    show assertFinite fo (fo.lit 1 1) = .panic ∨ assertFinite fo (fo.lit 1 1) = .ok (fo.lit 1 1)
    unfold assertFinite
    split
    · exact .inr rfl
    · exact .inl rfl
  rcases h1 with h1 | h1
  · rw [h1]; rfl
  · have h2 : mergeSegments (meshSegs ({ (Mesh.empty : Mesh fo.F) with vertices := some [] } : Mesh fo.F)) =
        .ok [(vertex [] : DecodedSegment fo.F)] := rfl
    rw [h1, Outcome.bind_ok, h2, Outcome.bind_ok]
    rcases optVertices_short laws b (l := []) (by simp) with h | h
    · simp [Outcome.mapAll, optimize, h]
    · have h4 : encode fo fb b prec (fo.lit 1 1) (vertex []) = .panic := rfl
      simp [Outcome.mapAll, optimize, h, h4]

/-- C29 is false: an index equal to the length of the vertex array. -/
theorem C29_violated_index (b : Build) (prec : PrecisionInfo fo.F) (name : List UInt8) (v : Vec3 fo.F) :
    ∃ m : Mesh fo.F, m.verify fo = .ok () ∧ tmfBytes fo fb b prec [(m, name)] = .panic :=
  ⟨{ (Mesh.empty : Mesh fo.F) with vertices := some [v], vertexTriangles := some [0, 0, 1] }, rfl, tmfBytes_panic rfl⟩

/-- C29 is false: one index is not a triangle, so the shortest edge stays infinite. -/
theorem C29_violated_incomplete (hi : fo.isFinite fo.infinity = false) (b : Build) (prec : PrecisionInfo fo.F)
    (name : List UInt8) (v : Vec3 fo.F) :
    ∃ m : Mesh fo.F, m.verify fo = .ok () ∧ tmfBytes fo fb b prec [(m, name)] = .panic := by
  refine ⟨{ (Mesh.empty : Mesh fo.F) with vertices := some [v], vertexTriangles := some [0] }, rfl, tmfBytes_panic ?_⟩
  unfold encodeMesh
  have : calcShortestEdge fo ({ (Mesh.empty : Mesh fo.F) with vertices := some [v], vertexTriangles := some [0] } : Mesh fo.F).getVertexTriangles
      ({ (Mesh.empty : Mesh fo.F) with vertices := some [v], vertexTriangles := some [0] } : Mesh fo.F).getVertices = .panic := by
    show assertFinite fo fo.infinity = .panic
    simp [assertFinite, hi]
  rw [this]
  rfl

/-- The float 0. -/
def zero32 : Ieee.Val Ieee.b32 := Ieee.lit 0 0

/-- A degenerate triangle: one vertex, used three times. -/
def pointTriangle (lib : Ieee.Libm) : Mesh (Ieee.ops lib).F :=
  { (Mesh.empty : Mesh (Ieee.ops lib).F) with
    vertices := some [(zero32, zero32, zero32)]
    vertexTriangles := some [0, 0, 0] }

theorem pointTriangle_edge (lib : Ieee.Libm) :
    calcShortestEdge (Ieee.ops lib) (pointTriangle lib).getVertexTriangles (pointTriangle lib).getVertices = .ok zero32 := by
  have hd : Ieee.sqrt (Ieee.add (Ieee.add (Ieee.mul (Ieee.sub zero32 zero32) (Ieee.sub zero32 zero32))
      (Ieee.mul (Ieee.sub zero32 zero32) (Ieee.sub zero32 zero32)))
      (Ieee.mul (Ieee.sub zero32 zero32) (Ieee.sub zero32 zero32))) = zero32 := by decide +kernel
  have hd' : distance (Ieee.ops lib) (zero32, zero32, zero32) (zero32, zero32, zero32) = zero32 := hd
  have hm : Ieee.min (.inf false) (Ieee.min zero32 (Ieee.min zero32 zero32)) = zero32 := by decide +kernel
  have hf : Ieee.isFinite zero32 = true := by decide +kernel
  show (do
    let e ← shortestEdgeLoop (Ieee.ops lib) [(zero32, zero32, zero32)] [0, 0, 0] (Ieee.ops lib).infinity
    assertFinite (Ieee.ops lib) e) = _
  have hl : shortestEdgeLoop (Ieee.ops lib) [(zero32, zero32, zero32)] [0, 0, 0] (Ieee.ops lib).infinity =
      (.ok zero32 : Outcome ExportError (Ieee.ops lib).F) := by
    rw [shortestEdgeLoop]
    simp only [index, List.getElem?_cons_zero, Outcome.bind_ok, hd', hm]
    rfl
  rw [hl, Outcome.bind_ok]
  simp [assertFinite, hf]

/-- C29 is false in debug builds: the edge of a degenerate triangle is 0, which asks for 255 bits per
coordinate. -/
theorem C29_violated_degenerate (lib : Ieee.Libm) (hlog : AccurateLog2 lib) (fb : F64Bytes (Ieee.ops lib)) (name : List UInt8) :
    ∃ m : Mesh (Ieee.ops lib).F, m.verify (Ieee.ops lib) = .ok () ∧
      tmfBytes (Ieee.ops lib) fb .checked (PrecisionInfo.default (Ieee.ops lib)) [(m, name)] = .panic := by
  refine ⟨pointTriangle lib, rfl, tmfBytes_panic ?_⟩
  unfold encodeMesh
  rw [pointTriangle_edge, Outcome.bind_ok]
  have h2 : mergeSegments (meshSegs (pointTriangle lib)) =
      .ok [triVertex [0, 0, 0], (vertex [(zero32, zero32, zero32)] : DecodedSegment (Ieee.ops lib).F)] := rfl
  have h3 : optimize (Ieee.ops lib) .checked (triVertex [0, 0, 0]) = .ok [(triVertex [0, 0, 0] : DecodedSegment (Ieee.ops lib).F)] := rfl
  have hs : vertexBox (Ieee.ops lib) [(zero32, zero32, zero32)] = .ok ⟨zero32, zero32, zero32, zero32, zero32, zero32⟩ := by
    have hmin : Ieee.min zero32 zero32 = zero32 := by decide +kernel
    have hmax : Ieee.max zero32 zero32 = zero32 := by decide +kernel
    simp [vertexBox, VBox.step, hmin, hmax]
  have hp : max (Ieee.bitsFor lib (Ieee.div (Ieee.lit 1 0) (Ieee.mul (Ieee.div zero32
      (Ieee.max (Ieee.sub zero32 zero32) (Ieee.lit 1 6))) (Ieee.lit 1 1)))) 1 = 255 := by
    rw [Ieee.bits_clear hlog] <;> decide +kernel
  have hp' : (VBox.precs (Ieee.ops lib) ⟨zero32, zero32, zero32, zero32, zero32, zero32⟩
      (PrecisionInfo.default (Ieee.ops lib)).vertex zero32).1 = 255 := hp
  have h4 : encode (Ieee.ops lib) fb .checked (PrecisionInfo.default (Ieee.ops lib)) zero32 (vertex [(zero32, zero32, zero32)]) = .panic := by
    rw [encode, saveVertices, hs, Outcome.bind_ok]
    simp only
    rw [hp']
    rfl
  have h5 : encode (Ieee.ops lib) fb .checked (PrecisionInfo.default (Ieee.ops lib)) zero32 (triVertex [0, 0, 0]) =
      .ok ⟨.vertexTriangle, .none, leBytes 1 0 ++ leBytes 8 3 ++ leBytes 8 0⟩ := rfl
  rw [h2, Outcome.bind_ok]
  rcases optVertices_short (Ieee.orderLaws lib) .checked (l := [(zero32, zero32, zero32)]) (by simp) with h | h
  · have h6 : optimize (Ieee.ops lib) .checked (vertex [(zero32, zero32, zero32)]) = .panic := by rw [optimize, h]; rfl
    rw [Outcome.mapAll, h3, Outcome.bind_ok, Outcome.mapAll, h6]
    rfl
  · have h6 : optimize (Ieee.ops lib) .checked (vertex [(zero32, zero32, zero32)]) =
        .ok [(vertex [(zero32, zero32, zero32)] : DecodedSegment (Ieee.ops lib).F)] := by rw [optimize, h]; rfl
    rw [Outcome.mapAll, h3, Outcome.bind_ok, Outcome.mapAll, h6]
    show Outcome.mapAll (encode (Ieee.ops lib) fb .checked (PrecisionInfo.default (Ieee.ops lib)) zero32)
      [triVertex [0, 0, 0], vertex [(zero32, zero32, zero32)]] = .panic
    rw [Outcome.mapAll, h5, Outcome.bind_ok, Outcome.mapAll, h4]
    rfl

example (lib : Ieee.Libm) : (Ieee.ops lib).isFinite (Ieee.ops lib).infinity = false := rfl

/-! An example for `C29_saved_partial` in a debug build. -/

/-- `VertexWidths` for all runs as a computation. -/
def widthsFit (fo : FloatOps) (prec edge : fo.F) (vs : List (Vec3 fo.F)) : Bool :=
  (runs vs).all fun l =>
    match vertexBox fo l with
    | .ok s => (s.precs fo prec edge).1 ≤ 30 && (s.precs fo prec edge).2.1 ≤ 30 && (s.precs fo prec edge).2.2 ≤ 30
    | _ => true

theorem widthsFit_sound {prec : PrecisionInfo fo.F} {edge : fo.F} {vs : List (Vec3 fo.F)}
    (h : widthsFit fo prec.vertex edge vs = true) : ∀ p, p <:+: vs → VertexWidths fo prec edge p := by
  intro p hp s hs
  simp only [widthsFit, List.all_eq_true] at h
  have := h p (mem_runs hp)
  rw [hs] at this
  simp only [Bool.and_eq_true, decide_eq_true_eq] at this
  exact ⟨this.1.1, this.1.2, this.2⟩

def plainVertices : List (Vec3 (Ieee.Val Ieee.b32)) :=
  [(ieee 0, ieee 0, ieee 0), (ieee 1, ieee 0, ieee 0), (ieee 0, ieee 5, ieee 0)]

theorem plainMesh_edge {edge : (Ieee.ops noLibm).F}
    (h : calcShortestEdge (Ieee.ops noLibm) plainMesh.vertexTriangles plainMesh.vertices = .ok edge) : edge = ieee 1 := by
  have e : edgeMin (Ieee.ops noLibm) plainVertices [0, 1, 2] (Ieee.ops noLibm).infinity = ieee 1 := by decide +kernel
  change (do
    let e ← shortestEdgeLoop (Ieee.ops noLibm) plainVertices [0, 1, 2] (Ieee.ops noLibm).infinity
    assertFinite (Ieee.ops noLibm) e) = _ at h
  rw [shortestEdgeLoop_ok _ _ _ _ (by decide), Outcome.bind_ok, e] at h
  unfold assertFinite at h
  split at h
  · cases h; rfl
  · cases h

example (fb : F64Bytes (Ieee.ops noLibm)) : ∃ bytes, tmfBytes (Ieee.ops noLibm) fb .checked
    (PrecisionInfo.default (Ieee.ops noLibm)) [(plainMesh, [65])] = .ok bytes := by
  refine C29_saved_partial (Ieee.orderLaws noLibm) .checked _ _ ?_ ?_ ?_ ?_ ?_
  · intro mn hm
    cases List.mem_singleton.mp hm
    refine ⟨C28_valid_accepted plainMesh plainMesh_valid.1 plainMesh_valid.2, plainMesh_valid.1, ?_, ?_, ?_, ?_, ?_⟩
    · intro t ht; cases ht; decide
    · intro t ht; cases ht; decide
    · intro t ht; cases ht
    · intro t ht; cases ht
    · intro c hc; cases hc
  · intro mn hm; cases List.mem_singleton.mp hm; decide
  · intro mn hm vs t hv ht
    cases List.mem_singleton.mp hm
    cases hv; cases ht
    decide
  · intro mn hm
    cases List.mem_singleton.mp hm
    refine ⟨by decide +kernel, fun vs t hv ht _ => ?_⟩
    cases hv; cases ht
    decide +kernel
  · intro _ mn hm
    cases List.mem_singleton.mp hm
    refine ⟨?_, ?_, ?_, ?_, ?_, ?_, ?_⟩
    · intro l _ _; decide +kernel
    · intro l hl; cases hl
    · intro l _; decide +kernel
    · intro l hl; cases hl
      exact countsFit_sound (fo := Ieee.ops noLibm) (vs := plainVertices) (by decide +kernel)
    · intro l hl edge he p hp
      cases hl
      cases plainMesh_edge he
      exact widthsFit_sound (fo := Ieee.ops noLibm) (vs := plainVertices) (by decide +kernel) p hp
    · intro c hc; cases hc
    · intro c hc; cases hc

end Tmf.Props
