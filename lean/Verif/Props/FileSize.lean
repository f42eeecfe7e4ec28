import Verif.Lemmas.FileSize
import Verif.Props.RoundTrip
import Verif.Props.AnyBuild
/-
C56: how large a saved file is. C48: meshes that cannot have too many segments.
-/

namespace Tmf.Props
open Spec DecodedSegment
variable {fo : FloatOps} {fb : F64Bytes fo} {b : Build} {prec : PrecisionInfo fo.F}

/-- C56 for one segment: in either build and for any widths, the contents of a segment take exactly a
fixed part and the packed elements. -/
theorem C56_segment {edge : fo.F} {s : DecodedSegment fo.F} {e : EncodedSegment} (h : encode fo fb b prec edge s = .ok e) :
    e.data.length = dataSize fo prec edge s := encode_dataSize h

/-- C56 for whole files: 15 bytes, and the size of every mesh. -/
theorem C56_file {meshes : List (Mesh fo.F × List UInt8)} {bytes : List UInt8} (h : tmfBytes fo fb b prec meshes = .ok bytes) :
    ∃ sizes, List.Forall₂ (MeshSize fo b prec) meshes sizes ∧ bytes.length = 15 + sizes.sum := tmfBytes_size h

/-- C56, a bound: the size of a file grows at most linearly with what is in the meshes. -/
theorem C56_linear (laws : OrderLaws fo) (hS : ByteSettings prec) {meshes : List (Mesh fo.F × List UInt8)} {bytes : List UInt8}
    (hm : ∀ mn ∈ meshes, MeshFits prec mn.1) (h : tmfBytes fo fb b prec meshes = .ok bytes) :
    bytes.length ≤ 15 + (meshes.map meshSizeBound).sum := by
  obtain ⟨sizes, hf, e⟩ := tmfBytes_size h
  rw [e]
  have key : ∀ {meshes : List (Mesh fo.F × List UInt8)} {sizes : List Nat}, (∀ mn ∈ meshes, MeshFits prec mn.1) →
      List.Forall₂ (MeshSize fo b prec) meshes sizes → sizes.sum ≤ (meshes.map meshSizeBound).sum := by
    intro meshes sizes hm hf
    induction hf with
    | nil => exact Nat.le_refl 0
    | cons h _ ih =>
      have h1 := meshSize_le laws hS (hm _ List.mem_cons_self) h
      have h2 := ih fun mn hmn => hm mn (List.mem_cons_of_mem _ hmn)
      simp only [List.map_cons, List.sum_cons]
      omega
  have := key hm hf
  omega

/-- The mesh of the example for C10 (3 and 5 indices, all of them below 4, two segments): 15 bytes of
header, 4 and a name of one byte for the mesh, and 6 + 17 and the packed indices for the segments. -/
example {bytes : List UInt8} (h : tmfBytes fo fb b prec [((indexMesh fo).1, [65])] = .ok bytes) : bytes.length = 69 := by
  obtain ⟨enc, he, rfl⟩ := tmfBytes_ok fo fb b prec h
  have e : Outcome.mapAll (fun mn : Mesh fo.F × List UInt8 => encodeMesh fo fb b prec mn.1) [((indexMesh fo).1, [65])] =
      .ok [[⟨.normalTriangle, .none, [2] ++ leBytes 8 5 ++ leBytes 8 0 ++ [0xd9, 0]⟩,
        ⟨.vertexTriangle, .none, [2] ++ leBytes 8 3 ++ leBytes 8 0 ++ [0x18]⟩]] := by cases b <;> rfl
  rw [e] at he
  cases he
  rfl

/-- C48: no mesh takes more segments than custom data entries, arrays, vertices, and one in 89 of the bits of
its indices. -/
theorem C48_segment_count (laws : OrderLaws fo) {m : Mesh fo.F} (hm : MeshFits prec m) {segs : List EncodedSegment}
    (h : encodeMesh fo fb b prec m = .ok segs) : segs.length ≤ segmentBound m := encodeMesh_count laws hm h

/-- C48 (part: meshes of limited size), without a condition on the segments: if custom data
entries, arrays, vertices and one in 89 of the bits of the indices are fewer than 2^16, names and custom data come back completely. -/
theorem C48_small_partial (laws : OrderLaws fo) (hS : ByteSettings prec) {meshes : List (Mesh fo.F × List UInt8)} {bytes : List UInt8}
    (h : tmfBytes fo fb .checked prec meshes = .ok bytes) (hcount : meshes.length < 2 ^ 32) (hnames : ∀ mn ∈ meshes, NameOk mn.2)
    (hfits : ∀ mn ∈ meshes, MeshFits prec mn.1) (hseg : ∀ mn ∈ meshes, segmentBound mn.1 < 2 ^ 16)
    (hsize : 15 + (meshes.map meshSizeBound).sum ≤ 2 ^ 31) (b' : Build) (junk : List UInt8) (sched : List Nat) :
    ∃ out, readTmf fo fb b' ⟨bytes ++ junk, sched, false⟩ = .ok out ∧ out.map Prod.snd = meshes.map Prod.snd ∧
      out.map (fun x => x.1.customData.map CustomSeg.name) =
        meshes.map (fun x => (x.1.customData.map CustomSeg.name).reverse) :=
  C48_stored_partial fo fb prec h ⟨hcount, hnames, hfits, fun mn hmn _ hs =>
    lt_of_le_of_lt (encodeMesh_count laws (hfits mn hmn) hs) (hseg mn hmn)⟩
    (le_trans (C56_linear laws hS hfits h) hsize) b' junk sched

/-- The same mesh meets the hypotheses: it takes at most 2 segments and 1177 bytes. -/
example (laws : OrderLaws fo) (hS : ByteSettings prec) (b' : Build) : ∃ bytes out,
    tmfBytes fo fb .checked prec [indexMesh fo] = .ok bytes ∧ bytes.length ≤ 15 + meshSizeBound (indexMesh fo) ∧
    segmentBound (indexMesh fo).1 = 2 ∧ meshSizeBound (indexMesh fo) = 1162 ∧
    readTmf fo fb b' ⟨bytes, [], false⟩ = .ok out ∧ out.map Prod.snd = [(indexMesh fo).2] := by
  have hf : ∀ mn ∈ [indexMesh fo], MeshFits prec mn.1 := (indexMesh_limits fo fb prec).fits
  have hs := indexMesh_saved fo fb .checked prec
  have e1 : segmentBound (indexMesh fo).1 = 2 := rfl
  have e2 : meshSizeBound (indexMesh fo) = 1162 := by
    rw [meshSizeBound, e1]
    simp [elements, elementCount, customLoad, indexMesh, Mesh.empty]
  obtain ⟨out, hr, hn, _⟩ := C48_small_partial laws hS hs (show 1 < 2 ^ 32 by decide) (indexMesh_limits fo fb prec).names hf
    (fun mn hmn => by rw [List.mem_singleton.mp hmn, e1]; decide)
    (by rw [List.map_cons, List.map_nil, e2]; decide) b' [] []
  rw [List.append_nil] at hr
  have hl := C56_linear laws hS hf hs
  rw [List.map_cons, List.map_nil, List.sum_cons, List.sum_nil, Nat.add_zero] at hl
  exact ⟨_, out, hs, hl, e1, e2, hr, hn⟩

end Tmf.Props
