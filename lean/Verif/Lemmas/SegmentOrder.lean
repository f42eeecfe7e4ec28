import Verif.Spec.SegmentOrder
import Verif.Lemmas.DamageFile
import Verif.Lemmas.Headers
import Verif.Lemmas.Loading
/-
Lemmas for C101: the order of the segments of a mesh.
-/

namespace Tmf
open Spec DecodedSegment
variable (fo : FloatOps) (fb : F64Bytes fo) (b : Build)

theorem and_bit (n : Nat) (i : Nat) : (n &&& 2 ^ i != 0) = n.testBit i := by
  rw [Bool.eq_iff_iff, bne_iff_ne, ne_eq]
  constructor
  · intro h
    by_contra hc
    refine h (Nat.eq_of_testBit_eq fun j => ?_)
    rw [Nat.testBit_and, Nat.testBit_two_pow, Nat.zero_testBit]
    by_cases hj : i = j
    · subst hj; simpa using hc
    · simp [hj]
  · intro h hc
    have := congrArg (fun x => Nat.testBit x i) hc
    simp [Nat.testBit_and, h] at this

theorem shared_mask {ctx : DecodeCtx} {c : CompressionType} {data : List UInt8} {d : DecodedSegment fo.F}
    (e : EncodedSegment.decode fo fb b ctx ⟨.sharedTriangle, c, data⟩ = .ok d) : ∃ l, d = .shared (byteAt data 0) l := by
  simp only [EncodedSegment.decode, decodeShared] at e
  cases data with
  | nil => cases e
  | cons mask rest =>
    cases c with
    | none =>
      dsimp only at e
      rw [Outcome.bind_eq_ok] at e
      obtain ⟨l, _, e1⟩ := e
      cases e1
      exact ⟨_, rfl⟩
    | _ => cases e

/-- A decoded segment holds nothing for the arrays its raw form is not for. -/
structure OnlyFeeds {F : Type} (s : RawSeg) (d : DecodedSegment F) : Prop where
  vertices : feeds .vertices s = false → d.pVertices = []
  normals : feeds .normals s = false → d.pNormals = []
  uvs : feeds .uvs s = false → d.pUvs = []
  tangents : feeds .tangents s = false → d.pTangents = []
  vertexTriangles : feeds .vertexTriangles s = false → d.pVertexTriangles = []
  normalTriangles : feeds .normalTriangles s = false → d.pNormalTriangles = []
  uvTriangles : feeds .uvTriangles s = false → d.pUvTriangles = []
  tangentTriangles : feeds .tangentTriangles s = false → d.pTangentTriangles = []
  custom : feeds .custom s = false → d.pCustom = []

theorem decode_onlyFeeds {ctx : DecodeCtx} {s : RawSeg} {d : DecodedSegment fo.F}
    (e : (encodedOf s).decode fo fb b ctx = .ok d) : OnlyFeeds s d := by
  by_cases hk : s.kind ∈ knownKinds
  · obtain ⟨k, c, data⟩ := s
    simp only [knownKinds, List.mem_cons, List.not_mem_nil, or_false] at hk
    rcases hk with rfl | rfl | rfl | rfl | rfl | rfl | rfl | rfl | rfl | rfl | rfl | rfl | rfl
    case inr.inr.inr.inr.inr.inr.inr.inr.inr.inr.inr.inr =>
      obtain ⟨l, rfl⟩ := shared_mask fo fb b e
      constructor <;> intro h <;> first | rfl | skip
      · simp only [feeds] at h
        have : hasVertex (byteAt data 0) = false := by
          rw [hasVertex, show (1 : Nat) = 2 ^ 0 from rfl, and_bit]; simpa using h
        simp [pVertexTriangles, this]
      · simp only [feeds] at h
        have : hasNormal (byteAt data 0) = false := by
          rw [hasNormal, show (2 : Nat) = 2 ^ 1 from rfl, and_bit]; simpa using h
        simp [pNormalTriangles, this]
      · simp only [feeds] at h
        have : hasUv (byteAt data 0) = false := by
          rw [hasUv, show (4 : Nat) = 2 ^ 2 from rfl, and_bit]; simpa using h
        simp [pUvTriangles, this]
    all_goals
      obtain ⟨l, rfl⟩ := decode_shape fo fb b e
      constructor <;> intro h <;> first | rfl | (simp [feeds] at h)
  · have h := decode_shape fo fb b e
    rw [show (encodedOf s).segType = .invalid from fromU16_unknown hk] at h
    subst h
    constructor <;> intro _ <;> rfl

theorem decode_unknown {ctx : DecodeCtx} {s : RawSeg} (hk : s.kind ∉ knownKinds) :
    (encodedOf s).decode fo fb b ctx = .ok .nothing := by
  rw [encodedOf, fromU16_unknown hk]
  rfl

/-- What a segment decodes to; nothing if it does not decode. -/
def decodedOr (ctx : DecodeCtx) (s : RawSeg) : DecodedSegment fo.F :=
  match (encodedOf s).decode fo fb b ctx with
  | .ok d => d
  | _ => .nothing

theorem decodedOr_onlyFeeds (ctx : DecodeCtx) (s : RawSeg) : OnlyFeeds s (decodedOr fo fb b ctx s) := by
  unfold decodedOr
  cases h : (encodedOf s).decode fo fb b ctx with
  | ok d => exact decode_onlyFeeds fo fb b h
  | err _ => constructor <;> intro _ <;> rfl
  | panic => constructor <;> intro _ <;> rfl

theorem mapAll_decoded {ctx : DecodeCtx} : ∀ {segs : List RawSeg},
    (∀ s ∈ segs, ∃ d, (encodedOf s).decode fo fb b ctx = .ok d) →
    Outcome.mapAll (fun s => (encodedOf s).decode fo fb b ctx) segs = .ok (segs.map (decodedOr fo fb b ctx))
  | [], _ => rfl
  | s :: segs, h => by
    obtain ⟨d, hd⟩ := h s (by simp)
    rw [Outcome.mapAll, hd, mapAll_decoded fun s hs => h s (by simp [hs])]
    simp [decodedOr, hd]

/-- The mesh made of segments that all decode. -/
theorem assembleMesh_decoded {ctx : DecodeCtx} {segs : List RawSeg}
    (h : ∀ s ∈ segs, ∃ d, (encodedOf s).decode fo fb b ctx = .ok d) :
    assembleMesh fo fb b ctx (segs.map encodedOf) =
      .ok ((segs.map (decodedOr fo fb b ctx)).foldl DecodedSegment.apply .empty) := by
  unfold assembleMesh
  rw [collect_of_no_panic, mapAll_map, mapAll_map]
  · rw [show (fun a => id (EncodedSegment.decode fo fb b ctx (encodedOf a))) =
      fun s => (encodedOf s).decode fo fb b ctx from rfl, mapAll_decoded fo fb b h]
    rfl
  · intro x hx hp
    rw [List.map_map] at hx
    obtain ⟨s, hs, rfl⟩ := List.mem_map.mp hx
    obtain ⟨v, hv⟩ := h s hs
    rw [Function.comp_apply, hv] at hp
    cases hp

theorem flatMap_filter_of {α β : Type} {f : α → List β} {q : α → Bool} (h : ∀ a, q a = false → f a = []) :
    ∀ l : List α, l.flatMap f = (l.filter q).flatMap f
  | [] => rfl
  | a :: l => by
    rw [List.flatMap_cons, flatMap_filter_of h l, List.filter_cons]
    cases hq : q a with
    | true => simp
    | false => simp [h a hq]

theorem flatMap_decoded {β : Type} {ctx : DecodeCtx} {a : MeshArray} {p : DecodedSegment fo.F → List β} {segs segs' : List RawSeg}
    (hs : segs'.filter (feeds a) = segs.filter (feeds a))
    (hp : ∀ s, feeds a s = false → p (decodedOr fo fb b ctx s) = []) :
    (segs'.map (decodedOr fo fb b ctx)).flatMap p = (segs.map (decodedOr fo fb b ctx)).flatMap p := by
  rw [List.flatMap_map, List.flatMap_map, flatMap_filter_of hp segs', flatMap_filter_of hp segs, hs]

/-- Two lists of segments that give every array the same give the same mesh. -/
theorem assembleMesh_order {ctx : DecodeCtx} {segs segs' : List RawSeg} {m : Mesh fo.F} (hs : SameSegments segs segs')
    (e : assembleMesh fo fb b ctx (segs.map encodedOf) = .ok m) :
    assembleMesh fo fb b ctx (segs'.map encodedOf) = .ok m := by
  have hm : ∀ s ∈ segs, ∃ d, (encodedOf s).decode fo fb b ctx = .ok d := fun s hs =>
    assembleMesh_ok_mem fo fb b e _ (List.mem_map.mpr ⟨s, hs, rfl⟩)
  have hm' : ∀ s ∈ segs', ∃ d, (encodedOf s).decode fo fb b ctx = .ok d := by
    intro s h
    rcases hs.others s h with h | h
    · exact hm s h
    · exact ⟨_, decode_unknown fo fb b h⟩
  rw [assembleMesh_decoded fo fb b hm] at e
  rw [assembleMesh_decoded fo fb b hm', ← e, applyAll_eq, applyAll_eq,
    flatMap_decoded fo fb b (hs.arrays .normals) fun s => (decodedOr_onlyFeeds fo fb b ctx s).normals,
    flatMap_decoded fo fb b (hs.arrays .normalTriangles) fun s => (decodedOr_onlyFeeds fo fb b ctx s).normalTriangles,
    flatMap_decoded fo fb b (hs.arrays .vertices) fun s => (decodedOr_onlyFeeds fo fb b ctx s).vertices,
    flatMap_decoded fo fb b (hs.arrays .vertexTriangles) fun s => (decodedOr_onlyFeeds fo fb b ctx s).vertexTriangles,
    flatMap_decoded fo fb b (hs.arrays .uvs) fun s => (decodedOr_onlyFeeds fo fb b ctx s).uvs,
    flatMap_decoded fo fb b (hs.arrays .uvTriangles) fun s => (decodedOr_onlyFeeds fo fb b ctx s).uvTriangles,
    flatMap_decoded fo fb b (hs.arrays .tangents) fun s => (decodedOr_onlyFeeds fo fb b ctx s).tangents,
    flatMap_decoded fo fb b (hs.arrays .tangentTriangles) fun s => (decodedOr_onlyFeeds fo fb b ctx s).tangentTriangles,
    flatMap_decoded fo fb b (hs.arrays .custom) fun s => (decodedOr_onlyFeeds fo fb b ctx s).custom]

end Tmf
