import Verif.Lemmas.Assemble
import Verif.Lemmas.Apply
/-
Array headers announcing too many elements, unknown segment types, index arrays of the old layout.
-/

namespace Tmf
open Spec

theorem fromU16_unknown {kind : Nat} (h : kind ∉ knownKinds) : SectionType.fromU16 kind = .invalid := by
  unfold SectionType.fromU16
  split
  · rfl
  · simp only [knownKinds, List.mem_cons, List.not_mem_nil, or_false, not_or] at h
    unfold SectionType.fromU8
    split <;> first | rfl | omega

theorem readTrianglesHeader_declares {L : Layout} {width len min : Nat} (hw : width < 256) (hl : len < 2 ^ 64)
    (hm : min < 2 ^ 64) (rest : List UInt8) :
    (readTrianglesHeader (ctxOf L).decode).runSlice (indexHead L width len min ++ rest) =
      if len > MAX_SEG_SIZE then .err .segmentTooLong
      else .ok ((width, len, match L with | .old => 0 | .new => min), rest) := by
  unfold readTrianglesHeader indexHead
  simp only [List.append_assoc]
  rw [Prog.runSlice_bind, Prog.runSlice_readU8 _ hw]
  simp only [Outcome.bind_ok]
  rw [Prog.runSlice_bind, Prog.runSlice_readU64 _ hl]
  simp only [Outcome.bind_ok]
  cases L with
  | old =>
    simp only [ctxOf, ImportCtx.decode, DecodeCtx.readTriangleMin, Bool.false_eq_true, if_false, Prog.pure_eq,
      Prog.ret_bind, List.nil_append]
    split <;> rfl
  | new =>
    simp only [ctxOf, ImportCtx.decode, DecodeCtx.readTriangleMin, if_true]
    rw [Prog.runSlice_bind, Prog.runSlice_readU64 _ hm]
    simp only [Outcome.bind_ok]
    split <;> rfl

variable (fo : FloatOps) (fb : F64Bytes fo) (b : Build)

theorem readCustomName_ok {name : List UInt8} (h : name.length < 256) (rest : List UInt8) :
    readCustomName.runSlice (leBytes 1 name.length ++ name ++ rest) = .ok (name, rest) := by
  rw [List.append_assoc, readCustomName, Prog.runSlice_bind, Prog.runSlice_readU8 _ h]
  simp only [Outcome.bind_ok]
  rw [Prog.runSlice_readBytes]

theorem readF64_raw {l : List UInt8} (h : 8 ≤ l.length) :
    (readF64 fb).runSlice l = .ok (fb.dec (l.take 8), l.drop 8) := by
  rw [readF64, Prog.runSlice_readExact, if_pos h]; rfl

theorem readPrec_ok {p : Nat} (h : p < 64) (rest : List UInt8) : readPrec.runSlice (leBytes 1 p ++ rest) = .ok (p, rest) := by
  rw [readPrec, Prog.runSlice_bind, Prog.runSlice_readU8 _ (by omega)]
  simp only [Outcome.bind_ok]
  rw [if_neg (by omega)]
  rfl

theorem decode_too_long {L : Layout} {len kind : Nat} {data : List UInt8} (h : Declares L len kind data)
    (hl : len < 2 ^ 64) (h31 : 2 ^ 31 < len) :
    (encodedOf ⟨kind, 0, data⟩).decode fo fb b (ctxOf L).decode = .err .segmentTooLong := by
  have hgt : len > MAX_SEG_SIZE := h31
  cases h with
  | index kind width min rest hk hw hm =>
    rcases hk with rfl | rfl | rfl | rfl <;>
    · simp only [encodedOf, EncodedSegment.decode, SectionType.fromU16, SectionType.fromU8, decodeIndices, compOf,
        readDefaultTriangles, if_true, Nat.reduceGT, if_false]
      rw [readTrianglesHeader_declares hw hl hm, if_pos hgt]
      rfl
  | shared mask width min rest hw hm =>
    simp only [encodedOf, EncodedSegment.decode, SectionType.fromU16, SectionType.fromU8, decodeShared, compOf,
        readDefaultTriangles, if_true, Nat.reduceGT, if_false]
    rw [readTrianglesHeader_declares hw hl hm, if_pos hgt]
    rfl
  | customIndex kind width min name rest hk hn hw hm =>
    rcases hk with rfl | rfl <;>
    · simp only [encodedOf, EncodedSegment.decode, SectionType.fromU16, SectionType.fromU8, CustomSeg.read,
        readTriangles, Nat.reduceGT, if_false]
      rw [List.append_assoc _ (indexHead _ _ _ _) rest, readCustomName_ok hn]
      simp only [Outcome.bind_ok]
      rw [readTrianglesHeader_declares hw hl hm, if_pos hgt]
      rfl
  | vertex box rest px py pz hb hx hy hz =>
    simp only [encodedOf, EncodedSegment.decode, SectionType.fromU16, SectionType.fromU8, readVertices,
        readVerticesHeader, Nat.reduceGT, if_false]
    have step : ∀ {α : Type} (k : fo.D → Prog α) (l : List UInt8), 8 ≤ l.length →
        (readF64 fb >>= k).runSlice l = (k (fb.dec (l.take 8))).runSlice (l.drop 8) := by
      intro α k l hl
      rw [Prog.runSlice_bind, readF64_raw fo fb hl]
      rfl
    simp only [List.append_assoc]
    rw [Prog.runSlice_bind, Prog.runSlice_readU64 _ hl]
    simp only [Outcome.bind_ok]
    iterate 6 rw [step _ _ (by simp [hb]; omega)]
    have hd : (((((((box ++ (leBytes 1 px ++ (leBytes 1 py ++ (leBytes 1 pz ++ rest)))).drop 8).drop 8).drop 8).drop
        8).drop 8).drop 8) = leBytes 1 px ++ (leBytes 1 py ++ (leBytes 1 pz ++ rest)) := by
      simp only [List.drop_drop]
      rw [List.drop_append_of_le_length (by omega), List.drop_of_length_le (by omega), List.nil_append]
    rw [hd, Prog.runSlice_bind, readPrec_ok hx]
    simp only [Outcome.bind_ok]
    rw [Prog.runSlice_bind, readPrec_ok hy]
    simp only [Outcome.bind_ok]
    rw [Prog.runSlice_bind, readPrec_ok hz]
    simp only [Outcome.bind_ok]
    rw [if_pos hgt]
    rfl
  | normal kind rest hk =>
    rcases hk with rfl | rfl <;>
    · simp only [encodedOf, EncodedSegment.decode, SectionType.fromU16, SectionType.fromU8, readNormals, readTangents,
        readNormalsHeader, Nat.reduceGT, if_false]
      rw [Prog.runSlice_bind, Prog.runSlice_readU64 _ hl]
      simp only [Outcome.bind_ok]
      rw [if_pos hgt]
      rfl
  | uv width rest hw =>
    simp only [encodedOf, EncodedSegment.decode, SectionType.fromU16, SectionType.fromU8, readUvs,
        readUvsHeader, Nat.reduceGT, if_false, List.append_assoc]
    rw [Prog.runSlice_bind, Prog.runSlice_readU8 _ hw]
    simp only [Outcome.bind_ok]
    rw [Prog.runSlice_bind, Prog.runSlice_readU64 _ hl]
    simp only [Outcome.bind_ok]
    rw [if_pos hgt]
    rfl
  | customFloat name rest hn =>
    simp only [encodedOf, EncodedSegment.decode, SectionType.fromU16, SectionType.fromU8, CustomSeg.read,
        readFloats, readFloatsHeader, Nat.reduceGT, if_false]
    rw [List.append_assoc _ (leBytes 8 len) rest, readCustomName_ok hn]
    simp only [Outcome.bind_ok]
    rw [Prog.runSlice_bind, Prog.runSlice_readU64 _ hl]
    simp only [Outcome.bind_ok]
    rw [if_pos hgt]
    rfl

/-! ### Old index arrays -/

theorem readDefault_old_header {a : OldArray} (h : a.Packed) :
    readDefaultTriangles b (ctxOf .old).decode a.seg.data =
      if a.width = 0 then .ok (List.replicate a.indices.length 0)
      else readIndices b a.width 0 a.indices.length (.new (.slice a.payload)) := by
  have hl : a.indices.length < 2 ^ 64 := by have := h.length; omega
  have hh := readTrianglesHeader_declares (L := .old) (width := a.width) (min := 0) h.width hl
    (by positivity) a.payload
  simp only [indexHead, List.append_nil] at hh
  unfold readDefaultTriangles OldArray.seg
  dsimp only
  rw [hh, if_neg (by have := h.length; unfold MAX_SEG_SIZE; omega)]
  rfl

theorem read2_zero {mode : Nat} (h : 64 ≤ mode) (r : BitReader) : r.read2 mode = .ok ((0, 0), r) := by
  rw [BitReader.read2, if_neg (by omega), if_pos (by omega), show r.read mode = .ok (0, r) from by rw [BitReader.read, if_pos (.inr h)]]
  simp only [Outcome.bind_ok]
  rw [show r.read mode = .ok (0, r) from by rw [BitReader.read, if_pos (.inr h)]]
  rfl

theorem readDefault_old {a : OldArray} (h : a.Ok) (h32 : a.width ≠ 32) :
    readDefaultTriangles b (ctxOf .old).decode a.seg.data = .ok a.indices := by
  rw [readDefault_old_header b ⟨h.kind, by have := h.width; omega, h.fits, h.length, h.packed, h.size⟩]
  split
  · next h0 =>
    refine congrArg Outcome.ok (Eq.symm ?_)
    rw [List.eq_replicate_iff]
    refine ⟨rfl, fun i hi => ?_⟩
    have := (h.fits i hi).1
    rw [h0] at this
    omega
  · have := readIndices_ok b (prec := a.width) (min := 0) h.width h32 a.indices (r := .new (.slice a.payload))
      (rest := a.padding) (BitReader.inv_new _) (fun c hc => (h.fits c hc).1)
      (fun c hc => by have := (h.fits c hc).2; omega) (by rw [BitReader.rem_new]; exact h.packed)
    rw [this]
    refine congrArg Outcome.ok ?_
    conv_rhs => rw [← List.map_id a.indices]
    apply List.map_congr_left
    intro c hc
    exact Nat.mod_eq_of_lt (h.fits c hc).2

/-- What an old array decodes to. -/
def oldDecoded (F : Type) (a : OldArray) : DecodedSegment F :=
  if a.kind = 2 then .triVertex a.indices
  else if a.kind = 4 then .triNormal a.indices
  else if a.kind = 6 then .triUv a.indices
  else .triTangent a.indices

/-- Pairs read as zeros from a reader that stays where it is. -/
theorem readIndexPairs_zero {prec : Nat} {r : BitReader} (h : r.read2 prec = .ok ((0, 0), r)) :
    ∀ n, readIndexPairs b prec 0 n r = .ok (List.replicate (n * 2) 0, r)
  | 0 => rfl
  | n + 1 => by
    have ha : addMin b 0 0 = .ok 0 := by rw [addMin, if_neg (by omega)]
    rw [readIndexPairs, h]
    simp only [Outcome.bind_ok]
    rw [ha, Outcome.bind_ok, Outcome.bind_ok, readIndexPairs_zero h n]
    rw [show (n + 1) * 2 = n * 2 + 1 + 1 by omega, List.replicate_succ, List.replicate_succ]
    rfl

theorem readDefault_loaded {a : OldArray} (h : a.Packed) :
    readDefaultTriangles b (ctxOf .old).decode a.seg.data = .ok a.loaded.indices := by
  by_cases h32 : a.width = 32
  · rw [OldArray.loaded, if_pos h32, readDefault_old_header b h, if_neg (by omega), readIndices,
      readIndexPairs_zero b (by rw [h32]; rfl)]
    simp only [Outcome.bind_ok]
    by_cases hodd : a.indices.length % 2 = 1
    · rw [if_pos (by omega), if_pos hodd]
      obtain ⟨i, l, hl⟩ : ∃ i l, a.indices = i :: l := by
        cases hi : a.indices with
        | nil => rw [hi] at hodd; simp at hodd
        | cons i l => exact ⟨i, l, rfl⟩
      have hp := h.packed
      obtain ⟨f1, f2⟩ := h.fits i (by rw [hl]; exact List.mem_cons_self)
      rw [hl, List.map_cons, fieldBits, List.flatMap_cons, List.append_assoc] at hp
      have hp : (BitReader.new (.slice a.payload)).rem = _ := (BitReader.rem_new _).trans hp
      obtain ⟨r', e, _, _, _⟩ := BitReader.read_ok (BitReader.inv_new (.slice a.payload)) (mode := a.width) (by omega)
        (by rw [hp]; simp)
      rw [e, hp, take_fieldBits_cons, value_bits, Outcome.bind_ok, Nat.mod_eq_of_lt f1, addMin, if_neg (by omega), Outcome.bind_ok, hl, Nat.add_zero, Nat.mod_eq_of_lt f2]
      rfl
    · rw [if_neg (by omega), if_neg hodd, List.append_nil]
  · by_cases h64 : 64 ≤ a.width
    · rw [OldArray.loaded, if_neg h32, if_pos h64, readDefault_old_header b h, if_neg (by omega), readIndices,
        readIndexPairs_zero b (read2_zero h64 _)]
      simp only [Outcome.bind_ok]
      by_cases hodd : a.indices.length % 2 = 1
      · rw [if_pos (by omega), BitReader.read, if_pos (Or.inr h64), Outcome.bind_ok, addMin, if_neg (by omega), Outcome.bind_ok]
        rw [show [0 % 2 ^ 32] = List.replicate 1 0 from rfl, List.replicate_append_replicate]
        congr 2
        omega
      · rw [if_neg (by omega)]
        congr 2
        omega
    · rw [OldArray.loaded, if_neg h32, if_neg h64]
      exact readDefault_old b ⟨h.kind, by omega, h.fits, h.length, h.packed, h.size⟩ h32

theorem loaded_kind (a : OldArray) : a.loaded.kind = a.kind := by
  unfold OldArray.loaded; split
  · rfl
  · split <;> rfl

theorem decode_old {a : OldArray} (h : a.Packed) :
    (encodedOf a.seg).decode fo fb b (ctxOf .old).decode = .ok (oldDecoded fo.F a.loaded) := by
  have hr := readDefault_loaded b h
  have hk := h.kind
  have hl := loaded_kind a
  generalize a.loaded = a' at *
  obtain ⟨kind', width', indices', payload', padding'⟩ := a'
  obtain ⟨kind, width, indices, payload, padding⟩ := a
  simp only [OldArray.seg] at hr hk hl ⊢
  subst hl
  rcases hk with rfl | rfl | rfl | rfl <;>
    (simp only [encodedOf, EncodedSegment.decode, SectionType.fromU16, SectionType.fromU8, decodeIndices, compOf,
      oldDecoded, if_true, Nat.reduceGT, if_false]
     rw [hr]
     rfl)

theorem collect_ok {ε α β : Type} {f : α → Outcome ε β} {g : α → β} {l : List α} (h : ∀ a ∈ l, f a = .ok (g a)) :
    collect (l.map f) = .ok (l.map g) := by
  rw [List.map_congr_left h, collect_of_no_panic]
  · rw [mapAll_map]; exact mapAll_ok g l
  · intro x hx
    obtain ⟨a, _, rfl⟩ := List.mem_map.mp hx
    simp

theorem flatMap_eq_of {α β : Type} {l : List α} {p q : α → List β} (h : ∀ a ∈ l, p a = q a) :
    l.flatMap p = l.flatMap q := by
  induction l with
  | nil => rfl
  | cons a l ih =>
    rw [List.flatMap_cons, List.flatMap_cons, h a List.mem_cons_self, ih (fun x hx => h x (List.mem_cons_of_mem _ hx))]

theorem flatMap_eq_nil_of {α β : Type} {l : List α} {p : α → List β} (h : ∀ a ∈ l, p a = []) : l.flatMap p = [] := by
  rw [flatMap_eq_of h]; simp

theorem piecesOf_eq (k : Nat) (l : List OldArray) :
    piecesOf k l = l.flatMap (fun a => if a.kind = k then [a.indices] else []) := by
  unfold piecesOf
  induction l with
  | nil => rfl
  | cons a l ih =>
    rw [List.filter_cons, List.flatMap_cons]
    by_cases hk : a.kind = k
    · simp [hk, ih]
    · simp [hk, ih]

theorem assembleMesh_old {l : List OldArray} (h : ∀ a ∈ l, a.Packed) :
    assembleMesh fo fb b (ctxOf .old).decode ((l.map OldArray.seg).map encodedOf) =
      .ok { (Mesh.empty : Mesh fo.F) with
            vertexTriangles := joined (piecesOf 2 (l.map OldArray.loaded)), normalTriangles := joined (piecesOf 4 (l.map OldArray.loaded)),
            uvTriangles := joined (piecesOf 6 (l.map OldArray.loaded)),
            tangentTriangles := joined (piecesOf 10 (l.map OldArray.loaded)) } := by
  unfold assembleMesh
  have : collect (List.map (EncodedSegment.decode fo fb b (ctxOf .old).decode) ((l.map OldArray.seg).map encodedOf)) =
      .ok ((l.map OldArray.loaded).map (oldDecoded fo.F)) := by
    rw [List.map_map, List.map_map, List.map_map]
    exact collect_ok (fun a ha => decode_old fo fb b (h a ha))
  rw [this]
  have hk : ∀ a ∈ l.map OldArray.loaded, a.kind = 2 ∨ a.kind = 4 ∨ a.kind = 6 ∨ a.kind = 10 := by
    intro a ha
    obtain ⟨x, hx, rfl⟩ := List.mem_map.mp ha
    rw [loaded_kind]
    exact (h x hx).kind
  generalize l.map OldArray.loaded = l at *
  simp only [Outcome.bind_ok]
  rw [applyAll_eq]
  simp only [List.flatMap_map, piecesOf_eq]
  have h1 : l.flatMap (fun a => (oldDecoded fo.F a).pVertices) = [] := by
    refine flatMap_eq_nil_of fun a ha => ?_
    rcases hk a ha with h | h | h | h <;> simp [oldDecoded, h, DecodedSegment.pVertices]
  have h2 : l.flatMap (fun a => (oldDecoded fo.F a).pNormals) = [] := by
    refine flatMap_eq_nil_of fun a ha => ?_
    rcases hk a ha with h | h | h | h <;> simp [oldDecoded, h, DecodedSegment.pNormals]
  have h3 : l.flatMap (fun a => (oldDecoded fo.F a).pUvs) = [] := by
    refine flatMap_eq_nil_of fun a ha => ?_
    rcases hk a ha with h | h | h | h <;> simp [oldDecoded, h, DecodedSegment.pUvs]
  have h4 : l.flatMap (fun a => (oldDecoded fo.F a).pTangents) = [] := by
    refine flatMap_eq_nil_of fun a ha => ?_
    rcases hk a ha with h | h | h | h <;> simp [oldDecoded, h, DecodedSegment.pTangents]
  have h5 : l.flatMap (fun a => (oldDecoded fo.F a).pCustom) = [] := by
    refine flatMap_eq_nil_of fun a ha => ?_
    rcases hk a ha with h | h | h | h <;> simp [oldDecoded, h, DecodedSegment.pCustom]
  have h6 : l.flatMap (fun a => (oldDecoded fo.F a).pVertexTriangles) =
      l.flatMap (fun a => if a.kind = 2 then [a.indices] else []) := by
    refine flatMap_eq_of fun a ha => ?_
    rcases hk a ha with h | h | h | h <;> simp [oldDecoded, h, DecodedSegment.pVertexTriangles]
  have h7 : l.flatMap (fun a => (oldDecoded fo.F a).pNormalTriangles) =
      l.flatMap (fun a => if a.kind = 4 then [a.indices] else []) := by
    refine flatMap_eq_of fun a ha => ?_
    rcases hk a ha with h | h | h | h <;> simp [oldDecoded, h, DecodedSegment.pNormalTriangles]
  have h8 : l.flatMap (fun a => (oldDecoded fo.F a).pUvTriangles) =
      l.flatMap (fun a => if a.kind = 6 then [a.indices] else []) := by
    refine flatMap_eq_of fun a ha => ?_
    rcases hk a ha with h | h | h | h <;> simp [oldDecoded, h, DecodedSegment.pUvTriangles]
  have h9 : l.flatMap (fun a => (oldDecoded fo.F a).pTangentTriangles) =
      l.flatMap (fun a => if a.kind = 10 then [a.indices] else []) := by
    refine flatMap_eq_of fun a ha => ?_
    rcases hk a ha with h | h | h | h <;> simp [oldDecoded, h, DecodedSegment.pTangentTriangles]
  rw [h1, h2, h3, h4, h5, h6, h7, h8, h9]
  rfl

end Tmf
