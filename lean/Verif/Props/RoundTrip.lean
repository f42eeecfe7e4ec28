import Verif.Lemmas.FileRoundTrip
import Verif.Lemmas.Refine
import Verif.Lemmas.Tangents
import Verif.Lemmas.Parse
import Verif.Props.Saving
/-
C10, C11, C12, C39, C48, C49: saving and loading whole files.
-/

namespace Tmf.Props
open Spec

variable (fo : FloatOps) (fb : F64Bytes fo) (prec : PrecisionInfo fo.F)

/-- A file written with overflow checks is written byte for byte the same without them; the
theorems below therefore hold for files from either build. -/
theorem C11_builds_agree {meshes : List (Mesh fo.F × List UInt8)} {bytes : List UInt8}
    (h : tmfBytes fo fb .checked prec meshes = .ok bytes) (b : Build) : tmfBytes fo fb b prec meshes = .ok bytes := by
  cases b with
  | checked => exact h
  | wrapping => exact refines_tmfBytes fo fb prec meshes bytes h

/-- C10. The four index arrays of every mesh come back exactly. -/
theorem C10_index_arrays {meshes : List (Mesh fo.F × List UInt8)} {bytes : List UInt8}
    (h : tmfBytes fo fb .checked prec meshes = .ok bytes) (hl : Limits fo fb prec meshes)
    (hb : bytes.length ≤ 2 ^ 31) (b' : Build) (junk : List UInt8) (sched : List Nat) :
    ∃ out, readTmf fo fb b' ⟨bytes ++ junk, sched, false⟩ = .ok out ∧
      List.Forall₂ (fun mn mn' => SameIndices mn.1 mn'.1) meshes out := by
  obtain ⟨out, e, hf⟩ := readTmf_limits (b' := b') h hl hb junk sched
  refine ⟨out, e, hf.imp ?_⟩
  rintro mn mn' ⟨_, edge, _, hm, _⟩
  rw [hm]
  exact ⟨rfl, rfl, rfl, rfl⟩

/-- C11. As many meshes in the same order with the same names, and arrays of the same size. -/
theorem C11_names_and_sizes {meshes : List (Mesh fo.F × List UInt8)} {bytes : List UInt8}
    (h : tmfBytes fo fb .checked prec meshes = .ok bytes) (hl : Limits fo fb prec meshes)
    (hb : bytes.length ≤ 2 ^ 31) (b' : Build) (junk : List UInt8) (sched : List Nat) :
    ∃ out, readTmf fo fb b' ⟨bytes ++ junk, sched, false⟩ = .ok out ∧
      out.map Prod.snd = meshes.map Prod.snd ∧
      List.Forall₂ (fun mn mn' => SameSizes mn.1 mn'.1) meshes out := by
  obtain ⟨out, e, hf⟩ := readTmf_limits (b' := b') h hl hb junk sched
  refine ⟨out, e, ?_, hf.imp ?_⟩
  · clear e h hl
    induction hf with
    | nil => rfl
    | cons h _ ih => simp only [List.map_cons, h.1, ih]
  · rintro mn mn' ⟨_, edge, _, hm, hcut⟩
    rw [hm]
    refine ⟨?_, by simp [loadedMesh, Function.comp_def], by simp [loadedMesh, Function.comp_def],
      by simp [loadedMesh, Function.comp_def]⟩
    cases hv : mn.1.vertices with
    | none => simp [loadedMesh, hv]
    | some l =>
      obtain ⟨qs, hq, hc⟩ := hcut l hv
      simp only [loadedMesh, hv, Option.map_some, Option.some.injEq, loadedVertices, hq]
      rw [← hc]
      clear hc hq
      induction qs with
      | nil => rfl
      | cons q qs ih =>
        rw [List.flatMap_cons, List.length_append, ih, List.flatten_cons, List.length_append]
        congr 1
        cases q with
        | nil => rfl
        | cons v q => simp [quantVertices, vertexBox]

/-- C12 (part: distinct names for `lookup_custom_data`). All custom data comes back, in reversed
order, with the same names and kinds; index and integer data exactly. Missing: looking up a name
that is stored twice, see below. -/
theorem C12_custom_data_partial {meshes : List (Mesh fo.F × List UInt8)} {bytes : List UInt8}
    (h : tmfBytes fo fb .checked prec meshes = .ok bytes) (hl : Limits fo fb prec meshes)
    (hb : bytes.length ≤ 2 ^ 31) (b' : Build) (junk : List UInt8) (sched : List Nat) :
    ∃ out, readTmf fo fb b' ⟨bytes ++ junk, sched, false⟩ = .ok out ∧
      List.Forall₂ (fun mn mn' =>
        List.Forall₂ (fun c c' => c'.name = c.name ∧ SameCustom c.data c'.data) mn.1.customData.reverse mn'.1.customData ∧
        ((mn.1.customData.map CustomSeg.name).Nodup → ∀ c ∈ mn.1.customData,
          ∃ d, mn'.1.lookupCustomData c.name = some d ∧ SameCustom c.data d)) meshes out := by
  obtain ⟨out, e, hf⟩ := readTmf_limits (b' := b') h hl hb junk sched
  refine ⟨out, e, ?_⟩
  have hsame : ∀ d : CustomData fo.F, SameCustom d (d.loaded fo) := by
    intro d
    cases d with
    | index l m => exact .index l m _
    | integer l m => exact .integer l m _
    | float l p => exact .float l _ p _ (by simp)
    | color l p => exact .color l _ p _ (by simp)
  refine forall₂_imp hf ?_
  rintro mn hmn mn' ⟨_, edge, _, hm, _⟩
  rw [hm]
  constructor
  · show List.Forall₂ _ mn.1.customData.reverse (mn.1.customData.reverse.map (CustomSeg.loaded fo))
    generalize mn.1.customData.reverse = l
    induction l with
    | nil => exact .nil
    | cons c l ih => exact .cons ⟨rfl, hsame _⟩ ih
  · intro hnd c hc
    refine ⟨c.data.loaded fo, ?_, hsame _⟩
    have hlen : c.name.length < 256 := by
      have := (hl.fits mn hmn).custom c hc
      cases this <;> assumption
    rw [Mesh.lookupCustomData, if_neg (by omega)]
    show Mesh.lookupLoop c.name (mn.1.customData.reverse.map (CustomSeg.loaded fo)) = _
    have hnd' : (mn.1.customData.reverse.map CustomSeg.name).Nodup := by
      rw [List.map_reverse]; exact List.nodup_reverse.mpr hnd
    have hc' : c ∈ mn.1.customData.reverse := List.mem_reverse.mpr hc
    generalize mn.1.customData.reverse = l at hnd' hc'
    induction l with
    | nil => simp at hc'
    | cons x l ih =>
      rw [List.map_cons, List.nodup_cons] at hnd'
      rw [List.map_cons, Mesh.lookupLoop]
      rcases List.mem_cons.mp hc' with rfl | hc'
      · rw [if_pos ⟨rfl, rfl⟩]; rfl
      · rw [if_neg, ih hnd'.2 hc']
        rintro ⟨_, e⟩
        exact hnd'.1 (List.mem_map.mpr ⟨c, hc', e⟩)

/-- Two entries under one name. -/
def twiceMesh : Mesh fo.F × List UInt8 :=
  ({ (Mesh.empty : Mesh fo.F) with
      vertexTriangles := some [0, 1, 2]
      customData := [⟨[97], .index [1] 1⟩, ⟨[97], .index [2, 2] 2⟩] }, [65])

def twiceEnc : List EncodedSegment :=
  [⟨.customIndex, .none, [1, 97, 2] ++ leBytes 8 2 ++ leBytes 8 2 ++ [0]⟩,
   ⟨.customIndex, .none, [1, 97, 1] ++ leBytes 8 1 ++ leBytes 8 1 ++ [0]⟩,
   ⟨.vertexTriangle, .none, [2] ++ leBytes 8 3 ++ leBytes 8 0 ++ [0x18]⟩]

theorem twiceMesh_saved (b : Build) : tmfBytes fo fb b prec [twiceMesh fo] =
    .ok (fileBytes 2 [⟨[65], twiceEnc.map rawOf⟩]) := by
  rw [tmfBytes_of fo fb b prec (enc := [twiceEnc]) (by cases b <;> rfl)]
  rfl

/-- C12 is false: the first entry stored under a name is found before saving, the last one after
loading. -/
theorem C12_violated_duplicate_names : ∃ (mn : Mesh fo.F × List UInt8) (bytes : List UInt8) (mn' : Mesh fo.F × List UInt8),
    (∀ b, tmfBytes fo fb b prec [mn] = .ok bytes) ∧ (∀ b, readTmf fo fb b ⟨bytes, [], false⟩ = .ok [mn']) ∧
    mn.1.lookupCustomData [97] = some (.index [1] 1) ∧ mn'.1.lookupCustomData [97] = some (.index [2, 2] 2) :=
  ⟨twiceMesh fo, _, ({ (Mesh.empty : Mesh fo.F) with
      vertexTriangles := some [0, 1, 2]
      customData := [⟨[97], .index [2, 2] 2⟩, ⟨[97], .index [1] 1⟩] }, [65]),
    twiceMesh_saved fo fb prec, fun b => by cases b <;> rfl, rfl, rfl⟩

/-- C39. The handedness of every tangent of a written file comes back as -1 or +1 by its sign
bit. -/
theorem C39_handedness_file {meshes : List (Mesh fo.F × List UInt8)} {bytes : List UInt8}
    (h : tmfBytes fo fb .checked prec meshes = .ok bytes) (hl : Limits fo fb prec meshes)
    (hb : bytes.length ≤ 2 ^ 31) (b' : Build) (junk : List UInt8) (sched : List Nat) :
    ∃ out, readTmf fo fb b' ⟨bytes ++ junk, sched, false⟩ = .ok out ∧
      List.Forall₂ (fun mn mn' => mn'.1.tangents.map (List.map Prod.snd) = mn.1.tangents.map (List.map (fun t =>
        if fo.isSignNegative t.2 then fo.negOne else fo.one))) meshes out := by
  obtain ⟨out, e, hf⟩ := readTmf_limits (b' := b') h hl hb junk sched
  refine ⟨out, e, hf.imp ?_⟩
  rintro mn mn' ⟨_, edge, _, hm, _⟩
  rw [hm]
  cases ht : mn.1.tangents with
  | none => simp [loadedMesh, ht]
  | some l => simp [loadedMesh, ht, quantTangent, htFromBool, Function.comp_def]

/-- C39 for one array, also without overflow checks and up to 63 bits. -/
theorem C39_handedness {b : Build} {l : List (Tangent fo.F)} {p : Nat} {bytes : List UInt8} (hp : p < 64)
    (hl : l.length ≤ 2 ^ 31) (h : saveTangents fo b l p = .ok bytes) :
    ∃ l', readTangents fo bytes = .ok l' ∧
      l'.map Prod.snd = l.map (fun t => if fo.isSignNegative t.2 then fo.negOne else fo.one) := by
  obtain ⟨mul, hr⟩ := readTangents_any hp hl h
  have := hr []
  rw [List.append_nil] at this
  exact ⟨_, this, by simp [loadedTangent, htFromBool, Function.comp_def]⟩

/-- Without overflow checks every tangent array is saved. -/
example (l : List (Tangent fo.F)) : ∃ bytes, saveTangents fo .wrapping l 63 = .ok bytes := by
  have hm : Outcome.mapAll (tangentFields fo .wrapping 63) l = .ok (l.map (tangentFieldsWith fo 63 (2 ^ 31 - 1))) :=
    mapAll_of_ok (fun _ _ => rfl)
  obtain ⟨w, _, e, _⟩ := written_bits .wrapping (fields := (l.map (tangentFieldsWith fo 63 (2 ^ 31 - 1))).flatten) (by
    intro q hq
    rw [← List.flatMap_def] at hq
    obtain ⟨x, hx, hq⟩ := List.mem_flatMap.mp hq
    simp only [tangentFieldsWith, List.mem_cons, List.not_mem_nil, or_false] at hq
    rcases hq with rfl | rfl | rfl | rfl | rfl | rfl <;> simp)
  exact ⟨_, by rw [saveTangents, hm, Outcome.bind_ok, e]; rfl⟩

/-- The limits are met by a mesh with two index arrays. -/
theorem indexMesh_limits : Limits fo fb prec [indexMesh fo] where
  count := show 1 < 2 ^ 32 by decide
  names := by
    intro mn h
    rcases List.mem_singleton.mp h with rfl
    exact ⟨show 2 < 2 ^ 16 by decide, ⟨['A', 'B'], rfl⟩⟩
  fits := by
    intro mn h
    rcases List.mem_singleton.mp h with rfl
    refine ⟨?_, ?_, ?_, ?_, ?_, ?_, ?_, ?_, ?_, ?_, ?_⟩ <;>
      simp [LengthFits, IndicesFit, indexMesh, Mesh.empty]
  segments := by
    intro mn h segs hs
    rcases List.mem_singleton.mp h with rfl
    have e : encodeMesh fo fb .checked prec (indexMesh fo).1 =
      .ok [⟨.normalTriangle, .none, [2] ++ leBytes 8 5 ++ leBytes 8 0 ++ [0xd9, 0]⟩,
        ⟨.vertexTriangle, .none, [2] ++ leBytes 8 3 ++ leBytes 8 0 ++ [0x18]⟩] := by rfl
    rw [e] at hs
    cases hs
    decide

example (b' : Build) : ∃ out, readTmf fo fb b' ⟨indexMeshBytes ++ [1, 2], [3], false⟩ = .ok out ∧
    List.Forall₂ (fun mn mn' => SameIndices mn.1 mn'.1) [indexMesh fo] out :=
  C10_index_arrays fo fb prec (indexMesh_saved fo fb .checked prec) (indexMesh_limits fo fb prec) (by decide) b' _ _

/-- Three equal index arrays, merged into one segment when saved, and a fourth. -/
def sharedMesh : Mesh fo.F × List UInt8 :=
  ({ (Mesh.empty : Mesh fo.F) with
      vertexTriangles := some [0, 1, 2], normalTriangles := some [0, 1, 2], uvTriangles := some [0, 1, 2],
      tangentTriangles := some [2, 1, 0] }, [65])

def sharedEnc : List EncodedSegment :=
  [⟨.tangentTriangle, .none, [2] ++ leBytes 8 3 ++ leBytes 8 0 ++ [0x90]⟩,
   ⟨.sharedTriangle, .none, [7, 2] ++ leBytes 8 3 ++ leBytes 8 0 ++ [0x18]⟩]

example (b : Build) : tmfBytes fo fb b prec [sharedMesh fo] = .ok (fileBytes 2 [⟨[65], sharedEnc.map rawOf⟩]) := by
  rw [tmfBytes_of fo fb b prec (enc := [sharedEnc]) (by cases b <;> rfl)]
  rfl

example (b : Build) : readTmf fo fb b ⟨fileBytes 2 [⟨[65], sharedEnc.map rawOf⟩], [], false⟩ = .ok [sharedMesh fo] := by
  cases b <;> rfl

/-! ### Limits of the format -/

/-- Names in loaded files have fewer than 2^16 bytes. -/
theorem loaded_names {b : Build} {bytes : List UInt8} {sched : List Nat} {vs : List (Mesh fo.F × List UInt8)}
    (h : readTmf fo fb b ⟨bytes, sched, false⟩ = .ok vs) : ∀ mn ∈ vs, mn.2.length < 2 ^ 16 := by
  obtain ⟨ver, minMinor, ms, junk, _, _, _, hf, _, hm⟩ := (readTmf_iff fo fb b bytes sched vs).mp h
  intro mn hmn
  obtain ⟨rm, hrm, e⟩ := mapAll_ok_mem' hm mn hmn
  simp only [rawMesh, Outcome.bind_eq_ok] at e
  obtain ⟨_, _, e⟩ := e
  cases e
  exact (hf rm hrm).name.len

/-- C48 is false for names: whatever is saved with a name of 2^16 or more bytes (saving does not
look at the length), the file does not load back with this name. -/
theorem C48_violated_name {b b' : Build} {meshes : List (Mesh fo.F × List UInt8)} {bytes : List UInt8}
    (_h : tmfBytes fo fb b prec meshes = .ok bytes) {mn : Mesh fo.F × List UInt8} (_hm : mn ∈ meshes)
    (hn : 2 ^ 16 ≤ mn.2.length) (sched : List Nat) :
    ¬ ∃ out, readTmf fo fb b' ⟨bytes, sched, false⟩ = .ok out ∧ out.map Prod.snd = meshes.map Prod.snd := by
  rintro ⟨out, h, e⟩
  have : mn.2 ∈ out.map Prod.snd := by rw [e]; exact List.mem_map_of_mem _hm
  obtain ⟨mn', hmn', e'⟩ := List.mem_map.mp this
  have := loaded_names fo fb h mn' hmn'
  rw [e'] at this
  omega

example (b : Build) (name : List UInt8) : ∃ bytes, tmfBytes fo fb b prec [((indexMesh fo).1, name)] = .ok bytes :=
  ⟨_, tmfBytes_of fo fb b prec (enc := [[⟨.normalTriangle, .none, [2] ++ leBytes 8 5 ++ leBytes 8 0 ++ [0xd9, 0]⟩,
    ⟨.vertexTriangle, .none, [2] ++ leBytes 8 3 ++ leBytes 8 0 ++ [0x18]⟩]]) (by cases b <;> rfl)⟩

theorem mapAll_length {ε α β : Type} {f : α → Outcome ε β} : ∀ {l : List α} {r : List β},
    Outcome.mapAll f l = .ok r → r.length = l.length
  | [], r, h => by cases h; rfl
  | a :: l, r, h => by
    rw [Outcome.mapAll, Outcome.bind_eq_ok] at h
    obtain ⟨v, _, h⟩ := h
    rw [Outcome.bind_eq_ok] at h
    obtain ⟨vs, hv, h⟩ := h
    cases h
    simp [mapAll_length hv]

theorem collect_length {ε α : Type} {l : List (Outcome ε α)} {r : List α} (h : collect l = .ok r) :
    r.length = l.length := by
  by_cases hp : .panic ∈ l
  · rw [collect_panic hp] at h; cases h
  · rw [collect_of_no_panic (fun x hx he => hp (he ▸ hx))] at h
    exact mapAll_length h

/-- Loaded meshes have fewer than 2^16 custom data entries. -/
theorem loaded_customs {b : Build} {bytes : List UInt8} {sched : List Nat} {vs : List (Mesh fo.F × List UInt8)}
    (h : readTmf fo fb b ⟨bytes, sched, false⟩ = .ok vs) : ∀ mn ∈ vs, mn.1.customData.length < 2 ^ 16 := by
  obtain ⟨ver, minMinor, ms, junk, _, _, _, hf, _, hm⟩ := (readTmf_iff fo fb b bytes sched vs).mp h
  intro mn hmn
  obtain ⟨rm, hrm, e⟩ := mapAll_ok_mem' hm mn hmn
  simp only [rawMesh, Outcome.bind_eq_ok] at e
  obtain ⟨m, hm, e⟩ := e
  cases e
  simp only [assembleMesh, Outcome.bind_eq_ok] at hm
  obtain ⟨ds, hd, hm⟩ := hm
  cases hm
  rw [applyAll_eq]
  have hlen : ds.length = rm.segs.length := by
    have := collect_length hd
    simpa using this
  have : (ds.flatMap DecodedSegment.pCustom).length ≤ ds.length := by
    clear hd hlen hmn
    induction ds with
    | nil => simp
    | cons d ds ih =>
      rw [List.flatMap_cons, List.length_append, List.length_cons]
      have h1 : d.pCustom.length ≤ 1 := by cases d <;> simp [DecodedSegment.pCustom]
      omega
  have hc := (hf rm hrm).count
  show (ds.flatMap DecodedSegment.pCustom).length < 2 ^ 16
  omega

/-- C48 is false for custom data: whatever is saved with 2^16 or more entries on a mesh, the file
does not load back with as many. -/
theorem C48_violated_segments {b b' : Build} {meshes : List (Mesh fo.F × List UInt8)} {bytes : List UInt8}
    (_h : tmfBytes fo fb b prec meshes = .ok bytes) {mn : Mesh fo.F × List UInt8} (_hm : mn ∈ meshes)
    (hn : 2 ^ 16 ≤ mn.1.customData.length) (sched : List Nat) :
    ¬ ∃ out, readTmf fo fb b' ⟨bytes, sched, false⟩ = .ok out ∧
      out.map (fun x => x.1.customData.length) = meshes.map (fun x => x.1.customData.length) := by
  rintro ⟨out, h, e⟩
  have : mn.1.customData.length ∈ out.map (fun x => x.1.customData.length) := by
    rw [e]; exact List.mem_map.mpr ⟨mn, _hm, rfl⟩
  obtain ⟨mn', hmn', e'⟩ := List.mem_map.mp this
  have := loaded_customs fo fb h mn' hmn'
  omega

/-- Such a mesh is saved without an error: three vertex indices and any number of empty entries. -/
example (b : Build) (n : Nat) : ∃ bytes, tmfBytes fo fb b prec
    [({ (Mesh.empty : Mesh fo.F) with
        vertexTriangles := some [0, 1, 2]
        customData := List.replicate n ⟨[97], .index [] 0⟩ }, [65])] = .ok bytes := by
  obtain ⟨segs, hs⟩ : ∃ segs, encodeMesh fo fb b prec { (Mesh.empty : Mesh fo.F) with
      vertexTriangles := some [0, 1, 2]
      customData := List.replicate n ⟨[97], .index [] 0⟩ } = .ok segs := by
    rw [encodeMesh, mergeSegments_eq]
    have hseg : ∀ s ∈ mergedSegs ({ (Mesh.empty : Mesh fo.F) with
        vertexTriangles := some [0, 1, 2]
        customData := List.replicate n ⟨[97], .index [] 0⟩ }), s = .custom ⟨[97], .index [] 0⟩ ∨ s = .triVertex [0, 1, 2] := by
      intro s hs
      simp only [mergedSegs, mergedTris, Mesh.empty, Option.map_none, Option.toList_none, List.append_nil,
        List.reverse_replicate, List.map_replicate, List.mem_append, List.mem_replicate, Option.map_some,
        Option.toList_some, List.mem_singleton] at hs
      rcases hs with ⟨_, rfl⟩ | rfl
      · exact .inl rfl
      · exact .inr rfl
    have hopt : ∀ s ∈ mergedSegs ({ (Mesh.empty : Mesh fo.F) with
        vertexTriangles := some [0, 1, 2]
        customData := List.replicate n ⟨[97], .index [] 0⟩ }), s.optimize fo b = .ok [s] := by
      intro s hs
      rcases hseg s hs with rfl | rfl
      · rfl
      · cases b <;> rfl
    have : calcShortestEdge fo (Mesh.getVertexTriangles { (Mesh.empty : Mesh fo.F) with
      vertexTriangles := some [0, 1, 2]
      customData := List.replicate n ⟨[97], .index [] 0⟩ }) (Mesh.getVertices { (Mesh.empty : Mesh fo.F) with
      vertexTriangles := some [0, 1, 2]
      customData := List.replicate n ⟨[97], .index [] 0⟩ }) = .ok (fo.lit 1 1) := rfl
    rw [this, Outcome.bind_ok, Outcome.bind_ok, mapAll_of_ok hopt, Outcome.bind_ok]
    refine mapAll_exists (fun s hs => ?_)
    rw [← List.flatMap_def, flatMap_wrap] at hs
    rcases hseg s hs with rfl | rfl
    · exact ⟨⟨.customIndex, .none, [1, 97, 0] ++ leBytes 8 0 ++ leBytes 8 0⟩, by cases b <;> rfl⟩
    · exact ⟨⟨.vertexTriangle, .none, [2] ++ leBytes 8 3 ++ leBytes 8 0 ++ [0x18]⟩, by cases b <;> rfl⟩
  exact ⟨_, tmfBytes_of fo fb b prec (enc := [segs]) (by simp [Outcome.mapAll, hs])⟩

/-- C48 (part: inside the limits). Names and custom data entries come back completely. Missing:
names of 2^16 bytes and 2^16 segments or more, see above. -/
theorem C48_stored_partial {meshes : List (Mesh fo.F × List UInt8)} {bytes : List UInt8}
    (h : tmfBytes fo fb .checked prec meshes = .ok bytes) (hl : Limits fo fb prec meshes)
    (hb : bytes.length ≤ 2 ^ 31) (b' : Build) (junk : List UInt8) (sched : List Nat) :
    ∃ out, readTmf fo fb b' ⟨bytes ++ junk, sched, false⟩ = .ok out ∧ out.map Prod.snd = meshes.map Prod.snd ∧
      out.map (fun x => x.1.customData.map CustomSeg.name) =
        meshes.map (fun x => (x.1.customData.map CustomSeg.name).reverse) := by
  obtain ⟨out, e, hf⟩ := readTmf_limits (b' := b') h hl hb junk sched
  refine ⟨out, e, ?_, ?_⟩
  · clear e h hl
    induction hf with
    | nil => rfl
    | cons h _ ih => simp only [List.map_cons, h.1, ih]
  · clear e h hl
    induction hf with
    | nil => rfl
    | cons h _ ih =>
      obtain ⟨_, _, _, hm, _⟩ := h
      rw [List.map_cons, List.map_cons, ih, hm]
      congr 1
      simp [loadedMesh, CustomSeg.loaded, Function.comp_def, List.map_reverse]

/-- C49 (part: inside the limits). What was written can be read. Missing: see below. -/
theorem C49_readable_partial {meshes : List (Mesh fo.F × List UInt8)} {bytes : List UInt8}
    (h : tmfBytes fo fb .checked prec meshes = .ok bytes) (hl : Limits fo fb prec meshes)
    (hb : bytes.length ≤ 2 ^ 31) (b' : Build) (junk : List UInt8) (sched : List Nat) :
    ∃ out, readTmf fo fb b' ⟨bytes ++ junk, sched, false⟩ = .ok out := by
  obtain ⟨out, e, _⟩ := readTmf_limits (b' := b') h hl hb junk sched
  exact ⟨out, e⟩

/-- C49 is false: an empty normal array at a precision of 64 bits or more is written, but the file
is rejected. -/
theorem C49_violated_empty_normals (h1 : 64 ≤ prec.normal) (h2 : prec.normal < 256) :
    ∃ (m : Mesh fo.F) (bytes : List UInt8), (∀ b, tmfBytes fo fb b prec [(m, [65])] = .ok bytes) ∧
      ∀ b sched, readTmf fo fb b ⟨bytes, sched, false⟩ = .err (.invalidPrecision prec.normal) := by
  let enc : List EncodedSegment := [⟨.vertexTriangle, .none, [2] ++ leBytes 8 3 ++ leBytes 8 0 ++ [0x18]⟩,
    ⟨.normal, .none, leBytes 8 0 ++ leBytes 1 prec.normal⟩]
  refine ⟨{ (Mesh.empty : Mesh fo.F) with
      vertexTriangles := some [0, 1, 2]
      normals := some [] }, fileBytes 2 [⟨[65], enc.map rawOf⟩], fun b => ?_, fun b sched => ?_⟩
  · rw [tmfBytes_of fo fb b prec (enc := [enc]) (by cases b <;> rfl)]
    rfl
  · have hf : RawMesh.Framed (layoutOf 2) ⟨[65], enc.map rawOf⟩ := by
      refine ⟨⟨show 1 < 2 ^ 16 by decide, ⟨['A'], rfl⟩⟩, show 2 < 2 ^ 16 by decide, fun s hs => ?_⟩
      obtain ⟨e, he, rfl⟩ := List.mem_map.mp hs
      simp only [enc, List.mem_cons, List.not_mem_nil, or_false] at he
      rcases he with rfl | rfl
      · exact rawOf_framed rfl (show 18 ≤ 2 ^ 31 by decide)
      · exact rawOf_framed rfl (show 9 ≤ 2 ^ 31 by decide)
    have := readTmf_file fo fb b (minMinor := 2) (le_refl 2) (meshes := [⟨[65], enc.map rawOf⟩])
      (by intro m hm; rcases List.mem_singleton.mp hm with rfl; exact hf) (by simp) [] sched
    rw [List.append_nil] at this
    rw [this]
    have hd : readNormals fo (leBytes 8 0 ++ leBytes 1 prec.normal) = .err (.invalidPrecision prec.normal) := by
      unfold readNormals
      have hh : readNormalsHeader.runSlice (leBytes 8 0 ++ leBytes 1 prec.normal) = .err (.invalidPrecision prec.normal) := by
        rw [readNormalsHeader, Prog.runSlice_bind, Prog.runSlice_readU64 _ (by decide)]
        simp only [Outcome.bind_ok]
        rw [if_neg (by decide), Prog.runSlice_bind, readPrec, Prog.runSlice_bind]
        have := Prog.runSlice_readU8 prec.normal h2 []
        rw [List.append_nil] at this
        rw [this]
        simp only [Outcome.bind_ok]
        rw [if_pos h1]
        rfl
      rw [hh]
      rfl
    have ha : assembleMesh fo fb b ⟨true⟩ enc = .err (.invalidPrecision prec.normal) := by
      unfold assembleMesh
      have e1 : (EncodedSegment.decode fo fb b ⟨true⟩ ⟨.vertexTriangle, .none, [2] ++ leBytes 8 3 ++ leBytes 8 0 ++ [0x18]⟩) =
          .ok (.triVertex [0, 1, 2]) := by cases b <;> rfl
      have e2 : (EncodedSegment.decode fo fb b ⟨true⟩ ⟨.normal, .none, leBytes 8 0 ++ leBytes 1 prec.normal⟩) =
          .err (.invalidPrecision prec.normal) := by
        simp only [EncodedSegment.decode, hd, Outcome.bind_err]
      simp only [enc, List.map_cons, List.map_nil, e1, e2]
      rfl
    have hmap : (enc.map rawOf).map encodedOf = enc := rfl
    simp only [Outcome.mapAll, rawMesh, hmap]
    have : (ctxOf (layoutOf 2)).decode = ⟨true⟩ := rfl
    rw [this, ha]
    rfl

end Tmf.Props
