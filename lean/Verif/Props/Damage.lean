import Verif.Lemmas.Damage
import Verif.Lemmas.DamageFile
import Verif.Lemmas.Loading
/-
C99: damage to the packed data of one array stays where it is.
-/

namespace Tmf.Props
open Tmf Spec

variable {fo : FloatOps} {fb : F64Bytes fo} {b : Build} {ctx : DecodeCtx}

/-- **C99 (partial).** If a segment decodes and bytes behind its head are changed, it still decodes,
to as many elements, and every element none of whose bytes was changed is the same; or, with overflow
checks, an index leaves the range of 64 bits and decoding panics. Missing: the width 32, and 64 and
above, where the statement is false (`C99_width_violated`). -/
theorem C99_segment_partial {seg : EncodedSegment} {d : DecodedSegment fo.F} (e : seg.decode fo fb b ctx = .ok d)
    (hw : GoodWidths seg.segType seg.data) {data' : List UInt8} (hlen : data'.length = seg.data.length)
    (hh : data'.take (bodyStart ctx seg.segType seg.data) = seg.data.take (bodyStart ctx seg.segType seg.data)) :
    (b = .checked ∧ EncodedSegment.decode fo fb b ctx { seg with data := data' } = .panic) ∨
    ∃ d', EncodedSegment.decode fo fb b ctx { seg with data := data' } = .ok d' ∧ d'.elements = d.elements ∧
      ∀ i, Untouched (bodyStart ctx seg.segType seg.data) (elementBits seg.segType seg.data) i seg.data data' →
        d'.pick i = d.pick i := by
  obtain ⟨t, c, data⟩ := seg
  dsimp only at *
  have index : ∀ (mk : List Nat → DecodedSegment fo.F), (∀ l l', l'.length = l.length → (mk l').elements = (mk l).elements) →
      (∀ i l l', l'[i]? = l[i]? → (mk l').pick i = (mk l).pick i) → GoodWidth (byteAt data 0) →
      data'.take (9 + if ctx.readMin then 8 else 0) = data.take (9 + if ctx.readMin then 8 else 0) →
      (do let l ← decodeIndices b ctx ⟨t, c, data⟩; .ok (mk l)) = .ok d →
      (b = .checked ∧ (do let l ← decodeIndices b ctx ⟨t, c, data'⟩; .ok (mk l)) = .panic) ∨
      ∃ d', (do let l ← decodeIndices b ctx ⟨t, c, data'⟩; .ok (mk l)) = .ok d' ∧ d'.elements = d.elements ∧
        ∀ i, Untouched (9 + if ctx.readMin then 8 else 0) (byteAt data 0) i data data' → d'.pick i = d.pick i := by
    clear e hh hw
    intro mk he hp hw hh e
    rw [Outcome.bind_eq_ok] at e
    obtain ⟨l, e, e1⟩ := e
    cases e1
    cases c with
    | none =>
      rcases readDefaultTriangles_damage hlen hh hw e with ⟨hb, e'⟩ | ⟨l', e', hl, hs⟩
      · exact Or.inl ⟨hb, by simp only [decodeIndices]; rw [e']; rfl⟩
      · exact Or.inr ⟨mk l', by simp only [decodeIndices]; rw [e']; rfl, he _ _ hl, fun i hi => hp _ _ _ (hs i hi)⟩
    | _ => cases e
  cases t with
  | invalid =>
    cases e
    exact Or.inr ⟨_, rfl, rfl, fun i _ => rfl⟩
  | vertex =>
    simp only [EncodedSegment.decode, Outcome.bind_eq_ok] at e
    obtain ⟨l, e, e1⟩ := e
    cases e1
    obtain ⟨l', e', hl, hs⟩ := readVertices_damage hlen hh e
    exact Or.inr ⟨.vertex l', by simp only [EncodedSegment.decode]; rw [e']; rfl, hl,
      fun i hi => by simp only [DecodedSegment.pick]; rw [hs i hi]⟩
  | normal =>
    simp only [EncodedSegment.decode, Outcome.bind_eq_ok] at e
    obtain ⟨l, e, e1⟩ := e
    cases e1
    obtain ⟨l', e', hl, hs⟩ := readNormals_damage hlen hh hw e
    exact Or.inr ⟨.normal l', by simp only [EncodedSegment.decode]; rw [e']; rfl, hl,
      fun i hi => by simp only [DecodedSegment.pick]; rw [hs i hi]⟩
  | uv =>
    simp only [EncodedSegment.decode, Outcome.bind_eq_ok] at e
    obtain ⟨l, e, e1⟩ := e
    cases e1
    obtain ⟨l', e', hl, hs⟩ := readUvs_damage hlen hh hw e
    exact Or.inr ⟨.uv l', by simp only [EncodedSegment.decode]; rw [e']; rfl, hl,
      fun i hi => by simp only [DecodedSegment.pick]; rw [hs i hi]⟩
  | tangent =>
    simp only [EncodedSegment.decode, Outcome.bind_eq_ok] at e
    obtain ⟨l, e, e1⟩ := e
    cases e1
    obtain ⟨l', e', hl, hs⟩ := readTangents_damage hlen hh e
    exact Or.inr ⟨.tangent l', by simp only [EncodedSegment.decode]; rw [e']; rfl, hl,
      fun i hi => by simp only [DecodedSegment.pick]; rw [hs i hi]⟩
  | vertexTriangle =>
    exact index .triVertex (fun _ _ h => h) (fun i l l' h => by simp only [DecodedSegment.pick]; rw [h]) hw hh e
  | normalTriangle =>
    exact index .triNormal (fun _ _ h => h) (fun i l l' h => by simp only [DecodedSegment.pick]; rw [h]) hw hh e
  | uvTriangle =>
    exact index .triUv (fun _ _ h => h) (fun i l l' h => by simp only [DecodedSegment.pick]; rw [h]) hw hh e
  | tangentTriangle =>
    exact index .triTangent (fun _ _ h => h) (fun i l l' h => by simp only [DecodedSegment.pick]; rw [h]) hw hh e
  | sharedTriangle =>
    simp only [EncodedSegment.decode, decodeShared] at e ⊢
    cases data with
    | nil => cases e
    | cons mask rest =>
      cases data' with
      | nil => cases hlen
      | cons mask' rest' =>
        simp only [bodyStart] at hh ⊢
        rw [Nat.add_comm 1, List.take_succ_cons, List.take_succ_cons] at hh
        obtain ⟨rfl, hh'⟩ := List.cons.inj hh
        cases c with
        | none =>
          dsimp only at e ⊢
          rw [Outcome.bind_eq_ok] at e
          obtain ⟨l, e, e1⟩ := e
          cases e1
          have hw' : GoodWidth (byteAt rest 0) := hw
          rcases readDefaultTriangles_damage (by simpa using hlen) hh' hw' e with ⟨hb, e'⟩ | ⟨l', e', hs⟩
          · exact Or.inl ⟨hb, by rw [e']; rfl⟩
          · have hs' := SameUntouched.ofDrop (s := 1) (data := mask' :: rest) (data' := mask' :: rest') hs
            exact Or.inr ⟨.shared mask'.toNat l', by rw [e']; rfl, hs.1, fun i hi => by simp only [DecodedSegment.pick]; rw [hs'.2 i hi]⟩
        | _ => cases e
  | customIndex =>
    simp only [EncodedSegment.decode, CustomSeg.read, Outcome.bind_eq_ok] at e
    obtain ⟨s, ⟨⟨name, rest⟩, en, l, e, e1⟩, e2⟩ := e
    cases e1
    cases e2
    obtain ⟨h1, h2⟩ := take_drop_same hh
    obtain ⟨rfl, en'⟩ := customName_damage en h1
    have hw' : GoodWidth (byteAt (data.drop (1 + byteAt data 0)) 0) := by rw [← customName_inv en 0]; exact hw
    rcases readTriangles_damage (by rw [List.length_drop, List.length_drop, hlen]) h2 hw' e with ⟨hb, e'⟩ | ⟨l', e', hs⟩
    · exact Or.inl ⟨hb, by simp only [EncodedSegment.decode, CustomSeg.read]; rw [en', Outcome.bind_ok]; dsimp only; rw [e']; rfl⟩
    · have hs' := hs.ofDrop
      rw [← customName_inv en 0] at hs'
      exact Or.inr ⟨.custom ⟨name, .index l' (maxIndex l')⟩, by simp only [EncodedSegment.decode, CustomSeg.read]; rw [en', Outcome.bind_ok]; dsimp only; rw [e']; rfl,
        hs.1, fun i hi => by simp only [DecodedSegment.pick]; rw [hs'.2 i hi]⟩
  | customInteger =>
    simp only [EncodedSegment.decode, CustomSeg.read, Outcome.bind_eq_ok] at e
    obtain ⟨s, ⟨⟨name, rest⟩, en, l, e, e1⟩, e2⟩ := e
    cases e1
    cases e2
    obtain ⟨h1, h2⟩ := take_drop_same hh
    obtain ⟨rfl, en'⟩ := customName_damage en h1
    have hw' : GoodWidth (byteAt (data.drop (1 + byteAt data 0)) 0) := by rw [← customName_inv en 0]; exact hw
    rcases readTriangles_damage (by rw [List.length_drop, List.length_drop, hlen]) h2 hw' e with ⟨hb, e'⟩ | ⟨l', e', hs⟩
    · exact Or.inl ⟨hb, by simp only [EncodedSegment.decode, CustomSeg.read]; rw [en', Outcome.bind_ok]; dsimp only; rw [e']; rfl⟩
    · have hs' := hs.ofDrop
      rw [← customName_inv en 0] at hs'
      exact Or.inr ⟨.custom ⟨name, .integer l' (maxIndex l')⟩, by simp only [EncodedSegment.decode, CustomSeg.read]; rw [en', Outcome.bind_ok]; dsimp only; rw [e']; rfl,
        hs.1, fun i hi => by simp only [DecodedSegment.pick]; rw [hs'.2 i hi]⟩
  | customFloat =>
    simp only [EncodedSegment.decode, CustomSeg.read, Outcome.bind_eq_ok] at e
    obtain ⟨s, ⟨⟨name, rest⟩, en, dd, e, e1⟩, e2⟩ := e
    cases e1
    cases e2
    obtain ⟨h1, h2⟩ := take_drop_same hh
    obtain ⟨rfl, en'⟩ := customName_damage en h1
    obtain ⟨l, l', p, rfl, e', hs⟩ := readFloats_damage (by rw [List.length_drop, List.length_drop, hlen]) h2 e
    have hs' := hs.ofDrop
    rw [← customName_inv en 24] at hs'
    exact Or.inr ⟨.custom ⟨name, .float l' p⟩, by simp only [EncodedSegment.decode, CustomSeg.read]; rw [en', Outcome.bind_ok]; dsimp only; rw [e']; rfl,
      hs.1, fun i hi => by simp only [DecodedSegment.pick]; rw [hs'.2 i hi]⟩
  | customColor =>
    simp only [EncodedSegment.decode, CustomSeg.read, Outcome.bind_eq_ok] at e
    obtain ⟨s, ⟨⟨name, rest⟩, en, dd, e, e1⟩, e2⟩ := e
    cases e1
    cases e2
    obtain ⟨h1, h2⟩ := take_drop_same hh
    obtain ⟨rfl, en'⟩ := customName_damage en h1
    have hw' : GoodWidth (byteAt (data.drop (1 + byteAt data 0)) 8) := by rw [← customName_inv en 8]; exact hw
    obtain ⟨l, l', p, rfl, e', hs⟩ := readColors_damage (by rw [List.length_drop, List.length_drop, hlen]) h2 hw' e
    have hs' := hs.ofDrop
    rw [← customName_inv en 8] at hs'
    exact Or.inr ⟨.custom ⟨name, .color l' p⟩, by simp only [EncodedSegment.decode, CustomSeg.read]; rw [en', Outcome.bind_ok]; dsimp only; rw [e']; rfl,
      hs.1, fun i hi => by simp only [DecodedSegment.pick]; rw [hs'.2 i hi]⟩

/-- Three one-byte indices. -/
def threeBytes (x y z : UInt8) : List UInt8 := leBytes 1 8 ++ leBytes 8 3 ++ leBytes 8 100 ++ [x, y, z]

/-- The middle one of three indices is damaged; the other two are as before. -/
example : (EncodedSegment.decode fo fb b ⟨true⟩ ⟨.vertexTriangle, .none, threeBytes 1 2 3⟩ =
      .ok (.triVertex [101, 102, 103])) ∧
    GoodWidths .vertexTriangle (threeBytes 1 2 3) ∧
    (threeBytes 1 77 3).take (bodyStart ⟨true⟩ .vertexTriangle (threeBytes 1 2 3)) =
      (threeBytes 1 2 3).take (bodyStart ⟨true⟩ .vertexTriangle (threeBytes 1 2 3)) ∧
    Untouched (bodyStart ⟨true⟩ .vertexTriangle (threeBytes 1 2 3)) (elementBits .vertexTriangle (threeBytes 1 2 3)) 2
      (threeBytes 1 2 3) (threeBytes 1 77 3) ∧
    (EncodedSegment.decode fo fb b ⟨true⟩ ⟨.vertexTriangle, .none, threeBytes 1 77 3⟩ =
      .ok (.triVertex [101, 177, 103])) := by
  refine ⟨?_, ⟨by decide, by decide⟩, rfl, ?_, ?_⟩
  · cases b <;> rfl
  · intro j h1 h2
    have e1 : elementBits .vertexTriangle (threeBytes 1 2 3) = 8 := rfl
    have e2 : bodyStart ⟨true⟩ .vertexTriangle (threeBytes 1 2 3) = 17 := rfl
    rw [e1] at h1 h2
    rw [e2]
    have : j = 2 := by omega
    subst this
    rfl
  · cases b <;> rfl

/-- Three indices of 32 bits. -/
def threeWords (x : UInt8) : List UInt8 :=
  leBytes 1 32 ++ leBytes 8 3 ++ leBytes 8 0 ++ [0, 0, 0, x, 0, 0, 0, 2, 0, 0, 0, 3]

/-- **C99, negation.** At a width of 32 bits damage to the first of three indices changes the third:
the first two are not read at all. -/
theorem C99_width_violated : ∃ (data data' : List UInt8) (d d' : DecodedSegment fo.F),
    EncodedSegment.decode fo fb b ⟨true⟩ ⟨.vertexTriangle, .none, data⟩ = .ok d ∧
    data'.length = data.length ∧
    data'.take (bodyStart ⟨true⟩ .vertexTriangle data) = data.take (bodyStart ⟨true⟩ .vertexTriangle data) ∧
    Untouched (bodyStart ⟨true⟩ .vertexTriangle data) (elementBits .vertexTriangle data) 2 data data' ∧
    EncodedSegment.decode fo fb b ⟨true⟩ ⟨.vertexTriangle, .none, data'⟩ = .ok d' ∧
    d'.pick 2 ≠ d.pick 2 := by
  refine ⟨threeWords 1, threeWords 9, .triVertex [0, 0, 1], .triVertex [0, 0, 9], ?_, rfl, rfl, ?_, ?_, ?_⟩
  · cases b <;> rfl
  · intro j h1 h2
    have e1 : elementBits .vertexTriangle (threeWords 1) = 32 := rfl
    have e2 : bodyStart ⟨true⟩ .vertexTriangle (threeWords 1) = 17 := rfl
    rw [e1] at h1 h2
    rw [e2]
    have : j = 8 ∨ j = 9 ∨ j = 10 ∨ j = 11 := by omega
    rcases this with rfl | rfl | rfl | rfl <;> rfl
  · cases b <;> rfl
  · intro h
    simp [DecodedSegment.pick] at h

/-- One index above a minimum close to the top of 64 bits. -/
def topIndex (x : UInt8) : List UInt8 := leBytes 1 8 ++ leBytes 8 1 ++ leBytes 8 (2 ^ 64 - 2) ++ [x]

/-- **C99, negation.** With overflow checks a damaged index can make decoding panic, although the
undamaged one decodes. -/
theorem C99_panic_violated :
    EncodedSegment.decode fo fb .checked ⟨true⟩ ⟨.vertexTriangle, .none, topIndex 1⟩ = .ok (.triVertex [2 ^ 32 - 1]) ∧
    EncodedSegment.decode fo fb .checked ⟨true⟩ ⟨.vertexTriangle, .none, topIndex 2⟩ = .panic :=
  ⟨rfl, rfl⟩

/-! ### Whole files -/

/-- The segment of the reader that a damaged payload makes. -/
def damagedSegment (s : RawSeg) (data' : List UInt8) : EncodedSegment :=
  encodedOf ⟨s.kind, s.comp, data'⟩

/-- **C99.** If a file loads and the payload of one segment is overwritten, then loading fails with
the error of that segment (or panics because decoding it does), or it succeeds: the same number of
meshes, every other mesh and every name unchanged, and in the mesh of that segment only the arrays
its type feeds may differ. -/
theorem C99_file {minMinor : Nat} (h2 : minMinor ≤ 2) {before after : List RawMesh} {name : List UInt8}
    {segs₁ segs₂ : List RawSeg} {s : RawSeg} {data' : List UInt8} (hlen : data'.length = s.data.length)
    (h : ∀ m ∈ before ++ ⟨name, segs₁ ++ s :: segs₂⟩ :: after, RawMesh.Framed (layoutOf minMinor) m)
    (hn : (before ++ ⟨name, segs₁ ++ s :: segs₂⟩ :: after).length < 2 ^ 32) (junk : List UInt8) (sched sched' : List Nat)
    {l : List (Mesh fo.F × List UInt8)}
    (e : readTmf fo fb b ⟨fileBytes minMinor (before ++ ⟨name, segs₁ ++ s :: segs₂⟩ :: after) ++ junk, sched, false⟩ = .ok l) :
    let load := readTmf fo fb b
      ⟨fileBytes minMinor (before ++ ⟨name, segs₁ ++ { s with data := data' } :: segs₂⟩ :: after) ++ junk, sched', false⟩
    let decoded := (damagedSegment s data').decode fo fb b (ctxOf (layoutOf minMinor)).decode
    (decoded = .panic ∧ load = .panic) ∨ (∃ x, decoded = .err x ∧ load = .err x) ∨
    ∃ l' m m', load = .ok l' ∧ l'.length = l.length ∧ (∀ i, i ≠ before.length → l'[i]? = l[i]?) ∧
      l[before.length]? = some (m, name) ∧ l'[before.length]? = some (m', name) ∧
      SameElsewhere (SectionType.fromU16 s.kind) m m' := by
  intro load decoded
  have hf := h ⟨name, segs₁ ++ s :: segs₂⟩ (by simp)
  have h' : ∀ m ∈ before ++ ⟨name, segs₁ ++ { s with data := data' } :: segs₂⟩ :: after,
      RawMesh.Framed (layoutOf minMinor) m := by
    intro m hm
    rcases List.mem_append.mp hm with hm | hm
    · exact h m (by simp [hm])
    · rcases List.mem_cons.mp hm with rfl | hm
      · refine ⟨hf.name, by have := hf.count; simpa using this, fun t ht => ?_⟩
        rcases List.mem_append.mp ht with ht | ht
        · exact hf.segs t (by simp [ht])
        · rcases List.mem_cons.mp ht with rfl | ht
          · have := hf.segs s (by simp)
            exact ⟨this.kind, this.comp, hlen ▸ this.len⟩
          · exact hf.segs t (by simp [ht])
      · exact h m (by simp [hm])
  rw [readTmf_file fo fb b h2 h hn, mapAll_append] at e
  have el : load = _ := readTmf_file fo fb b h2 h' (by simpa using hn) junk sched'
  rw [mapAll_append] at el
  simp only [Outcome.mapAll, Outcome.bind_eq_ok] at e el
  obtain ⟨ms1, h1, r, ⟨v, hv, ms2, h3, e2⟩, e3⟩ := e
  cases e2
  cases e3
  rw [h1] at el
  have len1 : ms1.length = before.length := mapAll_count h1
  rw [rawMesh, Outcome.bind_eq_ok] at hv
  obtain ⟨m, hm, hv⟩ := hv
  cases hv
  rw [List.map_append, List.map_cons] at hm
  have em : rawMesh fo fb b (layoutOf minMinor) ⟨name, segs₁ ++ { s with data := data' } :: segs₂⟩ =
      (assembleMesh fo fb b (ctxOf (layoutOf minMinor)).decode
        (segs₁.map encodedOf ++ damagedSegment s data' :: segs₂.map encodedOf) >>= fun m => .ok (m, name)) := by
    rw [rawMesh, List.map_append, List.map_cons]
    rfl
  rw [em] at el
  rcases assembleMesh_damage fo fb b hm (seg' := damagedSegment s data') rfl with ⟨hd, ha⟩ | ⟨x, hd, ha⟩ | ⟨d', m', hd, ha, hs⟩
  · rw [ha] at el
    exact Or.inl ⟨hd, el⟩
  · rw [ha] at el
    exact Or.inr (Or.inl ⟨x, hd, el⟩)
  · rw [ha, h3] at el
    refine Or.inr (Or.inr ⟨ms1 ++ (m', name) :: ms2, m, m', el, by simp, fun i hi => ?_, ?_, ?_, hs⟩)
    · by_cases hlt : i < ms1.length
      · rw [List.getElem?_append_left hlt, List.getElem?_append_left hlt]
      · rw [List.getElem?_append_right (by omega), List.getElem?_append_right (by omega)]
        obtain ⟨k, hk⟩ : ∃ k, i - ms1.length = k + 1 := ⟨i - ms1.length - 1, by omega⟩
        rw [hk, List.getElem?_cons_succ, List.getElem?_cons_succ]
    · rw [← len1, List.getElem?_append_right (le_refl _), Nat.sub_self]
      rfl
    · rw [← len1, List.getElem?_append_right (le_refl _), Nat.sub_self]
      rfl

/-- The mesh of the example: two index arrays, the first with the given middle byte. -/
def twoArrays (y : UInt8) : RawMesh :=
  ⟨[97], [⟨2, 0, threeBytes 1 y 3⟩, ⟨4, 0, threeBytes 5 6 7⟩]⟩

theorem twoArrays_framed (y : UInt8) : RawMesh.Framed .new (twoArrays y) :=
  ⟨⟨by simp [twoArrays], ['a'], rfl⟩, by simp [twoArrays], by
    intro s hs
    simp only [twoArrays, List.mem_cons, List.not_mem_nil, or_false] at hs
    rcases hs with rfl | rfl
    · exact ⟨(by decide : 2 < 256), Or.inl rfl, by simp [threeBytes, length_leBytes]⟩
    · exact ⟨(by decide : 4 < 256), Or.inl rfl, by simp [threeBytes, length_leBytes]⟩⟩

theorem twoMeshes_load (junk : List UInt8) (y : UInt8) (sched : List Nat) :
    readTmf fo fb b ⟨fileBytes 2 ([twoArrays 2] ++ twoArrays y :: []) ++ junk, sched, false⟩ =
      Outcome.mapAll (rawMesh fo fb b .new) [twoArrays 2, twoArrays y] :=
  readTmf_file fo fb b (le_refl 2) (by
    intro m hm
    rcases List.mem_append.mp hm with hm | hm
    · rw [List.mem_singleton.mp hm]; exact twoArrays_framed 2
    · rw [List.mem_singleton.mp hm]; exact twoArrays_framed y) (by simp) junk sched

/-- Two meshes, one byte of the second damaged: its vertex triangles change in that place only. -/
example (junk : List UInt8) :
    readTmf fo fb b ⟨fileBytes 2 ([twoArrays 2] ++ twoArrays 2 :: []) ++ junk, [], false⟩ =
      .ok [({ (Mesh.empty : Mesh fo.F) with vertexTriangles := some [101, 102, 103], normalTriangles := some [105, 106, 107] }, [97]),
        ({ (Mesh.empty : Mesh fo.F) with vertexTriangles := some [101, 102, 103], normalTriangles := some [105, 106, 107] }, [97])] ∧
    readTmf fo fb b ⟨fileBytes 2 ([twoArrays 2] ++ twoArrays 77 :: []) ++ junk, [], false⟩ =
      .ok [({ (Mesh.empty : Mesh fo.F) with vertexTriangles := some [101, 102, 103], normalTriangles := some [105, 106, 107] }, [97]),
        ({ (Mesh.empty : Mesh fo.F) with vertexTriangles := some [101, 177, 103], normalTriangles := some [105, 106, 107] }, [97])] := by
  rw [twoMeshes_load, twoMeshes_load]
  constructor <;> cases b <;> rfl

end Tmf.Props
