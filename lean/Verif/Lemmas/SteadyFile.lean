import Verif.Lemmas.Steady
import Verif.Lemmas.DamageFile
import Verif.Lemmas.Layout
/-
Lemmas for C100: damaged segments in meshes and files.
-/

namespace Tmf
open Spec DecodedSegment

theorem joinOnto_length {α : Type} {o o' : Option (List α)} {p p' : List (List α)}
    (h : o'.map List.length = o.map List.length) (hp : p'.map List.length = p.map List.length) :
    (joinOnto o' p').map List.length = (joinOnto o p).map List.length := by
  have hd : (o'.getD []).length = (o.getD []).length := by
    cases o <;> cases o' <;> simp_all
  cases p with
  | nil =>
    cases p' with
    | nil => exact h
    | cons => simp at hp
  | cons a p =>
    cases p' with
    | nil => simp at hp
    | cons a' p' =>
      simp only [joinOnto, Option.map_some, List.length_append, List.length_flatten, hd, hp]

theorem SameOutline.apply {F : Type} {m m' : Mesh F} (h : SameOutline m m') {d d' : DecodedSegment F} (hd : SameForm d d') :
    SameOutline (d.apply m) (d'.apply m') := by
  rw [apply_eq, apply_eq]
  have same : ∀ {α : Type} {l l' : List α}, l'.length = l.length → [l'].map List.length = [l].map List.length := by
    intro α l l' h
    rw [List.map_singleton, List.map_singleton, h]
  constructor
  · refine joinOnto_length h.vertices ?_
    cases hd <;> first | rfl | exact same (by assumption)
  · refine joinOnto_length h.normals ?_
    cases hd <;> first | rfl | exact same (by assumption)
  · refine joinOnto_length h.uvs ?_
    cases hd <;> first | rfl | exact same (by assumption)
  · refine joinOnto_length h.tangents ?_
    cases hd <;> first | rfl | exact same (by assumption)
  · refine joinOnto_length h.vertexTriangles ?_
    cases hd <;> first | rfl | exact same (by assumption) | skip
    simp only [pVertexTriangles]
    split
    · exact same (by assumption)
    · rfl
  · refine joinOnto_length h.normalTriangles ?_
    cases hd <;> first | rfl | exact same (by assumption) | skip
    simp only [pNormalTriangles]
    split
    · exact same (by assumption)
    · rfl
  · refine joinOnto_length h.uvTriangles ?_
    cases hd <;> first | rfl | exact same (by assumption) | skip
    simp only [pUvTriangles]
    split
    · exact same (by assumption)
    · rfl
  · refine joinOnto_length h.tangentTriangles ?_
    cases hd <;> first | rfl | exact same (by assumption)
  · refine List.rel_append h.customData ?_
    cases hd <;> first | exact .nil | exact .cons (by assumption) .nil

theorem SameOutline.foldl {F : Type} {ds ds' : List (DecodedSegment F)} (h : List.Forall₂ SameForm ds ds') :
    ∀ {m m' : Mesh F}, SameOutline m m' →
      SameOutline (ds.foldl DecodedSegment.apply m) (ds'.foldl DecodedSegment.apply m') := by
  induction h with
  | nil => exact fun h => h
  | cons hd _ ih => exact fun h => ih (h.apply hd)

theorem SameOutline.empty {F : Type} : SameOutline (Mesh.empty : Mesh F) .empty :=
  ⟨rfl, rfl, rfl, rfl, rfl, rfl, rfl, rfl, .nil⟩

variable {fo : FloatOps} {fb : F64Bytes fo} {b : Build}

/-- If every element of a list maps to something and the elements of another do so too, in step. -/
theorem mapAll_forall₂_step {ε α β : Type} {f : α → Outcome ε β} {R : α → α → Prop} {Q : β → β → Prop} {l l' : List α}
    (h : List.Forall₂ R l l') (hs : ∀ a a' y, a ∈ l → R a a' → f a = .ok y → ∃ y', f a' = .ok y' ∧ Q y y') :
    ∀ {ys : List β}, Outcome.mapAll f l = .ok ys → ∃ ys', Outcome.mapAll f l' = .ok ys' ∧ List.Forall₂ Q ys ys' := by
  induction h with
  | nil =>
    intro ys e
    cases e
    exact ⟨[], rfl, .nil⟩
  | @cons a a' l l' hr _ ih =>
    intro ys e
    simp only [Outcome.mapAll, Outcome.bind_eq_ok] at e
    obtain ⟨y, e1, ys, e2, e3⟩ := e
    cases e3
    obtain ⟨y', e4, hq⟩ := hs a a' y List.mem_cons_self hr e1
    obtain ⟨ys', e5, hqs⟩ := ih (fun a a' y ha => hs a a' y (List.mem_cons_of_mem _ ha)) e2
    refine ⟨y' :: ys', ?_, .cons hq hqs⟩
    rw [Outcome.mapAll, e4, Outcome.bind_ok, e5]
    rfl

theorem assembleMesh_steady {ctx : DecodeCtx} {segs segs' : List RawSeg} (h : List.Forall₂ (DamagedSeg ctx) segs segs')
    (hw : b = .checked → ∀ s ∈ segs, IndexRoom ctx (SectionType.fromU16 s.kind) s.data) {m : Mesh fo.F}
    (e : assembleMesh fo fb b ctx (segs.map encodedOf) = .ok m) :
    ∃ m', assembleMesh fo fb b ctx (segs'.map encodedOf) = .ok m' ∧ SameOutline m m' := by
  have hm := assembleMesh_ok_mem fo fb b e
  have np : ∀ x ∈ (segs.map encodedOf).map (EncodedSegment.decode fo fb b ctx), x ≠ .panic := by
    intro x hx hp
    obtain ⟨s, hs, rfl⟩ := List.mem_map.mp hx
    obtain ⟨v, hv⟩ := hm s hs
    rw [hv] at hp
    cases hp
  unfold assembleMesh at e ⊢
  rw [collect_of_no_panic np, mapAll_map, mapAll_map, Outcome.bind_eq_ok] at e
  obtain ⟨ds, e1, e2⟩ := e
  cases e2
  obtain ⟨ds', e3, hf⟩ := mapAll_forall₂_step (Q := SameForm) h (fun s s' y hs hd he => by
    obtain ⟨k, c, data⟩ := s
    obtain ⟨k', c', data'⟩ := s'
    obtain ⟨rfl, rfl, h3, h4⟩ := hd
    exact decode_steady (seg := encodedOf ⟨k', c', data⟩) he (fun hb => hw hb _ hs) h3 h4) e1
  have np' : ∀ x ∈ (segs'.map encodedOf).map (EncodedSegment.decode fo fb b ctx), x ≠ .panic := by
    intro x hx hp
    rw [List.map_map] at hx
    obtain ⟨s, hs, rfl⟩ := List.mem_map.mp hx
    obtain ⟨v, _, hv⟩ := forall₂_mem (mapAll_forall₂ e3) s hs
    have hv' : (EncodedSegment.decode fo fb b ctx ∘ encodedOf) s = .ok v := hv
    rw [hv'] at hp
    cases hp
  rw [collect_of_no_panic np', mapAll_map, mapAll_map]
  refine ⟨_, ?_, SameOutline.foldl hf .empty⟩
  have e3' : Outcome.mapAll (fun s => id (EncodedSegment.decode fo fb b ctx (encodedOf s))) segs' = .ok ds' := e3
  rw [e3']
  rfl

/-! ### What the writer stores -/

section
variable {prec : PrecisionInfo fo.F} {edge : fo.F}

theorem saveTriangles_room {l : List Nat} {m : Nat} (hm : m < 2 ^ 63) (hi : ∀ i ∈ l, i < 2 ^ 32)
    {d : List UInt8} (hd : saveTriangles b l m = .ok d) (start : List UInt8) :
    storedMin ⟨true⟩ start.length (start ++ d) + 2 ^ byteAt (start ++ d) start.length ≤ 2 ^ 64 := by
  obtain ⟨payload, e, _⟩ := saveTriangles_ok b l (m := m) (lt_trans hm (by decide))
  rw [e] at hd
  cases hd
  have hmin : minIndex l < 2 ^ 32 := minIndex_lt (by positivity) hi
  have hp : calcPrec m ≤ 63 := calcPrec_le (lt_trans hm (by decide)) hm
  have hpow : 2 ^ calcPrec m ≤ 2 ^ 63 := Nat.pow_le_pow_right (by omega) hp
  have h1 : byteAt (start ++ (leBytes 1 (calcPrec m) ++ leBytes 8 l.length ++ leBytes 8 (minIndex l) ++ payload)) start.length =
      calcPrec m := by
    have := byteAt_append_right (l := start)
      (r := leBytes 1 (calcPrec m) ++ leBytes 8 l.length ++ leBytes 8 (minIndex l) ++ payload) 0
    rw [Nat.add_zero] at this
    rw [this, List.append_assoc, List.append_assoc, byteAt_leBytes (by omega)]
  have h2 : storedMin ⟨true⟩ start.length
      (start ++ (leBytes 1 (calcPrec m) ++ leBytes 8 l.length ++ leBytes 8 (minIndex l) ++ payload)) = minIndex l := by
    unfold storedMin
    rw [if_pos rfl, ← List.drop_drop, List.drop_left' rfl, List.append_assoc,
      List.drop_left' (by simp [length_leBytes]), List.take_left' (length_leBytes _ _), leNat_leBytes_of_lt (lt_trans hmin (by norm_num))]
  rw [h1, h2]
  omega

theorem encode_room {s : DecodedSegment fo.F} (hs : SegFits prec s) {e : EncodedSegment}
    (h : s.encode fo fb b prec edge = .ok e) : IndexRoom ⟨true⟩ e.segType e.data := by
  have tri : ∀ {l : List Nat}, (l.length ≤ 2 ^ 31 ∧ ∀ i ∈ l, i < 2 ^ 31) → ∀ {d : List UInt8} (start : List UInt8),
      saveTriangles b l (maxIndex l) = .ok d →
      storedMin ⟨true⟩ start.length (start ++ d) + 2 ^ byteAt (start ++ d) start.length ≤ 2 ^ 64 := by
    intro l hl d start hd
    exact saveTriangles_room (lt_trans (maxIndex_lt (n := 2 ^ 31) (by positivity) hl.2) (by decide))
      (fun i hi => lt_trans (hl.2 i hi) (by decide)) hd start
  cases s with
  | nothing => cases h; trivial
  | vertex l => rw [encode, Outcome.bind_eq_ok] at h; obtain ⟨d, _, h⟩ := h; cases h; trivial
  | normal l => rw [encode, Outcome.bind_eq_ok] at h; obtain ⟨d, _, h⟩ := h; cases h; trivial
  | uv l => rw [encode, Outcome.bind_eq_ok] at h; obtain ⟨d, _, h⟩ := h; cases h; trivial
  | tangent l => rw [encode, Outcome.bind_eq_ok] at h; obtain ⟨d, _, h⟩ := h; cases h; trivial
  | triVertex l => rw [encode, Outcome.bind_eq_ok] at h; obtain ⟨d, hd, h⟩ := h; cases h; exact tri hs [] hd
  | triNormal l => rw [encode, Outcome.bind_eq_ok] at h; obtain ⟨d, hd, h⟩ := h; cases h; exact tri hs [] hd
  | triUv l => rw [encode, Outcome.bind_eq_ok] at h; obtain ⟨d, hd, h⟩ := h; cases h; exact tri hs [] hd
  | triTangent l => rw [encode, Outcome.bind_eq_ok] at h; obtain ⟨d, hd, h⟩ := h; cases h; exact tri hs [] hd
  | shared mask l =>
    rw [encode, Outcome.bind_eq_ok] at h
    obtain ⟨d, hd, h⟩ := h
    cases h
    exact tri hs.2 (leBytes 1 mask) hd
  | custom c =>
    rw [encode, Outcome.bind_eq_ok] at h
    obtain ⟨d, hd, h⟩ := h
    cases h
    rw [CustomSeg.encode, Outcome.bind_eq_ok] at hd
    obtain ⟨data, hdata, hd⟩ := hd
    cases hd
    have named : ∀ (name : List UInt8) (l : List Nat) (m : Nat), name.length < 256 → (∀ i ∈ l, i ≤ m ∧ i < 2 ^ 32) →
        (m < 2 ^ 31 ∨ 2 ^ 32 ≤ m ∧ m < 2 ^ 63) → saveTriangles b l m = .ok data →
        storedMin ⟨true⟩ (1 + byteAt (leBytes 1 name.length ++ name ++ data) 0) (leBytes 1 name.length ++ name ++ data) +
          2 ^ byteAt (leBytes 1 name.length ++ name ++ data) (1 + byteAt (leBytes 1 name.length ++ name ++ data) 0) ≤ 2 ^ 64 := by
      intro name l m hn hi hm hs
      have h0 : byteAt (leBytes 1 name.length ++ name ++ data) 0 = name.length := by
        rw [List.append_assoc, byteAt_leBytes hn]
      have hl : (leBytes 1 name.length ++ name).length = 1 + name.length := by rw [List.length_append, length_leBytes]
      rw [h0, ← hl]
      exact saveTriangles_room (by omega) (fun i h => (hi i h).2) hs _
    cases hs with
    | index name l m hn hl hi hm => exact named name l m hn hi hm hdata
    | integer name l m hn hl hi hm => exact named name l m hn hi hm hdata
    | float name l p hn hl => trivial
    | color name l p hn hl => trivial

theorem encodeMesh_room {m : Mesh fo.F} {segs : List EncodedSegment} (hm : MeshFits prec m)
    (h : encodeMesh fo fb b prec m = .ok segs) : ∀ e ∈ segs, IndexRoom ⟨true⟩ e.segType e.data := by
  rw [encodeMesh, Outcome.bind_eq_ok] at h
  obtain ⟨edge, he, h⟩ := h
  rw [mergeSegments_eq] at h
  simp only [Outcome.bind_ok, Outcome.bind_eq_ok] at h
  obtain ⟨pieces, hp, hs⟩ := h
  intro e hin
  obtain ⟨p, hp', henc⟩ := mapAll_ok_mem' hs e hin
  obtain ⟨ps, hps, hpp⟩ := List.mem_flatten.mp hp'
  obtain ⟨s, hs, eo⟩ := mapAll_ok_mem' hp ps hps
  exact encode_room ((optimize_pieces (edge := edge) (mergedSegs_fits hm s hs) eo).fits p hpp) henc

end

end Tmf
