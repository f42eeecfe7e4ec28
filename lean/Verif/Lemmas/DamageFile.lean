import Verif.Lemmas.Damage
import Verif.Lemmas.Apply
import Verif.Lemmas.Assemble
/-
Lemmas for C99: one damaged segment in a file.
-/

namespace Tmf
open Spec DecodedSegment

theorem SameElsewhere.refl {F : Type} (kind : SectionType) (m : Mesh F) : SameElsewhere kind m m :=
  ⟨fun _ => rfl, fun _ => rfl, fun _ => rfl, fun _ => rfl, fun _ => rfl, fun _ => rfl, fun _ => rfl, fun _ => rfl, fun _ => rfl⟩

theorem SameElsewhere.apply {F : Type} {kind : SectionType} {m m' : Mesh F} (h : SameElsewhere kind m m')
    {d d' : DecodedSegment F}
    (vertices : kind ≠ .vertex → d.pVertices = d'.pVertices)
    (normals : kind ≠ .normal → d.pNormals = d'.pNormals)
    (uvs : kind ≠ .uv → d.pUvs = d'.pUvs)
    (tangents : kind ≠ .tangent → d.pTangents = d'.pTangents)
    (vertexTriangles : kind ∉ [.vertexTriangle, .sharedTriangle] → d.pVertexTriangles = d'.pVertexTriangles)
    (normalTriangles : kind ∉ [.normalTriangle, .sharedTriangle] → d.pNormalTriangles = d'.pNormalTriangles)
    (uvTriangles : kind ∉ [.uvTriangle, .sharedTriangle] → d.pUvTriangles = d'.pUvTriangles)
    (tangentTriangles : kind ≠ .tangentTriangle → d.pTangentTriangles = d'.pTangentTriangles)
    (customData : kind ∉ [.customIndex, .customInteger, .customFloat, .customColor] → d.pCustom = d'.pCustom) :
    SameElsewhere kind (d.apply m) (d'.apply m') := by
  rw [apply_eq, apply_eq]
  constructor
  · intro hk; dsimp only; rw [h.vertices hk, vertices hk]
  · intro hk; dsimp only; rw [h.normals hk, normals hk]
  · intro hk; dsimp only; rw [h.uvs hk, uvs hk]
  · intro hk; dsimp only; rw [h.tangents hk, tangents hk]
  · intro hk; dsimp only; rw [h.vertexTriangles hk, vertexTriangles hk]
  · intro hk; dsimp only; rw [h.normalTriangles hk, normalTriangles hk]
  · intro hk; dsimp only; rw [h.uvTriangles hk, uvTriangles hk]
  · intro hk; dsimp only; rw [h.tangentTriangles hk, tangentTriangles hk]
  · intro hk; dsimp only; rw [h.customData hk, customData hk]

theorem SameElsewhere.foldl {F : Type} {kind : SectionType} : ∀ (ds : List (DecodedSegment F)) {m m' : Mesh F},
    SameElsewhere kind m m' → SameElsewhere kind (ds.foldl DecodedSegment.apply m) (ds.foldl DecodedSegment.apply m')
  | [], _, _, h => h
  | _ :: ds, _, _, h => SameElsewhere.foldl ds (h.apply (fun _ => rfl) (fun _ => rfl) (fun _ => rfl) (fun _ => rfl)
      (fun _ => rfl) (fun _ => rfl) (fun _ => rfl) (fun _ => rfl) (fun _ => rfl))

variable (fo : FloatOps) (fb : F64Bytes fo) (b : Build)

/-- What a segment of each type decodes to. -/
theorem decode_shape {ctx : DecodeCtx} {seg : EncodedSegment} {d : DecodedSegment fo.F} (e : seg.decode fo fb b ctx = .ok d) :
    match seg.segType with
    | .invalid => d = .nothing
    | .vertex => ∃ l, d = .vertex l
    | .normal => ∃ l, d = .normal l
    | .uv => ∃ l, d = .uv l
    | .tangent => ∃ l, d = .tangent l
    | .vertexTriangle => ∃ l, d = .triVertex l
    | .normalTriangle => ∃ l, d = .triNormal l
    | .uvTriangle => ∃ l, d = .triUv l
    | .tangentTriangle => ∃ l, d = .triTangent l
    | .sharedTriangle => ∃ mask l, d = .shared mask l
    | .customIndex | .customInteger | .customFloat | .customColor => ∃ s, d = .custom s := by
  obtain ⟨t, c, data⟩ := seg
  cases t with
  | invalid => cases e; rfl
  | sharedTriangle =>
    simp only [EncodedSegment.decode, decodeShared] at e
    cases data with
    | nil => cases e
    | cons mask rest =>
      cases c with
      | none =>
        dsimp only at e
        rw [Outcome.bind_eq_ok] at e
        obtain ⟨l, _, e1⟩ := e
        cases e1
        exact ⟨_, _, rfl⟩
      | _ => cases e
  | _ =>
    simp only [EncodedSegment.decode, Outcome.bind_eq_ok] at e
    obtain ⟨l, _, e1⟩ := e
    cases e1
    exact ⟨_, rfl⟩

theorem SameElsewhere.decoded {ctx : DecodeCtx} {seg seg' : EncodedSegment} {d d' : DecodedSegment fo.F}
    (e : seg.decode fo fb b ctx = .ok d) (e' : seg'.decode fo fb b ctx = .ok d') (ht : seg'.segType = seg.segType)
    (m : Mesh fo.F) : SameElsewhere seg.segType (d.apply m) (d'.apply m) := by
  have h := decode_shape fo fb b e
  have h' := decode_shape fo fb b e'
  rw [ht] at h'
  revert h h'
  cases seg.segType <;> intro h h' <;> (try obtain ⟨l, h⟩ := h) <;> (try obtain ⟨l', h'⟩ := h') <;>
    (try obtain ⟨l2, h⟩ := h) <;> (try obtain ⟨l2', h'⟩ := h') <;> (try subst h) <;> (try subst h') <;>
    refine (SameElsewhere.refl _ m).apply ?_ ?_ ?_ ?_ ?_ ?_ ?_ ?_ ?_ <;> intro hk <;>
    first | rfl | exact absurd rfl hk | exact absurd (by simp) hk

/-- The segments of a mesh that loads, one of them replaced. -/
theorem assembleMesh_damage {ctx : DecodeCtx} {l₁ l₂ : List EncodedSegment} {seg seg' : EncodedSegment} {m : Mesh fo.F}
    (e : assembleMesh fo fb b ctx (l₁ ++ seg :: l₂) = .ok m) (ht : seg'.segType = seg.segType) :
    (seg'.decode fo fb b ctx = .panic ∧ assembleMesh fo fb b ctx (l₁ ++ seg' :: l₂) = .panic) ∨
    (∃ x, seg'.decode fo fb b ctx = .err x ∧ assembleMesh fo fb b ctx (l₁ ++ seg' :: l₂) = .err x) ∨
    ∃ d' m', seg'.decode fo fb b ctx = .ok d' ∧ assembleMesh fo fb b ctx (l₁ ++ seg' :: l₂) = .ok m' ∧
      SameElsewhere seg.segType m m' := by
  have hm := assembleMesh_ok_mem fo fb b e
  cases hd : seg'.decode fo fb b ctx with
  | panic =>
    refine Or.inl ⟨rfl, ?_⟩
    unfold assembleMesh
    rw [collect_panic (List.mem_map.mpr ⟨seg', by simp, hd⟩)]
    rfl
  | err x =>
    refine Or.inr (Or.inl ⟨x, rfl, ?_⟩)
    refine assembleMesh_first_err fo fb b (fun s hs => hm s (by simp [hs])) hd fun s hs hp => ?_
    obtain ⟨v, hv⟩ := hm s (by simp [hs])
    rw [hv] at hp
    cases hp
  | ok d' =>
    refine Or.inr (Or.inr ⟨d', ?_⟩)
    have np : ∀ x ∈ (l₁ ++ seg :: l₂).map (EncodedSegment.decode fo fb b ctx), x ≠ .panic := by
      intro x hx hp
      obtain ⟨s, hs, rfl⟩ := List.mem_map.mp hx
      obtain ⟨v, hv⟩ := hm s hs
      rw [hv] at hp
      cases hp
    have np' : ∀ x ∈ (l₁ ++ seg' :: l₂).map (EncodedSegment.decode fo fb b ctx), x ≠ .panic := by
      intro x hx hp
      obtain ⟨s, hs, rfl⟩ := List.mem_map.mp hx
      rcases List.mem_append.mp hs with h | h
      · obtain ⟨v, hv⟩ := hm s (by simp [h])
        rw [hv] at hp
        cases hp
      · rcases List.mem_cons.mp h with rfl | h
        · rw [hd] at hp
          cases hp
        · obtain ⟨v, hv⟩ := hm s (by simp [h])
          rw [hv] at hp
          cases hp
    unfold assembleMesh at e ⊢
    rw [collect_of_no_panic np, mapAll_map, mapAll_append] at e
    rw [collect_of_no_panic np', mapAll_map, mapAll_append]
    simp only [id, Outcome.mapAll, Outcome.bind_eq_ok] at e
    obtain ⟨ds, ⟨d1, h1, dr, ⟨d, hd0, d2, h2, e2⟩, e3⟩, e4⟩ := e
    cases e2
    cases e3
    cases e4
    refine ⟨(d1 ++ d' :: d2).foldl DecodedSegment.apply .empty, rfl, ?_, ?_⟩
    · simp only [id, Outcome.mapAll]
      rw [h1, hd, h2]
      rfl
    · rw [List.foldl_append, List.foldl_append, List.foldl_cons, List.foldl_cons]
      exact SameElsewhere.foldl d2 (SameElsewhere.decoded fo fb b hd0 hd ht _)

theorem mapAll_count {ε α β : Type} {f : α → Outcome ε β} : ∀ {l : List α} {r : List β},
    Outcome.mapAll f l = .ok r → r.length = l.length
  | [], r, h => by cases h; rfl
  | a :: l, r, h => by
    simp only [Outcome.mapAll, Outcome.bind_eq_ok] at h
    obtain ⟨v, _, vs, hv, h⟩ := h
    cases h
    rw [List.length_cons, List.length_cons, mapAll_count hv]

end Tmf
