import Verif.Lemmas.RoundTrip
/-
Saving and loading whole files.
-/

namespace Tmf
open Spec DecodedSegment

/-! ### Lists of pieces -/

/-- The same array, possibly cut differently. -/
def SamePieces {α : Type} (p q : List (List α)) : Prop := p.flatten = q.flatten ∧ (p = [] ↔ q = [])

theorem SamePieces.joined {α : Type} {p q : List (List α)} (h : SamePieces p q) : joined p = joined q := by
  obtain ⟨h1, h2⟩ := h
  cases p with
  | nil => rw [h2.mp rfl]
  | cons a p =>
    cases q with
    | nil => exact absurd (h2.mpr rfl) (by simp)
    | cons b q => simp only [Spec.joined]; rw [h1]

theorem SamePieces.append {α : Type} {p q p' q' : List (List α)} (h : SamePieces p q) (h' : SamePieces p' q') :
    SamePieces (p ++ p') (q ++ q') := by
  refine ⟨by simp [h.1, h'.1], by simp [h.2, h'.2]⟩

theorem joined_toList {α : Type} (o : Option (List α)) : joined o.toList = o := by
  cases o <;> simp [joined]

theorem mapAll_forall₂ {ε α β : Type} {f : α → Outcome ε β} : ∀ {l : List α} {ps : List β},
    Outcome.mapAll f l = .ok ps → List.Forall₂ (fun a b => f a = .ok b) l ps := by
  intro l
  induction l with
  | nil => intro ps h; cases h; exact .nil
  | cons a l ih =>
    intro ps h
    simp only [Outcome.mapAll, Outcome.bind_eq_ok] at h
    obtain ⟨x, hx, xs, hxs, h⟩ := h
    cases h
    exact .cons hx (ih hxs)

theorem mapAll_ok_mem' {ε α β : Type} {f : α → Outcome ε β} {l : List α} {ps : List β}
    (h : Outcome.mapAll f l = .ok ps) : ∀ b ∈ ps, ∃ a ∈ l, f a = .ok b := by
  have := mapAll_forall₂ h
  clear h
  induction this with
  | nil => simp
  | cons h _ ih =>
    intro b hb
    rcases List.mem_cons.mp hb with rfl | hb
    · exact ⟨_, List.mem_cons_self, h⟩
    · obtain ⟨a, ha, e⟩ := ih b hb
      exact ⟨a, List.mem_cons_of_mem _ ha, e⟩

theorem samePieces_flatMap {S α : Type} {f g : S → List (List α)} {R : S → List S → Prop}
    (hR : ∀ s ps, R s ps → SamePieces (ps.flatMap g) (f s)) : ∀ {l : List S} {pieces : List (List S)},
    List.Forall₂ R l pieces → SamePieces (pieces.flatten.flatMap g) (l.flatMap f) := by
  intro l pieces h
  induction h with
  | nil => exact ⟨rfl, Iff.rfl⟩
  | cons h _ ih => simp only [List.flatten_cons, List.flatMap_append, List.flatMap_cons]; exact (hR _ _ h).append ih

/-! ### Splitting -/

section
variable {fo : FloatOps} {fb : F64Bytes fo} {prec : PrecisionInfo fo.F} {edge : fo.F} {b : Build}

theorem optVerticesFuel_flatten : ∀ {fuel : Nat} {l : List (Vec3 fo.F)} {ps : List (List (Vec3 fo.F))},
    optVerticesFuel fo b fuel l = .ok ps → ps.flatten = l ∧ ps ≠ [] := by
  intro fuel
  induction fuel with
  | zero => intro l ps h; simp [optVerticesFuel] at h
  | succ fuel ih =>
    intro l ps h
    simp only [optVerticesFuel, Outcome.bind_eq_ok] at h
    obtain ⟨sp, _, h⟩ := h
    cases sp with
    | none => cases h; simp
    | some i =>
      simp only [Outcome.bind_eq_ok] at h
      obtain ⟨r0, h0, r1, h1, h⟩ := h
      cases h
      obtain ⟨e0, n0⟩ := ih h0
      obtain ⟨e1, n1⟩ := ih h1
      exact ⟨by rw [List.flatten_append, e0, e1, List.take_append_drop], by simp [n0]⟩

/-- A split array in the file. -/
def loadedVertices (fo : FloatOps) (b : Build) (precision edge : fo.F) (l : List (Vec3 fo.F)) : List (Vec3 fo.F) :=
  match optVertices fo b l with
  | .ok ps => ps.flatMap (quantVertices fo precision edge)
  | _ => []

theorem optimize_tri {l : List Nat} {mk : List Nat → DecodedSegment fo.F} {ps : List (DecodedSegment fo.F)}
    (hl : l.length ≤ 2 ^ 31 ∧ ∀ i ∈ l, i < 2 ^ 31)
    (h : (optTris b l >>= fun ps => Outcome.ok (ps.map mk)) = .ok ps) :
    ∃ qs : List (List Nat), ps = qs.map mk ∧ qs.flatten = l ∧ qs ≠ [] ∧
      ∀ q ∈ qs, q.length ≤ 2 ^ 31 ∧ ∀ i ∈ q, i < 2 ^ 31 := by
  obtain ⟨qs, e, hc, hn, _⟩ := optTris_ok b l (fun i hi => lt_trans (hl.2 i hi) (by decide))
  rw [e] at h
  cases h
  refine ⟨qs, rfl, hc, hn, fun q hq => ⟨?_, fun i hi => hl.2 i ?_⟩⟩
  · exact le_trans (by rw [← hc]; exact (List.sublist_flatten_of_mem hq).length_le) hl.1
  · rw [← hc]; exact List.mem_flatten.mpr ⟨q, hq, hi⟩

theorem samePieces_cut {α : Type} {qs : List (List α)} (h : qs ≠ []) : SamePieces qs [qs.flatten] := by
  simp [SamePieces, h]

/-- What is known about the pieces of one segment. -/
structure PiecesOf (fo : FloatOps) (b : Build) (prec : PrecisionInfo fo.F) (edge : fo.F) (s : DecodedSegment fo.F)
    (ps : List (DecodedSegment fo.F)) : Prop where
  fits : ∀ p ∈ ps, SegFits prec p
  vertexTriangles : SamePieces (ps.flatMap (fun p => (p.loaded fo prec edge).pVertexTriangles)) s.pVertexTriangles
  normalTriangles : SamePieces (ps.flatMap (fun p => (p.loaded fo prec edge).pNormalTriangles)) s.pNormalTriangles
  uvTriangles : SamePieces (ps.flatMap (fun p => (p.loaded fo prec edge).pUvTriangles)) s.pUvTriangles
  tangentTriangles : SamePieces (ps.flatMap (fun p => (p.loaded fo prec edge).pTangentTriangles)) s.pTangentTriangles
  normals : SamePieces (ps.flatMap (fun p => (p.loaded fo prec edge).pNormals))
    (s.pNormals.map (List.map (quantNormal fo prec.normal)))
  uvs : SamePieces (ps.flatMap (fun p => (p.loaded fo prec edge).pUvs)) (s.pUvs.map (List.map (quantUv fo prec.uv)))
  tangents : SamePieces (ps.flatMap (fun p => (p.loaded fo prec edge).pTangents))
    (s.pTangents.map (List.map (quantTangent fo prec.tangent)))
  vertices : SamePieces (ps.flatMap (fun p => (p.loaded fo prec edge).pVertices))
    (s.pVertices.map (loadedVertices fo b prec.vertex edge))
  custom : ps.flatMap (fun p => (p.loaded fo prec edge).pCustom) = s.pCustom.map (CustomSeg.loaded fo)
  cut : ∀ l, s = vertex l → ∃ qs, optVertices fo b l = .ok qs ∧ qs.flatten = l

theorem samePieces_nil {α : Type} : SamePieces ([] : List (List α)) [] := ⟨rfl, Iff.rfl⟩
theorem SamePieces.rfl' {α : Type} (p : List (List α)) : SamePieces p p := ⟨rfl, Iff.rfl⟩

theorem flatMap_nil' {α β : Type} (l : List α) : l.flatMap (fun _ => ([] : List β)) = [] := by simp

theorem flatMap_wrap {α : Type} (l : List α) : l.flatMap (fun a => [a]) = l := by
  induction l with
  | nil => rfl
  | cons a l ih => rw [List.flatMap_cons, ih]; rfl

theorem optimize_pieces {s : DecodedSegment fo.F} {ps : List (DecodedSegment fo.F)} (hs : SegFits prec s)
    (h : s.optimize fo b = .ok ps) : PiecesOf fo b prec edge s ps := by
  cases s with
  | nothing =>
    cases h
    constructor <;> simp [DecodedSegment.loaded, pVertexTriangles, pNormalTriangles, pUvTriangles,
      pTangentTriangles, pNormals, pUvs, pTangents, pVertices, pCustom, samePieces_nil, SegFits]
  | normal l =>
    cases h
    constructor <;> simp [DecodedSegment.loaded, pVertexTriangles, pNormalTriangles, pUvTriangles,
      pTangentTriangles, pNormals, pUvs, pTangents, pVertices, pCustom, SamePieces.rfl', hs]
  | uv l =>
    cases h
    constructor <;> simp [DecodedSegment.loaded, pVertexTriangles, pNormalTriangles, pUvTriangles,
      pTangentTriangles, pNormals, pUvs, pTangents, pVertices, pCustom, SamePieces.rfl', hs]
  | tangent l =>
    cases h
    constructor <;> simp [DecodedSegment.loaded, pVertexTriangles, pNormalTriangles, pUvTriangles,
      pTangentTriangles, pNormals, pUvs, pTangents, pVertices, pCustom, SamePieces.rfl', hs]
  | custom l =>
    cases h
    constructor <;> simp [DecodedSegment.loaded, pVertexTriangles, pNormalTriangles, pUvTriangles,
      pTangentTriangles, pNormals, pUvs, pTangents, pVertices, pCustom, SamePieces.rfl', hs]
  | vertex l =>
    simp only [optimize, Outcome.bind_eq_ok] at h
    obtain ⟨qs, hq, h⟩ := h
    cases h
    obtain ⟨hc, hn⟩ := optVerticesFuel_flatten hq
    constructor <;> try simp only [DecodedSegment.loaded, pVertexTriangles, pNormalTriangles, pUvTriangles,
      pTangentTriangles, pNormals, pUvs, pTangents, pVertices, pCustom, List.flatMap_map, flatMap_nil', List.map_nil,
      samePieces_nil, List.map_cons]
    · intro p hp
      obtain ⟨q, hq', rfl⟩ := List.mem_map.mp hp
      exact le_trans (by rw [← hc]; exact (List.sublist_flatten_of_mem hq').length_le) hs
    · rw [flatMap_singleton']
      refine ⟨?_, by simp [hn]⟩
      rw [loadedVertices, hq]
      simp [List.flatMap_def]
    · intro l' hl'
      cases hl'
      exact ⟨qs, hq, hc⟩
  | triVertex l =>
    obtain ⟨qs, rfl, hc, hn, hf⟩ := optimize_tri (mk := triVertex) hs h
    constructor <;> try simp only [DecodedSegment.loaded, pVertexTriangles, pNormalTriangles, pUvTriangles,
      pTangentTriangles, pNormals, pUvs, pTangents, pVertices, pCustom, List.flatMap_map, flatMap_nil', List.map_nil,
      samePieces_nil, flatMap_wrap]
    · intro p hp
      obtain ⟨q, hq', rfl⟩ := List.mem_map.mp hp
      exact hf q hq'
    · rw [← hc]; exact samePieces_cut hn
    · intro l' hl'; cases hl'
  | triNormal l =>
    obtain ⟨qs, rfl, hc, hn, hf⟩ := optimize_tri (mk := triNormal) hs h
    constructor <;> try simp only [DecodedSegment.loaded, pVertexTriangles, pNormalTriangles, pUvTriangles,
      pTangentTriangles, pNormals, pUvs, pTangents, pVertices, pCustom, List.flatMap_map, flatMap_nil', List.map_nil,
      samePieces_nil, flatMap_wrap]
    · intro p hp
      obtain ⟨q, hq', rfl⟩ := List.mem_map.mp hp
      exact hf q hq'
    · rw [← hc]; exact samePieces_cut hn
    · intro l' hl'; cases hl'
  | triUv l =>
    obtain ⟨qs, rfl, hc, hn, hf⟩ := optimize_tri (mk := triUv) hs h
    constructor <;> try simp only [DecodedSegment.loaded, pVertexTriangles, pNormalTriangles, pUvTriangles,
      pTangentTriangles, pNormals, pUvs, pTangents, pVertices, pCustom, List.flatMap_map, flatMap_nil', List.map_nil,
      samePieces_nil, flatMap_wrap]
    · intro p hp
      obtain ⟨q, hq', rfl⟩ := List.mem_map.mp hp
      exact hf q hq'
    · rw [← hc]; exact samePieces_cut hn
    · intro l' hl'; cases hl'
  | triTangent l =>
    obtain ⟨qs, rfl, hc, hn, hf⟩ := optimize_tri (mk := triTangent) hs h
    constructor <;> try simp only [DecodedSegment.loaded, pVertexTriangles, pNormalTriangles, pUvTriangles,
      pTangentTriangles, pNormals, pUvs, pTangents, pVertices, pCustom, List.flatMap_map, flatMap_nil', List.map_nil,
      samePieces_nil, flatMap_wrap]
    · intro p hp
      obtain ⟨q, hq', rfl⟩ := List.mem_map.mp hp
      exact hf q hq'
    · rw [← hc]; exact samePieces_cut hn
    · intro l' hl'; cases hl'
  | shared mask l =>
    obtain ⟨qs, rfl, hc, hn, hf⟩ := optimize_tri (mk := shared mask) hs.2 h
    have key : ∀ c : Bool, SamePieces (qs.flatMap (fun q => if c = true then [q] else [])) (if c = true then [l] else []) := by
      intro c
      cases c
      · simp only [Bool.false_eq_true, if_false, flatMap_nil']; exact samePieces_nil
      · simp only [if_true, flatMap_wrap]; rw [← hc]; exact samePieces_cut hn
    constructor <;> try simp only [DecodedSegment.loaded, pVertexTriangles, pNormalTriangles, pUvTriangles,
      pTangentTriangles, pNormals, pUvs, pTangents, pVertices, pCustom, List.flatMap_map, flatMap_nil', List.map_nil,
      samePieces_nil, key]
    · intro p hp
      obtain ⟨q, hq', rfl⟩ := List.mem_map.mp hp
      exact ⟨hs.1, hf q hq'⟩
    · intro l' hl'; cases hl'

/-! ### Meshes -/

theorem mergedTris_fits {u n v : Option (List Nat)} (hu : IndicesFit u) (hn : IndicesFit n) (hv : IndicesFit v) :
    ∀ s ∈ (mergedTris u n v : List (DecodedSegment fo.F)), SegFits prec s := by
  intro s hs
  cases u with
  | none =>
    cases n with
    | none =>
      cases v with
      | none => simp [mergedTris] at hs
      | some v => simp only [mergedTris, Option.map_some, Option.toList_some, List.mem_singleton] at hs; subst hs; exact hv v rfl
    | some n =>
      simp only [mergedTris] at hs
      split at hs
      · simp only [List.mem_singleton] at hs; subst hs; exact ⟨by decide, hn n rfl⟩
      · simp only [List.mem_cons, Option.mem_toList, Option.map_eq_some_iff] at hs
        rcases hs with rfl | ⟨a, rfl, rfl⟩
        · exact hn n rfl
        · exact hv a rfl
  | some u =>
    simp only [mergedTris] at hs
    split at hs
    · simp only [List.mem_singleton] at hs; subst hs; exact ⟨by decide, hu u rfl⟩
    split at hs
    · simp only [List.mem_cons, Option.mem_toList, Option.map_eq_some_iff] at hs
      rcases hs with rfl | ⟨a, rfl, rfl⟩
      · exact ⟨by decide, hu u rfl⟩
      · exact hn a rfl
    split at hs
    · simp only [List.mem_cons, Option.mem_toList, Option.map_eq_some_iff] at hs
      rcases hs with rfl | ⟨a, rfl, rfl⟩
      · exact ⟨by decide, hu u rfl⟩
      · exact hv a rfl
    · simp only [List.mem_cons] at hs
      rcases hs with rfl | hs
      · exact hu u rfl
      · cases n with
        | none =>
          simp only [Option.mem_toList, Option.map_eq_some_iff] at hs
          obtain ⟨a, rfl, rfl⟩ := hs
          exact hv a rfl
        | some n =>
          simp only at hs
          split at hs
          · simp only [List.mem_singleton] at hs; subst hs; exact ⟨by decide, hn n rfl⟩
          · simp only [List.mem_cons, Option.mem_toList, Option.map_eq_some_iff] at hs
            rcases hs with rfl | ⟨a, rfl, rfl⟩
            · exact hn n rfl
            · exact hv a rfl

theorem mergedSegs_fits {m : Mesh fo.F} (h : MeshFits prec m) : ∀ s ∈ mergedSegs m, SegFits prec s := by
  intro s hs
  simp only [mergedSegs, List.mem_append, List.mem_map, Option.mem_toList, Option.map_eq_some_iff] at hs
  rcases hs with ((⟨c, hc, rfl⟩ | ⟨a, ha, rfl⟩) | ⟨a, ha, rfl⟩) | (hs | (⟨a, ha, rfl⟩ | ⟨a, ha, rfl⟩) | ⟨a, ha, rfl⟩)
  · exact h.custom c (List.mem_reverse.mp hc)
  · exact h.tangentTriangles a ha
  · exact ⟨h.tangents a ha, fun e => h.tangentPrec (e ▸ ha)⟩
  · exact mergedTris_fits h.uvTriangles h.normalTriangles h.vertexTriangles s hs
  · exact h.uvs a ha
  · exact ⟨h.normals a ha, fun e => h.normalPrec (e ▸ ha)⟩
  · exact h.vertices a ha

theorem mergedTris_vertex (u n v : Option (List Nat)) :
    (mergedTris u n v : List (DecodedSegment fo.F)).flatMap pVertexTriangles = v.toList := by
  rcases u with - | u <;> rcases n with - | n <;> rcases v with - | v <;>
    simp only [mergedTris, Option.some.injEq, reduceCtorEq, and_false, false_and, if_false] <;> (try split_ifs) <;>
    simp_all [pVertexTriangles, hasVertex]

theorem mergedTris_normal (u n v : Option (List Nat)) :
    (mergedTris u n v : List (DecodedSegment fo.F)).flatMap pNormalTriangles = n.toList := by
  rcases u with - | u <;> rcases n with - | n <;> rcases v with - | v <;>
    simp only [mergedTris, Option.some.injEq, reduceCtorEq, and_false, false_and, if_false] <;> (try split_ifs) <;>
    simp_all [pNormalTriangles, hasNormal]

theorem mergedTris_uv (u n v : Option (List Nat)) :
    (mergedTris u n v : List (DecodedSegment fo.F)).flatMap pUvTriangles = u.toList := by
  rcases u with - | u <;> rcases n with - | n <;> rcases v with - | v <;>
    simp only [mergedTris, Option.some.injEq, reduceCtorEq, and_false, false_and, if_false] <;> (try split_ifs) <;>
    simp_all [pUvTriangles, hasUv]

/-- None of the shared index arrays is anything else. -/
theorem mergedTris_other {α : Type} {g : DecodedSegment fo.F → List α} (h1 : ∀ l, g (triVertex l) = [])
    (h2 : ∀ l, g (triNormal l) = []) (h3 : ∀ l, g (triUv l) = []) (h4 : ∀ k l, g (shared k l) = [])
    (u n v : Option (List Nat)) : (mergedTris u n v).flatMap g = [] := by
  rcases u with - | u <;> rcases n with - | n <;> rcases v with - | v <;>
    simp only [mergedTris, Option.some.injEq, reduceCtorEq, and_false, false_and, if_false] <;> (try split_ifs) <;>
    simp_all

theorem opt_flatMap_nil {S α β : Type} (o : Option α) (mk : α → S) (g : S → List β) (h : ∀ a, g (mk a) = []) :
    (o.map mk).toList.flatMap g = [] := by cases o <;> simp [h]

theorem opt_flatMap {S α β : Type} (o : Option α) (mk : α → S) (g : S → List β) (k : α → β) (h : ∀ a, g (mk a) = [k a]) :
    (o.map mk).toList.flatMap g = (o.map k).toList := by cases o <;> simp [h]

theorem list_flatMap_nil {S α β : Type} (l : List α) (mk : α → S) (g : S → List β) (h : ∀ a, g (mk a) = []) :
    (l.map mk).flatMap g = [] := by rw [List.flatMap_map]; exact flatMap_eq_nil_of (fun a _ => h a)

/-- The mesh that comes back. -/
def loadedMesh (fo : FloatOps) (b : Build) (prec : PrecisionInfo fo.F) (edge : fo.F) (m : Mesh fo.F) : Mesh fo.F where
  normals := m.normals.map (List.map (quantNormal fo prec.normal))
  normalTriangles := m.normalTriangles
  vertices := m.vertices.map (loadedVertices fo b prec.vertex edge)
  vertexTriangles := m.vertexTriangles
  uvs := m.uvs.map (List.map (quantUv fo prec.uv))
  uvTriangles := m.uvTriangles
  tangents := m.tangents.map (List.map (quantTangent fo prec.tangent))
  tangentTriangles := m.tangentTriangles
  customData := m.customData.reverse.map (CustomSeg.loaded fo)

theorem flatMap_map_comm {S α β : Type} (l : List S) (g : S → List α) (k : α → β) :
    l.flatMap (fun s => (g s).map k) = (l.flatMap g).map k := by
  rw [List.map_flatMap]

theorem forall₂_custom {l : List (DecodedSegment fo.F)} {pieces : List (List (DecodedSegment fo.F))}
    (h : List.Forall₂ (PiecesOf fo b prec edge) l pieces) :
    pieces.flatten.flatMap (fun p => (p.loaded fo prec edge).pCustom) = (l.flatMap pCustom).map (CustomSeg.loaded fo) := by
  induction h with
  | nil => rfl
  | cons h _ ih =>
    simp only [List.flatten_cons, List.flatMap_append, List.flatMap_cons, List.map_append]
    rw [h.custom, ih]

theorem mergedSegs_normals (m : Mesh fo.F) :
    (mergedSegs m).flatMap pNormals = m.normals.toList := by
  simp only [mergedSegs, List.flatMap_append]
  rw [list_flatMap_nil _ _ _ (fun _ => rfl), opt_flatMap_nil _ _ _ (fun _ => rfl), opt_flatMap_nil _ _ _ (fun _ => rfl),
    opt_flatMap_nil _ _ _ (fun _ => rfl), opt_flatMap _ _ _ id (fun _ => rfl), opt_flatMap_nil _ _ _ (fun _ => rfl),
    mergedTris_other (fun _ => rfl) (fun _ => rfl) (fun _ => rfl) (fun _ _ => rfl)]
  simp

theorem mergedSegs_uvs (m : Mesh fo.F) :
    (mergedSegs m).flatMap pUvs = m.uvs.toList := by
  simp only [mergedSegs, List.flatMap_append]
  rw [list_flatMap_nil _ _ _ (fun _ => rfl), opt_flatMap_nil _ _ _ (fun _ => rfl), opt_flatMap_nil _ _ _ (fun _ => rfl),
    opt_flatMap _ _ _ id (fun _ => rfl), opt_flatMap_nil _ _ _ (fun _ => rfl), opt_flatMap_nil _ _ _ (fun _ => rfl),
    mergedTris_other (fun _ => rfl) (fun _ => rfl) (fun _ => rfl) (fun _ _ => rfl)]
  simp

theorem mergedSegs_tangents (m : Mesh fo.F) :
    (mergedSegs m).flatMap pTangents = m.tangents.toList := by
  simp only [mergedSegs, List.flatMap_append]
  rw [list_flatMap_nil _ _ _ (fun _ => rfl), opt_flatMap_nil _ _ _ (fun _ => rfl), opt_flatMap _ _ _ id (fun _ => rfl),
    opt_flatMap_nil _ _ _ (fun _ => rfl), opt_flatMap_nil _ _ _ (fun _ => rfl), opt_flatMap_nil _ _ _ (fun _ => rfl),
    mergedTris_other (fun _ => rfl) (fun _ => rfl) (fun _ => rfl) (fun _ _ => rfl)]
  simp

theorem mergedSegs_vertices (m : Mesh fo.F) :
    (mergedSegs m).flatMap pVertices = m.vertices.toList := by
  simp only [mergedSegs, List.flatMap_append]
  rw [list_flatMap_nil _ _ _ (fun _ => rfl), opt_flatMap_nil _ _ _ (fun _ => rfl), opt_flatMap_nil _ _ _ (fun _ => rfl),
    opt_flatMap_nil _ _ _ (fun _ => rfl), opt_flatMap_nil _ _ _ (fun _ => rfl), opt_flatMap _ _ _ id (fun _ => rfl),
    mergedTris_other (fun _ => rfl) (fun _ => rfl) (fun _ => rfl) (fun _ _ => rfl)]
  simp

theorem mergedSegs_custom (m : Mesh fo.F) :
    (mergedSegs m).flatMap pCustom = m.customData.reverse := by
  simp only [mergedSegs, List.flatMap_append]
  rw [opt_flatMap_nil _ _ _ (fun _ => rfl), opt_flatMap_nil _ _ _ (fun _ => rfl),
    opt_flatMap_nil _ _ _ (fun _ => rfl), opt_flatMap_nil _ _ _ (fun _ => rfl), opt_flatMap_nil _ _ _ (fun _ => rfl),
    mergedTris_other (fun _ => rfl) (fun _ => rfl) (fun _ => rfl) (fun _ _ => rfl), List.flatMap_map]
  simp [pCustom]

theorem applied_pieces {m : Mesh fo.F} {pieces : List (List (DecodedSegment fo.F))}
    (h : List.Forall₂ (PiecesOf fo b prec edge) (mergedSegs m) pieces) :
    (pieces.flatten.map (DecodedSegment.loaded fo prec edge)).foldl DecodedSegment.apply Mesh.empty =
      loadedMesh fo b prec edge m := by
  rw [applyAll_eq]
  simp only [List.flatMap_map]
  have e1 := (samePieces_flatMap (g := fun p => (p.loaded fo prec edge).pVertexTriangles) (fun s ps h => h.vertexTriangles) h).joined
  have e2 := (samePieces_flatMap (g := fun p => (p.loaded fo prec edge).pNormalTriangles) (fun s ps h => h.normalTriangles) h).joined
  have e3 := (samePieces_flatMap (g := fun p => (p.loaded fo prec edge).pUvTriangles) (fun s ps h => h.uvTriangles) h).joined
  have e4 := (samePieces_flatMap (g := fun p => (p.loaded fo prec edge).pTangentTriangles) (fun s ps h => h.tangentTriangles) h).joined
  have e5 := (samePieces_flatMap (g := fun p => (p.loaded fo prec edge).pNormals) (fun s ps h => h.normals) h).joined
  have e6 := (samePieces_flatMap (g := fun p => (p.loaded fo prec edge).pUvs) (fun s ps h => h.uvs) h).joined
  have e7 := (samePieces_flatMap (g := fun p => (p.loaded fo prec edge).pTangents) (fun s ps h => h.tangents) h).joined
  have e8 := (samePieces_flatMap (g := fun p => (p.loaded fo prec edge).pVertices) (fun s ps h => h.vertices) h).joined
  have e9 := forall₂_custom h
  rw [e1, e2, e3, e4, e5, e6, e7, e8, e9]
  simp only [flatMap_map_comm]
  have s1 : (mergedSegs m).flatMap pVertexTriangles = m.vertexTriangles.toList := by
    simp only [mergedSegs, List.flatMap_append]
    rw [list_flatMap_nil _ _ _ (fun _ => rfl), opt_flatMap_nil _ _ _ (fun _ => rfl), opt_flatMap_nil _ _ _ (fun _ => rfl),
      opt_flatMap_nil _ _ _ (fun _ => rfl), opt_flatMap_nil _ _ _ (fun _ => rfl), opt_flatMap_nil _ _ _ (fun _ => rfl),
      mergedTris_vertex]
    simp
  have s2 : (mergedSegs m).flatMap pNormalTriangles = m.normalTriangles.toList := by
    simp only [mergedSegs, List.flatMap_append]
    rw [list_flatMap_nil _ _ _ (fun _ => rfl), opt_flatMap_nil _ _ _ (fun _ => rfl), opt_flatMap_nil _ _ _ (fun _ => rfl),
      opt_flatMap_nil _ _ _ (fun _ => rfl), opt_flatMap_nil _ _ _ (fun _ => rfl), opt_flatMap_nil _ _ _ (fun _ => rfl),
      mergedTris_normal]
    simp
  have s3 : (mergedSegs m).flatMap pUvTriangles = m.uvTriangles.toList := by
    simp only [mergedSegs, List.flatMap_append]
    rw [list_flatMap_nil _ _ _ (fun _ => rfl), opt_flatMap_nil _ _ _ (fun _ => rfl), opt_flatMap_nil _ _ _ (fun _ => rfl),
      opt_flatMap_nil _ _ _ (fun _ => rfl), opt_flatMap_nil _ _ _ (fun _ => rfl), opt_flatMap_nil _ _ _ (fun _ => rfl),
      mergedTris_uv]
    simp
  have s4 : (mergedSegs m).flatMap pTangentTriangles = m.tangentTriangles.toList := by
    simp only [mergedSegs, List.flatMap_append]
    rw [list_flatMap_nil _ _ _ (fun _ => rfl), opt_flatMap _ _ _ id (fun _ => rfl), opt_flatMap_nil _ _ _ (fun _ => rfl),
      opt_flatMap_nil _ _ _ (fun _ => rfl), opt_flatMap_nil _ _ _ (fun _ => rfl), opt_flatMap_nil _ _ _ (fun _ => rfl),
      mergedTris_other (fun _ => rfl) (fun _ => rfl) (fun _ => rfl) (fun _ _ => rfl)]
    simp
  have s5 := mergedSegs_normals m
  have s6 := mergedSegs_uvs m
  have s7 := mergedSegs_tangents m
  have s8 := mergedSegs_vertices m
  have s9 := mergedSegs_custom m
  rw [s1, s2, s3, s4, s5, s6, s7, s8, s9]
  have hj : ∀ {α β : Type} (o : Option (List α)) (f : List α → List β), joined (o.toList.map f) = o.map f := by
    intro α β o f; cases o <;> simp [joined]
  simp only [joined_toList, hj]
  rfl

theorem forall₂_imp {α β : Type} {R S : α → β → Prop} {l : List α} {m : List β} (h : List.Forall₂ R l m)
    (himp : ∀ a ∈ l, ∀ b, R a b → S a b) : List.Forall₂ S l m := by
  induction h with
  | nil => exact .nil
  | cons h _ ih =>
    exact .cons (himp _ List.mem_cons_self _ h) (ih (fun a ha b hb => himp a (List.mem_cons_of_mem _ ha) b hb))

theorem forall₂_map {α : Type} {R : α → α → Prop} {f : α → α} {l : List α} (h : ∀ a ∈ l, R a (f a)) :
    List.Forall₂ R l (l.map f) := by
  induction l with
  | nil => exact .nil
  | cons a l ih => exact .cons (h a List.mem_cons_self) (ih fun b hb => h b (List.mem_cons_of_mem _ hb))

theorem forall₂_mem {α β : Type} {R : α → β → Prop} {l : List α} {l' : List β} (h : List.Forall₂ R l l') :
    ∀ a ∈ l, ∃ b ∈ l', R a b := by
  induction h with
  | nil => simp
  | cons h _ ih =>
    intro a ha
    rcases List.mem_cons.mp ha with rfl | ha
    · exact ⟨_, List.mem_cons_self, h⟩
    · obtain ⟨b, hb, e⟩ := ih a ha
      exact ⟨b, List.mem_cons_of_mem _ hb, e⟩

/-- The pieces of a mesh with low widths. -/
theorem low_piece {m : Mesh fo.F} (hm : Low fo b prec m)
    (he : calcShortestEdge fo m.vertexTriangles m.vertices = .ok edge) {s : DecodedSegment fo.F} (hs : s ∈ mergedSegs m)
    {ps : List (DecodedSegment fo.F)} (h : s.optimize fo b = .ok ps) : ∀ p ∈ ps, SegLow fo prec edge p := by
  intro p hp
  have tri : ∀ {l : List Nat} {mk : List Nat → DecodedSegment fo.F} (_ : ∀ q, SegLow fo prec edge (mk q)),
      (optTris b l >>= fun ps => Outcome.ok (ps.map mk)) = .ok ps → SegLow fo prec edge p := by
    intro l mk hmk h
    rw [Outcome.bind_eq_ok] at h
    obtain ⟨qs, _, h⟩ := h
    cases h
    obtain ⟨q, _, rfl⟩ := List.mem_map.mp hp
    exact hmk q
  cases s with
  | nothing => cases h; rcases List.mem_singleton.mp hp with rfl; trivial
  | triVertex l => exact tri (mk := .triVertex) (fun _ => trivial) h
  | triNormal l => exact tri (mk := .triNormal) (fun _ => trivial) h
  | triUv l => exact tri (mk := .triUv) (fun _ => trivial) h
  | triTangent l => exact tri (mk := .triTangent) (fun _ => trivial) h
  | shared k l => exact tri (mk := .shared k) (fun _ => trivial) h
  | normal l =>
    cases h
    rcases List.mem_singleton.mp hp with rfl
    have : l ∈ m.normals.toList := by
      rw [← mergedSegs_normals m]; exact List.mem_flatMap.mpr ⟨_, hs, List.mem_singleton.mpr rfl⟩
    exact .inr (hm.normals (by rw [Option.mem_toList.mp this]; rfl))
  | uv l =>
    cases h
    rcases List.mem_singleton.mp hp with rfl
    have : l ∈ m.uvs.toList := by
      rw [← mergedSegs_uvs m]; exact List.mem_flatMap.mpr ⟨_, hs, List.mem_singleton.mpr rfl⟩
    exact hm.uvs (by rw [Option.mem_toList.mp this]; rfl)
  | tangent l =>
    cases h
    rcases List.mem_singleton.mp hp with rfl
    have : l ∈ m.tangents.toList := by
      rw [← mergedSegs_tangents m]; exact List.mem_flatMap.mpr ⟨_, hs, List.mem_singleton.mpr rfl⟩
    exact .inr (hm.tangents (by rw [Option.mem_toList.mp this]; rfl))
  | custom c =>
    cases h
    rcases List.mem_singleton.mp hp with rfl
    have : c ∈ m.customData.reverse := by
      rw [← mergedSegs_custom m]; exact List.mem_flatMap.mpr ⟨_, hs, List.mem_singleton.mpr rfl⟩
    exact hm.custom c (List.mem_reverse.mp this)
  | vertex l =>
    have hl : l ∈ m.vertices.toList := by
      rw [← mergedSegs_vertices m]; exact List.mem_flatMap.mpr ⟨_, hs, List.mem_singleton.mpr rfl⟩
    simp only [optimize, Outcome.bind_eq_ok] at h
    obtain ⟨qs, hq, h⟩ := h
    cases h
    obtain ⟨q, hq', rfl⟩ := List.mem_map.mp hp
    exact fun s hs => hm.vertices l edge qs q s (Option.mem_toList.mp hl) he hq hq' hs

/-- Loading the segments of a mesh that was written with overflow checks or with low widths. -/
theorem assemble_encoded {b' : Build} {m : Mesh fo.F} {segs : List EncodedSegment} (hm : MeshFits prec m)
    (hq : b = .checked ∨ Low fo b prec m) (h : encodeMesh fo fb b prec m = .ok segs) :
    ∃ edge, calcShortestEdge fo m.vertexTriangles m.vertices = .ok edge ∧
      assembleMesh fo fb b' ⟨true⟩ segs = .ok (loadedMesh fo b prec edge m) ∧
      (∀ e ∈ segs, e.compression = .none) ∧
      ∀ l, m.vertices = some l → ∃ qs, optVertices fo b l = .ok qs ∧ qs.flatten = l := by
  rw [encodeMesh, Outcome.bind_eq_ok] at h
  obtain ⟨edge, he, h⟩ := h
  rw [mergeSegments_eq] at h
  simp only [Outcome.bind_ok, Outcome.bind_eq_ok] at h
  obtain ⟨pieces, hp, hs⟩ := h
  have hF : List.Forall₂ (PiecesOf fo b prec edge) (mergedSegs m) pieces :=
    forall₂_imp (mapAll_forall₂ hp) (fun s hs ps h => optimize_pieces (mergedSegs_fits hm s hs) h)
  have hfits : ∀ p ∈ pieces.flatten, SegFits prec p := by
    intro p hp'
    obtain ⟨ps, hps, hpp⟩ := List.mem_flatten.mp hp'
    have : ∀ {l : List (DecodedSegment fo.F)} {pieces : List (List (DecodedSegment fo.F))},
        List.Forall₂ (PiecesOf fo b prec edge) l pieces → ∀ ps ∈ pieces, ∀ p ∈ ps, SegFits prec p := by
      intro l pieces h
      induction h with
      | nil => simp
      | cons h _ ih =>
        intro ps hps
        rcases List.mem_cons.mp hps with rfl | hps
        · exact h.fits
        · exact ih ps hps
    exact this hF ps hps p hpp
  have hlow : ∀ p ∈ pieces.flatten, SegLow fo prec edge p := by
    rcases hq with rfl | hq
    · intro p hp'
      obtain ⟨e, _, h⟩ := forall₂_mem (mapAll_forall₂ hs) p hp'
      exact segLow_of_checked h
    · intro p hp'
      obtain ⟨ps, hps, hpp⟩ := List.mem_flatten.mp hp'
      obtain ⟨s, hs, e⟩ := mapAll_ok_mem' hp ps hps
      exact low_piece hq he hs e p hpp
  have hE := mapAll_forall₂ hs
  have hdec : segs.map (EncodedSegment.decode fo fb b' ⟨true⟩) =
      (pieces.flatten.map (DecodedSegment.loaded fo prec edge)).map Outcome.ok ∧ ∀ e ∈ segs, e.compression = .none := by
    clear hs hF hp
    generalize pieces.flatten = ps at hfits hlow hE
    induction hE with
    | nil => simp
    | @cons p e _ _ h _ ih =>
      obtain ⟨hd, hcomp⟩ := decode_encoded (b' := b') (hfits p List.mem_cons_self) (hlow p List.mem_cons_self) h
      obtain ⟨i1, i2⟩ := ih (fun q hq => hfits q (List.mem_cons_of_mem _ hq)) (fun q hq => hlow q (List.mem_cons_of_mem _ hq))
      refine ⟨by simp only [List.map_cons, hd, i1], fun x hx => ?_⟩
      rcases List.mem_cons.mp hx with rfl | hx
      · exact hcomp
      · exact i2 x hx
  have hcut : ∀ l, m.vertices = some l → ∃ qs, optVertices fo b l = .ok qs ∧ qs.flatten = l := by
    intro l hl
    have hmem : vertex l ∈ mergedSegs m := by simp [mergedSegs, hl]
    have : ∀ {ss : List (DecodedSegment fo.F)} {pieces : List (List (DecodedSegment fo.F))},
        List.Forall₂ (PiecesOf fo b prec edge) ss pieces → ∀ s ∈ ss, ∃ ps, PiecesOf fo b prec edge s ps := by
      intro ss pieces h
      induction h with
      | nil => simp
      | cons h _ ih =>
        intro s hs
        rcases List.mem_cons.mp hs with rfl | hs
        · exact ⟨_, h⟩
        · exact ih s hs
    obtain ⟨ps, hps⟩ := this hF _ hmem
    exact hps.cut l rfl
  refine ⟨edge, he, ?_, hdec.2, hcut⟩
  unfold assembleMesh
  rw [hdec.1, collect_ok (f := Outcome.ok) (g := id) (fun _ _ => rfl)]
  simp only [Outcome.bind_ok, List.map_id]
  rw [applied_pieces hF]

/-! ### Files -/

/-- The segment as it lies in the file. -/
def rawOf (e : EncodedSegment) : RawSeg := ⟨e.segType.toU8, e.compression.toU8, e.data⟩

theorem encodedOf_rawOf (e : EncodedSegment) : encodedOf (rawOf e) = e := by
  obtain ⟨t, c, d⟩ := e
  cases t <;> cases c <;> rfl

theorem meshBytes_eq (name : List UInt8) (segs : List EncodedSegment) :
    meshBytes name segs = RawMesh.bytes .new ⟨name, segs.map rawOf⟩ := by
  have : segs.flatMap EncodedSegment.bytes = (segs.map rawOf).flatMap (RawSeg.bytes .new) := by
    rw [List.flatMap_map]
    exact flatMap_eq_of (fun e _ => by simp [EncodedSegment.bytes, RawSeg.bytes, rawOf, segHead])
  rw [meshBytes, RawMesh.bytes, meshHead, this]
  simp

theorem rawOf_framed {e : EncodedSegment} (hc : e.compression = .none) (hl : e.data.length ≤ 2 ^ 31) :
    (rawOf e).Framed .new := by
  refine ⟨?_, .inl (by simp [rawOf, hc, CompressionType.toU8]), hl⟩
  obtain ⟨t, c, d⟩ := e
  cases t <;> (simp only [KindFits, rawOf, SectionType.toU8]; decide)

/-- The file limits: every name fits, the number of meshes and segments fits, and no segment is
longer than 2^31 bytes. -/
structure FileFits (meshes : List (Mesh fo.F × List UInt8)) (enc : List (List EncodedSegment)) : Prop where
  names : ∀ mn ∈ meshes, NameOk mn.2
  count : meshes.length < 2 ^ 32
  segs : ∀ segs ∈ enc, segs.length < 2 ^ 16
  sizes : ∀ segs ∈ enc, ∀ e ∈ segs, e.data.length ≤ 2 ^ 31

/-- Loading a written file. -/
theorem readTmf_written {b' : Build} {meshes : List (Mesh fo.F × List UInt8)} {bytes : List UInt8}
    (h : tmfBytes fo fb b prec meshes = .ok bytes) (hm : ∀ mn ∈ meshes, MeshFits prec mn.1)
    (hq : b = .checked ∨ ∀ mn ∈ meshes, Low fo b prec mn.1)
    (hl : ∀ enc, Outcome.mapAll (fun mn => encodeMesh fo fb b prec mn.1) meshes = .ok enc → FileFits meshes enc)
    (junk : List UInt8) (sched : List Nat) :
    ∃ out, readTmf fo fb b' ⟨bytes ++ junk, sched, false⟩ = .ok out ∧
      List.Forall₂ (fun mn mn' => mn'.2 = mn.2 ∧ ∃ edge, calcShortestEdge fo mn.1.vertexTriangles mn.1.vertices = .ok edge ∧
        mn'.1 = loadedMesh fo b prec edge mn.1 ∧
        ∀ l, mn.1.vertices = some l → ∃ qs, optVertices fo b l = .ok qs ∧ qs.flatten = l) meshes out := by
  obtain ⟨enc, hE, hb⟩ := tmfBytes_ok fo fb b prec h
  have hfits := hl enc hE
  have hF := mapAll_forall₂ hE
  have hbytes : bytes = fileBytes 2 ((meshes.zip enc).map (fun p => ⟨p.1.2, p.2.map rawOf⟩)) := by
    rw [hb, fileBytes, fileHead, List.length_map, List.length_zip, ← hF.length_eq, Nat.min_self, List.flatMap_map]
    congr 1
    exact flatMap_eq_of (fun p _ => meshBytes_eq _ _)
  have hasm : ∀ p ∈ meshes.zip enc, ∃ edge, calcShortestEdge fo p.1.1.vertexTriangles p.1.1.vertices = .ok edge ∧
      assembleMesh fo fb b' ⟨true⟩ p.2 = .ok (loadedMesh fo b prec edge p.1.1) ∧
      (∀ e ∈ p.2, e.compression = .none) ∧
      ∀ l, p.1.1.vertices = some l → ∃ qs, optVertices fo b l = .ok qs ∧ qs.flatten = l := by
    intro p hp
    have := (List.forall₂_iff_zip.mp hF).2 hp
    exact assemble_encoded (hm p.1 (List.of_mem_zip hp).1) (hq.imp id fun hq => hq p.1 (List.of_mem_zip hp).1) this
  have hframed : ∀ m ∈ (meshes.zip enc).map (fun p => (⟨p.1.2, p.2.map rawOf⟩ : RawMesh)), RawMesh.Framed .new m := by
    intro m hm'
    obtain ⟨p, hp, rfl⟩ := List.mem_map.mp hm'
    obtain ⟨hp1, hp2⟩ := List.of_mem_zip hp
    obtain ⟨_, _, _, hc, _⟩ := hasm p hp
    refine ⟨hfits.names _ hp1, by simpa using hfits.segs _ hp2, ?_⟩
    intro s hs
    obtain ⟨e, he, rfl⟩ := List.mem_map.mp hs
    exact rawOf_framed (hc e he) (hfits.sizes _ hp2 e he)
  have hcount : ((meshes.zip enc).map (fun p => (⟨p.1.2, p.2.map rawOf⟩ : RawMesh))).length < 2 ^ 32 := by
    rw [List.length_map, List.length_zip]
    exact lt_of_le_of_lt (Nat.min_le_left _ _) hfits.count
  rw [hbytes]
  have hread := readTmf_file fo fb b' (minMinor := 2) (le_refl 2) hframed hcount junk sched
  rw [hread]
  have : ∀ {ms : List (Mesh fo.F × List UInt8)} {es : List (List EncodedSegment)},
      List.Forall₂ (fun mn e => encodeMesh fo fb b prec mn.1 = .ok e) ms es →
      (∀ p ∈ ms.zip es, ∃ edge, calcShortestEdge fo p.1.1.vertexTriangles p.1.1.vertices = .ok edge ∧
        assembleMesh fo fb b' ⟨true⟩ p.2 = .ok (loadedMesh fo b prec edge p.1.1) ∧
        (∀ e ∈ p.2, e.compression = .none) ∧
        ∀ l, p.1.1.vertices = some l → ∃ qs, optVertices fo b l = .ok qs ∧ qs.flatten = l) →
      ∃ out, Outcome.mapAll (rawMesh fo fb b' .new)
        ((ms.zip es).map (fun p => (⟨p.1.2, p.2.map rawOf⟩ : RawMesh))) = .ok out ∧
        List.Forall₂ (fun mn mn' => mn'.2 = mn.2 ∧ ∃ edge, calcShortestEdge fo mn.1.vertexTriangles mn.1.vertices = .ok edge ∧
          mn'.1 = loadedMesh fo b prec edge mn.1 ∧
          ∀ l, mn.1.vertices = some l → ∃ qs, optVertices fo b l = .ok qs ∧ qs.flatten = l) ms out := by
    intro ms es h
    induction h with
    | nil => intro _; exact ⟨[], rfl, .nil⟩
    | @cons mn e ms es _ _ ih =>
      intro hz
      obtain ⟨out, ho, hfo⟩ := ih (fun p hp => hz p (by simp [hp]))
      obtain ⟨edge, he, ha, _, hcut⟩ := hz (mn, e) (by simp)
      refine ⟨(loadedMesh fo b prec edge mn.1, mn.2) :: out, ?_, .cons ⟨rfl, edge, he, rfl, hcut⟩ hfo⟩
      have hmap : (e.map rawOf).map encodedOf = e := by
        rw [List.map_map]
        conv_rhs => rw [← List.map_id e]
        exact List.map_congr_left (fun x _ => encodedOf_rawOf x)
      have hr : rawMesh fo fb b' .new ⟨mn.2, e.map rawOf⟩ = .ok (loadedMesh fo b prec edge mn.1, mn.2) := by
        rw [rawMesh, hmap]
        have : (ctxOf .new).decode = ⟨true⟩ := rfl
        rw [this, ha]
        rfl
      rw [List.zip_cons_cons, List.map_cons, Outcome.mapAll, hr, Outcome.bind_ok, ho]
      rfl
  exact this hF hasm

/-- Every segment is shorter than the file. -/
theorem seg_le_file {b : Build} {meshes : List (Mesh fo.F × List UInt8)} {bytes : List UInt8}
    (h : tmfBytes fo fb b prec meshes = .ok bytes) {enc : List (List EncodedSegment)}
    (hE : Outcome.mapAll (fun mn => encodeMesh fo fb b prec mn.1) meshes = .ok enc) :
    ∀ segs ∈ enc, ∀ e ∈ segs, e.data.length ≤ bytes.length := by
  rw [tmfBytes_of fo fb b prec hE] at h
  cases h
  intro segs hs e he
  have hlen := (mapAll_forall₂ hE).length_eq
  obtain ⟨i, hi, rfl⟩ := List.getElem_of_mem hs
  have hz : (meshes[i], enc[i]) ∈ meshes.zip enc := by
    have : (meshes.zip enc)[i]'(by simp; omega) = (meshes[i], enc[i]) := by simp
    rw [← this]; exact List.getElem_mem _
  obtain ⟨a, c, hac⟩ := List.append_of_mem hz
  obtain ⟨a', c', hac'⟩ := List.append_of_mem he
  rw [hac]
  simp only [List.flatMap_append, List.flatMap_cons, meshBytes]
  simp only [hac', List.flatMap_append, List.flatMap_cons, EncodedSegment.bytes, List.length_append]
  omega

/-- Loading a file written by either build with low widths. -/
theorem readTmf_low {b' : Build} {meshes : List (Mesh fo.F × List UInt8)} {bytes : List UInt8}
    (h : tmfBytes fo fb b prec meshes = .ok bytes) (hl : LimitsLow fo fb b prec meshes) (hb : bytes.length ≤ 2 ^ 31) (junk : List UInt8) (sched : List Nat) :
    ∃ out, readTmf fo fb b' ⟨bytes ++ junk, sched, false⟩ = .ok out ∧
      List.Forall₂ (fun mn mn' => mn'.2 = mn.2 ∧ ∃ edge, calcShortestEdge fo mn.1.vertexTriangles mn.1.vertices = .ok edge ∧
        mn'.1 = loadedMesh fo b prec edge mn.1 ∧
        ∀ l, mn.1.vertices = some l → ∃ qs, optVertices fo b l = .ok qs ∧ qs.flatten = l) meshes out := by
  refine readTmf_written h hl.fits hl.low (fun enc hE => ⟨hl.names, hl.count, fun segs hs => ?_, fun segs hs e he =>
    le_trans (seg_le_file h hE segs hs e he) hb⟩) junk sched
  obtain ⟨mn, hmn, e⟩ := mapAll_ok_mem' hE segs hs
  exact hl.segments mn hmn segs e

/-- Loading a written file, in terms of the limits. -/
theorem readTmf_limits {b' : Build} {meshes : List (Mesh fo.F × List UInt8)} {bytes : List UInt8}
    (h : tmfBytes fo fb .checked prec meshes = .ok bytes) (hl : Limits fo fb prec meshes)
    (hb : bytes.length ≤ 2 ^ 31) (junk : List UInt8) (sched : List Nat) :
    ∃ out, readTmf fo fb b' ⟨bytes ++ junk, sched, false⟩ = .ok out ∧
      List.Forall₂ (fun mn mn' => mn'.2 = mn.2 ∧ ∃ edge, calcShortestEdge fo mn.1.vertexTriangles mn.1.vertices = .ok edge ∧
        mn'.1 = loadedMesh fo .checked prec edge mn.1 ∧
        ∀ l, mn.1.vertices = some l → ∃ qs, optVertices fo .checked l = .ok qs ∧ qs.flatten = l) meshes out := by
  exact readTmf_low h ⟨hl.count, hl.names, hl.fits, hl.segments, .inl rfl⟩ hb junk sched

end

end Tmf
