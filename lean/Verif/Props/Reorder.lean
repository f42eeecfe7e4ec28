import Verif.Lemmas.Reorder
/-
C30 and C32: reordering and pruning keep the geometry.
-/

namespace Tmf.Props
open Spec
variable {F : Type}

/-! ### C30 -/

/-- The meshes C30 speaks about: indices of vertices, normals and uvs are in range. -/
structure ReorderInput (m : Mesh F) : Prop where
  vertices : PairInRange m.vertices m.vertexTriangles
  normals : PairInRange m.normals m.normalTriangles
  uvs : PairInRange m.uvs m.uvTriangles

/-- C30, for meshes without empty index arrays. `reorder_data` does not panic; the buffers stay the
same; in each reordered pair every element is used, elements are numbered in order of first use and
the data did not grow (`PairReordered`); a second call changes nothing; tangents and custom data
are untouched. -/
theorem C30_reorder_partial (m : Mesh F) (h : ReorderInput m) (hv : m.vertexTriangles ≠ some [])
    (hn : m.normalTriangles ≠ some []) (hu : m.uvTriangles ≠ some []) :
    ∃ m', m.reorderData = .ok m' ∧
      m'.getVertexBuffer = m.getVertexBuffer ∧ m'.getNormalBuffer = m.getNormalBuffer ∧
      m'.getUvBuffer = m.getUvBuffer ∧
      PairReordered m.vertices m.vertexTriangles m'.vertices m'.vertexTriangles ∧
      PairReordered m.normals m.normalTriangles m'.normals m'.normalTriangles ∧
      PairReordered m.uvs m.uvTriangles m'.uvs m'.uvTriangles ∧
      m'.reorderData = .ok m' ∧
      m'.tangents = m.tangents ∧ m'.tangentTriangles = m.tangentTriangles ∧ m'.customData = m.customData := by
  obtain ⟨v, vt, ev, rv, av⟩ := reorderPair_ok h.vertices hv
  obtain ⟨n, nt, en, rn, an⟩ := reorderPair_ok h.normals hn
  obtain ⟨u, ut, eu, ru, au⟩ := reorderPair_ok h.uvs hu
  refine ⟨{ m with vertices := v, vertexTriangles := vt, normals := n, normalTriangles := nt, uvs := u, uvTriangles := ut },
    ?_, PairReordered.buffer h.vertices rv, PairReordered.buffer h.normals rn, PairReordered.buffer h.uvs ru, rv, rn, ru, ?_, rfl, rfl, rfl⟩
  · simp [Mesh.reorderData, ev, en, eu]
  · simp [Mesh.reorderData, av, an, au]

/-- C30 without the condition on empty index arrays, and without the claim that every element is
used afterwards. -/
theorem C30_reorder_any (m : Mesh F) (h : ReorderInput m) :
    ∃ m', m.reorderData = .ok m' ∧
      m'.getVertexBuffer = m.getVertexBuffer ∧ m'.getNormalBuffer = m.getNormalBuffer ∧
      m'.getUvBuffer = m.getUvBuffer ∧ m'.reorderData = .ok m' ∧
      (m'.vertices.map List.length).getD 0 ≤ (m.vertices.map List.length).getD 0 ∧
      (m'.normals.map List.length).getD 0 ≤ (m.normals.map List.length).getD 0 ∧
      (m'.uvs.map List.length).getD 0 ≤ (m.uvs.map List.length).getD 0 ∧
      m'.tangents = m.tangents ∧ m'.tangentTriangles = m.tangentTriangles ∧ m'.customData = m.customData := by
  have key : ∀ {α : Type} {data : Option (List α)} {indices : Option (List Nat)}, PairInRange data indices →
      ∃ data' indices', reorderPair data indices = .ok (data', indices') ∧
        reorderPair data' indices' = .ok (data', indices') ∧
        (do let d ← data'; let t ← indices'; Mesh.bufferLoop d t []) = (do let d ← data; let t ← indices; Mesh.bufferLoop d t []) ∧
        (data'.map List.length).getD 0 ≤ (data.map List.length).getD 0 := by
    intro α data indices h
    by_cases he : indices = some []
    · subst he
      exact ⟨_, _, reorderPair_empty data, reorderPair_empty data, rfl, le_refl _⟩
    · obtain ⟨d', t', e, r, a⟩ := reorderPair_ok h he
      refine ⟨d', t', e, a, PairReordered.buffer h r, ?_⟩
      match data, indices with
      | none, _ => rw [r.1]
      | some _, none => rw [r.1]
      | some d, some t =>
        obtain ⟨d', t', rfl, rfl, hre⟩ := r
        exact hre.shorter
  obtain ⟨v, vt, ev, av, bv, lv⟩ := key h.vertices
  obtain ⟨n, nt, en, an, bn, ln⟩ := key h.normals
  obtain ⟨u, ut, eu, au, bu, lu⟩ := key h.uvs
  refine ⟨{ m with vertices := v, vertexTriangles := vt, normals := n, normalTriangles := nt, uvs := u, uvTriangles := ut },
    ?_, bv, bn, bu, ?_, lv, ln, lu, rfl, rfl, rfl⟩
  · simp [Mesh.reorderData, ev, en, eu]
  · simp [Mesh.reorderData, av, an, au]

/-- C30 is false as stated: with an empty index array all data stays although none of it is used. -/
theorem C30_unused_violated (uvs : List (Vec2 F)) (h : uvs ≠ []) :
    ∃ m m' : Mesh F, ReorderInput m ∧ m.reorderData = .ok m' ∧
      ∃ d t, m'.uvs = some d ∧ m'.uvTriangles = some t ∧ ∃ k, k < d.length ∧ k ∉ t := by
  refine ⟨{ (Mesh.empty : Mesh F) with uvs := some uvs, uvTriangles := some [] },
    { (Mesh.empty : Mesh F) with uvs := some uvs, uvTriangles := some [] }, ⟨?_, ?_, ?_⟩, ?_,
    uvs, [], rfl, rfl, 0, List.length_pos_iff.mpr h, by simp⟩
  · intro d t h; cases h
  · intro d t h; cases h
  · intro d t h ht i hi
    cases ht; cases hi
  · simp [Mesh.reorderData, reorderPair, Mesh.empty, optimizeTriangleIndices]

/-- Two of four uvs are used, the later one first; one twice. -/
example : ({ (Mesh.empty : Mesh Nat) with uvs := some [(0, 0), (1, 1), (2, 2), (3, 3)], uvTriangles := some [3, 1, 3] }).reorderData
    = .ok { (Mesh.empty : Mesh Nat) with uvs := some [(3, 3), (1, 1)], uvTriangles := some [0, 1, 0] } := by decide
example : ReorderInput { (Mesh.empty : Mesh Nat) with uvs := some [(0, 0), (1, 1), (2, 2), (3, 3)], uvTriangles := some [3, 1, 3] } where
  vertices := by intro d t h; cases h
  normals := by intro d t h; cases h
  uvs := by
    intro d t h h'
    cases h; cases h'
    intro i hi
    simp at hi ⊢
    omega

/-! ### C32 -/

/-- C32. Pruning never panics, keeps the number of indices, and every index names the same element
as before; an index outside the data stays outside. -/
theorem C32_prune {α : Type} (b : Build) (data : List α) (indices : List Nat) :
    ∃ data' indices', fastPrune b data indices = .ok (data', indices') ∧
      indices'.length = indices.length ∧ lookups data' indices' = lookups data indices ∧
      (∃ dropped, data = dropped ++ data' ∧ ∀ k, k < dropped.length → k ∉ indices) := by
  unfold fastPrune
  cases hp : pruneMin indices (if indices = [] then 0 else data.length % 2 ^ 32) with
  | none => exact ⟨data, indices, rfl, rfl, rfl, [], rfl, by simp⟩
  | some m =>
    obtain ⟨hm, hi⟩ := pruneMin_spec _ hp
    have hle : m ≤ data.length := by
      split_ifs at hm with he
      · omega
      · exact hm.trans (Nat.mod_le _ _)
    have hsub : ∀ i ∈ indices, subU32 b i m = .ok (i - m) := by
      intro i h
      rw [subU32.eq_def, if_pos (hi i h)]
    refine ⟨data.drop m, indices.map (· - m), ?_, by simp, ?_, data.take m, (List.take_append_drop m data).symm, ?_⟩
    · show (if m ≤ data.length then _ else _) = _
      rw [if_pos hle, mapAll_of_ok hsub, Outcome.bind_ok]
    · unfold lookups
      rw [List.map_map]
      apply List.map_congr_left
      intro i h
      have := hi i h
      show (data.drop m)[i - m]? = _
      rw [List.getElem?_drop]
      congr 1
      omega
    · intro k hk hmem
      rw [List.length_take] at hk
      have := hi k hmem
      omega

/-- C32: when something is used, the first remaining element is in use. -/
theorem C32_prune_first {α : Type} (b : Build) (data : List α) (indices : List Nat) (hne : indices ≠ [])
    (hi : InRange data.length indices) (hl : data.length < 2 ^ 32) {data' : List α} {indices' : List Nat}
    (h : fastPrune b data indices = .ok (data', indices')) : 0 ∈ indices' := by
  unfold fastPrune at h
  rw [if_neg hne, Nat.mod_eq_of_lt hl] at h
  cases hp : pruneMin indices data.length with
  | none =>
    rw [hp] at h
    cases h
    exact pruneMin_none _ hp
  | some m =>
    rw [hp] at h
    obtain ⟨hm, hge⟩ := pruneMin_spec _ hp
    have hsub : ∀ i ∈ indices, subU32 b i m = .ok (i - m) := by
      intro i h
      rw [subU32.eq_def, if_pos (hge i h)]
    simp only [if_pos hm, mapAll_of_ok hsub, Outcome.bind_ok] at h
    cases h
    have : m ∈ indices := by
      obtain ⟨j, hj⟩ := List.exists_mem_of_ne_nil _ hne
      rcases pruneMin_mem _ hp with e | e
      · have := hge j hj
        have := (hi j hj).1
        omega
      · exact e
    exact List.mem_map.mpr ⟨m, this, Nat.sub_self m⟩

example : fastPrune .checked ['a', 'b', 'c', 'd'] [3, 2, 3] = .ok (['c', 'd'], [1, 0, 1]) := by decide
example : fastPrune .checked ['a', 'b', 'c', 'd'] [3, 0, 2] = .ok (['a', 'b', 'c', 'd'], [3, 0, 2]) := by decide
example : fastPrune .checked ['a', 'b'] [9, 7] = .ok ([], [7, 5]) := by decide

end Tmf.Props
