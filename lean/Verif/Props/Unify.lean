import Verif.Lemmas.Unify
/-
C31: unifying index arrays keeps the geometry.
-/

namespace Tmf.Props
open Spec
variable {F : Type}

/-- C31, for index arrays of at most 2^32 entries. Whatever the iteration order of the hash map,
`unify_index_data` ends without a panic in one and the same mesh `m'`; all buffers are as before,
for tangents too; all index arrays with data are one and the same array `t`; custom data is
untouched. -/
theorem C31_unify_partial (m : Mesh F) (n : Nat) (h : UnifyInput m n) (hn : n ≤ 2 ^ 32) :
    ∃ m', (∀ order, IterOrder order → m.unifyIndexData order = .ok m') ∧
      m'.getVertexBuffer = m.getVertexBuffer ∧ m'.getNormalBuffer = m.getNormalBuffer ∧
      m'.getUvBuffer = m.getUvBuffer ∧
      selected m'.tangents m'.tangentTriangles = selected m.tangents m.tangentTriangles ∧
      (∃ t, IndexedBy m'.vertices m'.vertexTriangles t ∧ IndexedBy m'.normals m'.normalTriangles t ∧
        IndexedBy m'.uvs m'.uvTriangles t ∧ IndexedBy m'.tangents m'.tangentTriangles t) ∧
      m'.customData = m.customData := by
  obtain ⟨v, no, u, ta, i, hm, h0, h1⟩ := smartMerge4_ok hn h.vertices h.normals h.uvs h.tangents
  cases i with
  | none =>
    refine ⟨m, fun order ho => ?_, rfl, rfl, rfl, rfl, ?_, rfl⟩
    · simp [Mesh.unifyIndexData, hm order ho]
    · obtain ⟨t, tv, tn, tu, tt⟩ := h0 rfl
      by_cases hz : n = 0
      · subst hz
        exact ⟨[], zero_indexed h.vertices, zero_indexed h.normals, zero_indexed h.uvs, zero_indexed h.tangents⟩
      · exact ⟨t, onlyIndices_indexed h.vertices hz tv, onlyIndices_indexed h.normals hz tn,
          onlyIndices_indexed h.uvs hz tu, onlyIndices_indexed h.tangents hz tt⟩
  | some ids =>
    obtain ⟨⟨hl, -⟩, ov, on, ou, ot⟩ := h1 ids rfl
    refine ⟨{ m with
      vertices := (takeMerged v ids (m.vertices, m.vertexTriangles)).1
      vertexTriangles := (takeMerged v ids (m.vertices, m.vertexTriangles)).2
      normals := (takeMerged no ids (m.normals, m.normalTriangles)).1
      normalTriangles := (takeMerged no ids (m.normals, m.normalTriangles)).2
      uvs := (takeMerged u ids (m.uvs, m.uvTriangles)).1
      uvTriangles := (takeMerged u ids (m.uvs, m.uvTriangles)).2
      tangents := (takeMerged ta ids (m.tangents, m.tangentTriangles)).1
      tangentTriangles := (takeMerged ta ids (m.tangents, m.tangentTriangles)).2 },
      fun order ho => ?_, ?_, ?_, ?_, ?_, ⟨ids, ?_, ?_, ?_, ?_⟩, rfl⟩
    · simp [Mesh.unifyIndexData, hm order ho]
    · exact selected_buffer h.vertices (takeMerged_selected (n := n) ov)
    · exact selected_buffer h.normals (takeMerged_selected (n := n) on)
    · exact selected_buffer h.uvs (takeMerged_selected (n := n) ou)
    · exact takeMerged_selected (n := n) ot
    · exact takeMerged_indexed h.vertices hl ov
    · exact takeMerged_indexed h.normals hl on
    · exact takeMerged_indexed h.uvs hl ou
    · exact takeMerged_indexed h.tangents hl ot

/-! With more than 2^32 corners the ids no longer fit the `u32` indices. -/

/-- Indices of `N` corners into two arrays, no two corners alike. -/
def wideA (N : Nat) : List Nat := (List.range N).map (· / 2 ^ 17)
def wideB (N : Nat) : List Nat := (List.range N).map (· % 2 ^ 17)

/-- A mesh with `N` corners; normal 0 is `x`, all others are `y`. -/
def wideMesh (N : Nat) (x y : Vec3 F) (z : Vec2 F) : Mesh F :=
  { (Mesh.empty : Mesh F) with
    normals := some ((List.range N).map (fun j => if j = 0 then x else y)), normalTriangles := some (wideA N),
    uvs := some (List.replicate N z), uvTriangles := some (wideB N) }

theorem wideMesh_input {N : Nat} (h : 2 ^ 17 < N) (hN : N < 2 ^ 48) (x y : Vec3 F) (z : Vec2 F) :
    UnifyInput (wideMesh N x y z) N where
  vertices := by intro d t h; cases h
  tangents := by intro d t h; cases h
  normals := by
    intro d t hd ht
    cases hd; cases ht
    refine ⟨?_, by simp [wideA]⟩
    intro i hi
    obtain ⟨j, hj, rfl⟩ := List.mem_map.mp hi
    have hj := List.mem_range.mp hj
    rw [List.length_map, List.length_range]
    omega
  uvs := by
    intro d t hd ht
    cases hd; cases ht
    refine ⟨?_, by simp [wideB]⟩
    intro i hi
    obtain ⟨j, hj, rfl⟩ := List.mem_map.mp hi
    rw [List.length_replicate]
    omega

theorem wide_combo {N k : Nat} (h : k < N) : comboOf [wideA N, wideB N] k = [k / 2 ^ 17, k % 2 ^ 17] := by
  simp [comboOf, wideA, wideB, List.getD, h]

theorem wide_nodup (N : Nat) : ((List.range N).map (comboOf [wideA N, wideB N])).Nodup := by
  refine List.Nodup.map_on ?_ List.nodup_range
  intro i hi j hj e
  rw [wide_combo (List.mem_range.mp hi), wide_combo (List.mem_range.mp hj)] at e
  simp only [List.cons.injEq, and_true] at e
  omega

theorem wide_column0 (N : Nat) : ((List.range N).map (comboOf [wideA N, wideB N])).map (fun c => c.getD 0 0) = wideA N := by
  rw [List.map_map, wideA]
  apply List.map_congr_left
  intro k hk
  rw [Function.comp, ← wideA, wide_combo (List.mem_range.mp hk)]
  rfl

theorem wide_column1 (N : Nat) : ((List.range N).map (comboOf [wideA N, wideB N])).map (fun c => c.getD 1 0) = wideB N := by
  rw [List.map_map, wideB]
  apply List.map_congr_left
  intro k hk
  rw [Function.comp, ← wideB, wide_combo (List.mem_range.mp hk)]
  rfl

theorem wide_ids (N : Nat) : ((List.range N).map (comboOf [wideA N, wideB N])).map
    (fun c => ((List.range N).map (comboOf [wideA N, wideB N])).idxOf c % 2 ^ 32) = (List.range N).map (· % 2 ^ 32) := by
  have := congrArg (List.map (· % 2 ^ 32)) (map_idxOf_self (wide_nodup N))
  rw [List.map_map] at this
  simpa using this

theorem wide_unify (N : Nat) {order : Combos → Combos} (ho : IterOrder order) :
    unifyCommon order [wideA N, wideB N] = .ok ((List.range N).map (· % 2 ^ 32), [wideA N, wideB N]) := by
  rw [unifyCommon_eq (n := N) (by simp) (by simp [wideA, wideB]) ho, firstUses_nodup_eq (wide_nodup N), wide_ids]
  have : (List.range [wideA N, wideB N].length) = [0, 1] := rfl
  rw [this]
  simp only [List.map_cons, List.map_nil]
  rw [wide_column0, wide_column1]

theorem wide_needed {N : Nat} (h : 1 < N) : wideB N ≠ wideA N := by
  intro e
  have := congrArg (fun l => l[1]?) e
  simp [wideA, wideB, h] at this

/-- C31 is false beyond 2^32 corners: the ids are cut to 32 bits, and corners get the wrong normals. -/
theorem C31_violated_wide {N : Nat} (h : 2 ^ 32 < N) (hN : N < 2 ^ 48) {x y : Vec3 F} (hxy : x ≠ y) (z : Vec2 F)
    {order : Combos → Combos} (ho : IterOrder order) :
    UnifyInput (wideMesh N x y z) N ∧ ∃ m', (wideMesh N x y z).unifyIndexData order = .ok m' ∧
      m'.getNormalBuffer ≠ (wideMesh N x y z).getNormalBuffer := by
  refine ⟨wideMesh_input (by omega) hN x y z, ?_⟩
  have hin := wideMesh_input (by omega) hN x y z
  obtain ⟨hrn, _⟩ := hin.normals _ _ rfl rfl
  obtain ⟨hru, _⟩ := hin.uvs _ _ rfl rfl
  obtain ⟨n', hn'⟩ := lookups_inRange hrn
  obtain ⟨u', hu'⟩ := lookups_inRange hru
  have hne : wideB N ≠ wideA N := wide_needed (by omega)
  have hm2 : mergeData2 order (wideA N) (wideB N) ((List.range N).map (fun j => if j = 0 then x else y))
      (List.replicate N z) = .ok ((List.range N).map (· % 2 ^ 32), n', u') := by
    unfold mergeData2
    rw [wide_unify N ho, Outcome.bind_ok]
    simp only
    rw [gather_eq (k := 0) rfl hn', Outcome.bind_ok, gather_eq (k := 1) rfl hu', Outcome.bind_ok]
  have hs2 : smartMerge2 order (some ((List.range N).map (fun j => if j = 0 then x else y)))
      (some (List.replicate N z)) (some (wideA N)) (some (wideB N)) =
        .ok (some n', some u', some ((List.range N).map (· % 2 ^ 32))) := by
    unfold smartMerge2
    rw [if_pos (by simp [isMergeNeeded, hne])]
    simp only
    rw [hm2, Outcome.bind_ok]
  have hnd : noData (some ((List.range N).map (fun j => if j = 0 then x else y))) = false := by
    obtain ⟨M, rfl⟩ : ∃ M, N = M + 1 := ⟨N - 1, by omega⟩
    rw [List.range_succ_eq_map]; rfl
  have hud : noData (some (List.replicate N z)) = false := by
    obtain ⟨M, rfl⟩ : ∃ M, N = M + 1 := ⟨N - 1, by omega⟩
    rfl
  have hs3 : smartMerge3 order (some ((List.range N).map (fun j => if j = 0 then x else y)))
      (some (List.replicate N z)) (none : Option (List (Tangent F))) (some (wideA N)) (some (wideB N)) none =
        .ok (some n', some u', none, some ((List.range N).map (· % 2 ^ 32))) := by
    rw [smartMerge3.eq_def, if_pos (by simp [isMergeNeeded, hne]), if_neg (by simp [hnd]), if_neg (by simp [hud]),
      if_pos (by rfl), hs2, Outcome.bind_ok]
  have hs4 : (wideMesh N x y z).unifyIndexData order = .ok { (wideMesh N x y z) with
      normals := some n', normalTriangles := some ((List.range N).map (· % 2 ^ 32))
      uvs := some u', uvTriangles := some ((List.range N).map (· % 2 ^ 32)) } := by
    unfold Mesh.unifyIndexData
    have : smartMerge4 order (wideMesh N x y z).vertices (wideMesh N x y z).normals (wideMesh N x y z).uvs
        (wideMesh N x y z).tangents (wideMesh N x y z).vertexTriangles (wideMesh N x y z).normalTriangles
        (wideMesh N x y z).uvTriangles (wideMesh N x y z).tangentTriangles =
        .ok (none, some n', some u', none, some ((List.range N).map (· % 2 ^ 32))) := by
      rw [smartMerge4.eq_def, if_pos (by simp [isMergeNeeded, hne, wideMesh, Mesh.empty]), if_pos (by rfl)]
      show (smartMerge3 order (some ((List.range N).map (fun j => if j = 0 then x else y)))
        (some (List.replicate N z)) (none : Option (List (Tangent F))) (some (wideA N)) (some (wideB N)) none >>= _) = _
      rw [hs3]; rfl
    rw [this]; rfl
  refine ⟨_, hs4, ?_⟩
  intro e
  have hlen : n'.length = N := by
    have := congrArg List.length hn'
    simpa [lookups, wideA] using this.symm
  have e := bufferLoop_lookups (d' := n') (t' := (List.range N).map (· % 2 ^ 32)) hrn ?_ e
  · have e := congrArg (fun l => l[2 ^ 32]?) e
    have e0 := congrArg (fun l => l[0]?) hn'
    have h0 : 0 < N := by omega
    have h15 : 2 ^ 32 / 2 ^ 17 < N := by omega
    simp only [lookups, wideA, List.getElem?_map, List.getElem?_range h, List.getElem?_range h0, Option.map_some,
      Nat.zero_div, Nat.mod_self] at e e0
    rw [List.getElem?_range h15] at e
    simp only [Option.map_some, Option.some.injEq] at e
    rw [e] at e0
    simp at e0
    exact hxy e0
  · intro i hi
    obtain ⟨j, hj, rfl⟩ := List.mem_map.mp hi
    have hj := List.mem_range.mp hj
    rw [hlen]
    omega

/-! Empty data arrays whose index array may hold anything, indices out of range among it. -/

/-- An empty vertex array counts as none: the rest of the mesh becomes the same, or panics the same. -/
theorem C31_empty_vertices (m : Mesh F) (order : Combos → Combos) :
    ({ m with vertices := some [] } : Mesh F).unifyIndexData order =
      ({ m with vertices := none } : Mesh F).unifyIndexData order >>= fun m' => .ok { m' with vertices := some [] } := by
  simp only [Mesh.unifyIndexData, smartMerge4, noData, Bool.true_or, if_true]
  split
  · cases smartMerge3 order m.normals m.uvs m.tangents m.normalTriangles m.uvTriangles m.tangentTriangles with
    | ok r => obtain ⟨b, c, d, _ | i⟩ := r <;> rfl
    | err e => cases e
    | panic => rfl
  · rfl

/-- So does an empty normal array. -/
theorem C31_empty_normals (m : Mesh F) (order : Combos → Combos) :
    ({ m with normals := some [] } : Mesh F).unifyIndexData order =
      ({ m with normals := none } : Mesh F).unifyIndexData order >>= fun m' => .ok { m' with normals := some [] } := by
  have h3 : smartMerge3 order (some ([] : List (Vec3 F))) m.uvs m.tangents m.normalTriangles m.uvTriangles m.tangentTriangles =
      smartMerge3 order none m.uvs m.tangents m.normalTriangles m.uvTriangles m.tangentTriangles := by
    simp only [smartMerge3, noData, Bool.true_or, if_true]
  have hb : ∀ r, smartMerge3 order none m.uvs m.tangents m.normalTriangles m.uvTriangles m.tangentTriangles = .ok r →
      r.1 = (none : Option (List (Vec3 F))) := by
    intro r hr
    simp only [smartMerge3, noData, Bool.true_or, if_true] at hr
    split at hr
    · cases h2 : smartMerge2 order m.uvs m.tangents m.uvTriangles m.tangentTriangles with
      | ok x => rw [h2] at hr; cases hr; rfl
      | err e => cases e
      | panic => rw [h2] at hr; cases hr
    · cases hr; rfl
  simp only [Mesh.unifyIndexData, smartMerge4, h3]
  split
  · split
    · cases h : smartMerge3 order none m.uvs m.tangents m.normalTriangles m.uvTriangles m.tangentTriangles with
      | ok r =>
        have hb := hb r h
        obtain ⟨b, c, d, i⟩ := r
        cases hb
        cases i <;> rfl
      | err e => cases e
      | panic => rfl
    · simp only [noData, Bool.true_or, if_true]
      cases smartMerge3 order m.vertices m.uvs m.tangents m.vertexTriangles m.uvTriangles m.tangentTriangles with
      | ok r => obtain ⟨b, c, d, _ | i⟩ := r <;> rfl
      | err e => cases e
      | panic => rfl
  · rfl

/-- An empty tangent array does not: when two other arrays are missing, nothing looks whether it is empty, and its
indices are used. Without the empty array the same mesh is left as it is. -/
theorem C31_empty_tangents_panics (m : Mesh F) (x : Vec3 F) {order : Combos → Combos} (ho : IterOrder order) :
    ({ m with vertices := none, uvs := none, normals := some [x], normalTriangles := some [0], tangents := some []
              tangentTriangles := some [1] } : Mesh F).unifyIndexData order = .panic ∧
      ({ m with vertices := none, uvs := none, normals := some [x], normalTriangles := some [0], tangents := none
                tangentTriangles := some [1] } : Mesh F).unifyIndexData order =
        .ok { m with vertices := none, uvs := none, normals := some [x], normalTriangles := some [0], tangents := none
                     tangentTriangles := some [1] } := by
  have needed4 : ∀ p q : Option (List Nat), isMergeNeeded [p, some [0], q, some [1]] = true := by
    intro p q
    rcases p with _ | p <;> rcases q with _ | q <;> simp [isMergeNeeded] <;> by_cases h : [0] = p <;>
      first | (subst h; simp) | exact Or.inl h
  have needed3 : ∀ q : Option (List Nat), isMergeNeeded [some [0], q, some [1]] = true := by
    intro q
    rcases q with _ | q <;> simp [isMergeNeeded]
  have hm : smartMerge2 order (some [x]) (some ([] : List (Tangent F))) (some [0]) (some [1]) = .panic := by
    have hu := unifyCommon_eq (indices := [[0], [1]]) (n := 1) (by simp) (by simp) ho
    rw [smartMerge2, if_pos (by decide)]
    simp only [mergeData2]
    rw [hu]
    rfl
  have h2 : smartMerge2 order (some [x]) (none : Option (List (Tangent F))) (some [0]) (some [1]) = .ok (none, none, none) := by
    rw [smartMerge2.eq_def, if_pos (by decide)]
  constructor
  · simp only [Mesh.unifyIndexData, smartMerge4, smartMerge3, needed4, needed3, noData, Bool.true_or, Bool.false_or,
      Option.isNone_some, if_true, Bool.false_eq_true, if_false, hm]
    rfl
  · simp only [Mesh.unifyIndexData, smartMerge4, smartMerge3, needed4, needed3, noData, Bool.true_or, Bool.false_or,
      Option.isNone_some, if_true, Bool.false_eq_true, if_false, h2]
    rfl

/-- Three corners; the first two share vertex and normal. -/
def cornersMesh : Mesh Nat :=
  { (Mesh.empty : Mesh Nat) with
    vertices := some [(1, 1, 1), (2, 2, 2)], vertexTriangles := some [1, 1, 0]
    normals := some [(7, 7, 7), (8, 8, 8), (9, 9, 9)], normalTriangles := some [2, 2, 1] }

example : UnifyInput cornersMesh 3 where
  vertices := by intro d t h h'; cases h; cases h'; exact ⟨by unfold InRange; decide, rfl⟩
  normals := by intro d t h h'; cases h; cases h'; exact ⟨by unfold InRange; decide, rfl⟩
  uvs := by intro d t h; cases h
  tangents := by intro d t h; cases h

example : IterOrder id ∧ IterOrder List.reverse := ⟨fun c => List.Perm.refl c, fun c => List.reverse_perm c⟩

/-- Both orders give the same mesh. -/
example : cornersMesh.unifyIndexData id = .ok { cornersMesh with
    vertices := some [(2, 2, 2), (1, 1, 1)], vertexTriangles := some [0, 0, 1]
    normals := some [(9, 9, 9), (8, 8, 8)], normalTriangles := some [0, 0, 1] } := by decide
/-- Vertices gone, their indices kept: the normals and uvs are merged as if there had never been vertices. -/
example : ({ cornersMesh with vertices := some [], vertexTriangles := some [5, 6], uvs := some [(0, 0)]
                              uvTriangles := some [0, 0, 0] } : Mesh Nat).unifyIndexData id =
    .ok { cornersMesh with
      vertices := some [], vertexTriangles := some [5, 6]
      normals := some [(9, 9, 9), (8, 8, 8)], normalTriangles := some [0, 0, 1]
      uvs := some [(0, 0), (0, 0)], uvTriangles := some [0, 0, 1] } := by decide
example : cornersMesh.unifyIndexData List.reverse = cornersMesh.unifyIndexData id := by decide

end Tmf.Props
