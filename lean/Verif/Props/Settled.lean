import Verif.Lemmas.Prepare
import Verif.Props.Unify
/-
C77: how often meshes need to be reordered and unified.
-/

namespace Tmf.Props
open Spec
variable {F : Type}

theorem not_needed {l : List (Option (List Nat))} {t : List Nat} (h : ∀ o ∈ l, o = none ∨ o = some t) : isMergeNeeded l = false := by
  have hall : ∀ x ∈ l.filterMap id, x = t := by
    intro x hx
    obtain ⟨o, ho, e⟩ := List.mem_filterMap.mp hx
    rcases h o ho with rfl | rfl
    · cases e
    · cases e; rfl
  unfold isMergeNeeded
  cases e : l.filterMap id with
  | nil => rfl
  | cons first rest =>
    rw [e] at hall
    simp only [Bool.not_eq_false', List.all_eq_true, decide_eq_true_eq]
    intro a ha
    rw [hall a (List.mem_cons_of_mem _ ha), hall first List.mem_cons_self]

theorem indexed_some {α : Type} {a : List α} {ia t : List Nat} (h : IndexedBy (some a) (some ia) t) : ia = t :=
  Option.some.inj (h rfl rfl)

theorem smartMerge2_same {A B : Type} {a : Option (List A)} {b : Option (List B)} {ia ib : Option (List Nat)} {t : List Nat}
    (order : Combos → Combos) (ha : IndexedBy a ia t) (hb : IndexedBy b ib t) : smartMerge2 order a b ia ib = .ok (none, none, none) := by
  by_cases hm : isMergeNeeded [ia, ib] = true
  · match a, ia, b, ib with
    | none, _, _, _ => simp [smartMerge2, hm]
    | some _, none, _, _ => simp [smartMerge2, hm]
    | some _, some _, none, _ => simp [smartMerge2, hm]
    | some _, some _, some _, none => simp [smartMerge2, hm]
    | some _, some _, some _, some _ =>
      rw [indexed_some ha, indexed_some hb, not_needed (t := t) (by simp)] at hm
      cases hm
  · simp [smartMerge2, hm]

theorem smartMerge3_same {A B C : Type} {a : Option (List A)} {b : Option (List B)} {c : Option (List C)} {ia ib ic : Option (List Nat)}
    {t : List Nat} (order : Combos → Combos) (ha : IndexedBy a ia t) (hb : IndexedBy b ib t) (hc : IndexedBy c ic t) :
    smartMerge3 order a b c ia ib ic = .ok (none, none, none, none) := by
  rw [smartMerge3.eq_def]
  split
  · next hm =>
    split
    · rw [smartMerge2_same order hb hc]; rfl
    · next na =>
      split
      · rw [smartMerge2_same order ha hc]; rfl
      · next nb =>
        split
        · rw [smartMerge2_same order ha hb]; rfl
        · next nc =>
          obtain ⟨a, ia, rfl, rfl⟩ := noData_false na
          obtain ⟨b, ib, rfl, rfl⟩ := noData_false nb
          obtain ⟨c, ic, rfl, rfl⟩ := noData_false nc
          rw [indexed_some ha, indexed_some hb, indexed_some hc, not_needed (t := t) (by simp)] at hm
          cases hm
  · rfl

theorem smartMerge4_same {A B C D : Type} {a : Option (List A)} {b : Option (List B)} {c : Option (List C)} {d : Option (List D)}
    {ia ib ic id : Option (List Nat)} {t : List Nat} (order : Combos → Combos) (ha : IndexedBy a ia t) (hb : IndexedBy b ib t)
    (hc : IndexedBy c ic t) (hd : IndexedBy d id t) : smartMerge4 order a b c d ia ib ic id = .ok (none, none, none, none, none) := by
  rw [smartMerge4.eq_def]
  split
  · next hm =>
    split
    · rw [smartMerge3_same order hb hc hd]; rfl
    · next na =>
      split
      · rw [smartMerge3_same order ha hc hd]; rfl
      · next nb =>
        split
        · rw [smartMerge3_same order ha hb hd]; rfl
        · next nc =>
          split
          · rw [smartMerge3_same order ha hb hc]; rfl
          · next nd =>
            obtain ⟨a, ia, rfl, rfl⟩ := noData_false na
            obtain ⟨b, ib, rfl, rfl⟩ := noData_false nb
            obtain ⟨c, ic, rfl, rfl⟩ := noData_false nc
            obtain ⟨d, id, rfl, rfl⟩ := noData_false nd
            rw [indexed_some ha, indexed_some hb, indexed_some hc, indexed_some hd, not_needed (t := t) (by simp)] at hm
            cases hm
  · rfl

/-- A unified mesh is left as it is. -/
theorem unify_unified {m : Mesh F} {t : List Nat} (h : Unified m t) (order : Combos → Combos) : m.unifyIndexData order = .ok m := by
  rw [Mesh.unifyIndexData, smartMerge4_same order h.vertices h.normals h.uvs h.tangents]
  rfl

/-- C77, unifying: unifying again changes nothing, whatever the iteration orders of the hash maps are. -/
theorem C77_unify_again (m : Mesh F) (n : Nat) (h : UnifyInput m n) (hn : n ≤ 2 ^ 32) : ∃ m', ∀ order, IterOrder order →
    m.unifyIndexData order = .ok m' ∧ ∀ order', m'.unifyIndexData order' = .ok m' := by
  obtain ⟨m', hm, -, -, -, -, ⟨t, h1, h2, h3, h4⟩, -⟩ := C31_unify_partial m n h hn
  exact ⟨m', fun order ho => ⟨hm order ho, unify_unified (t := t) ⟨h1, h2, h3, h4⟩⟩⟩

theorem reorder_fixed {m : Mesh F} (hv : reorderPair m.vertices m.vertexTriangles = .ok (m.vertices, m.vertexTriangles))
    (hn : reorderPair m.normals m.normalTriangles = .ok (m.normals, m.normalTriangles))
    (hu : reorderPair m.uvs m.uvTriangles = .ok (m.uvs, m.uvTriangles)) : m.reorderData = .ok m := by
  simp [Mesh.reorderData, hv, hn, hu]

/-- A pair that has been reordered stays as it is. -/
theorem reorderPair_settled {α : Type} {a : Option (List α)} {ia : Option (List Nat)} {n : Nat} (h : Slot n a ia) :
    ∃ a' ia', reorderPair a ia = .ok (a', ia') ∧ reorderPair a' ia' = .ok (a', ia') := by
  by_cases hi : ia = some []
  · subst hi
    exact ⟨a, some [], reorderPair_empty a, reorderPair_empty a⟩
  · obtain ⟨a', ia', h1, -, h2⟩ := reorderPair_ok (fun d t hd ht => (h d t hd ht).1) hi
    exact ⟨a', ia', h1, h2⟩

/-- So does one that has been merged, or left out of the merge. -/
theorem takeMerged_settled {α : Type} {a a' : Option (List α)} {ia : Option (List Nat)} {ids : List Nat} (h : SlotOut a ia ids a')
    (hs : reorderPair a ia = .ok (a, ia)) : reorderPair (takeMerged a' ids (a, ia)).1 (takeMerged a' ids (a, ia)).2 =
      .ok (takeMerged a' ids (a, ia)) := by
  cases a' with
  | none => exact hs
  | some d' =>
    obtain ⟨d, t, rfl, rfl, m⟩ := h
    show reorderPair (some d') (some ids) = _
    rw [reorderPair]
    simp only
    rw [optimize_again m.inside m.order]
    rfl

/-- Reordered and then unified, a mesh is left as it is by both. -/
theorem settled (m : Mesh F) (n : Nat) (h : UnifyInput m n) (hn : n ≤ 2 ^ 32) {order : Combos → Combos} (ho : IterOrder order) :
    ∃ m', prepare [.reorder, .unify order] m = .ok m' ∧ m'.reorderData = .ok m' ∧ (∀ order', m'.unifyIndexData order' = .ok m') ∧
      ∃ t, Unified m' t := by
  obtain ⟨v, iv, v1, v2⟩ := reorderPair_settled h.vertices
  obtain ⟨no, ino, n1, n2⟩ := reorderPair_settled h.normals
  obtain ⟨u, iu, u1, u2⟩ := reorderPair_settled h.uvs
  have e1 : m.reorderData = .ok
      { m with vertices := v, vertexTriangles := iv, normals := no, normalTriangles := ino, uvs := u, uvTriangles := iu } := by
    simp [Mesh.reorderData, v1, n1, u1]
  obtain ⟨m1, e1', hlike⟩ := prep_like hn h (s := .reorder) trivial
  have : m1 = { m with vertices := v, vertexTriangles := iv, normals := no, normalTriangles := ino, uvs := u, uvTriangles := iu } := by
    have e : m.reorderData = .ok m1 := e1'
    rw [e1] at e
    exact (Outcome.ok.inj e).symm
  have h' := hlike.input
  rw [this] at h'
  obtain ⟨m2, hm, -, -, -, -, ⟨t, h1, h2, h3, h4⟩, -⟩ := C31_unify_partial _ n h' hn
  have huni : Unified m2 t := ⟨h1, h2, h3, h4⟩
  refine ⟨m2, ?_, ?_, unify_unified huni, t, huni⟩
  · show m.reorderData.bind (fun m => (m.unifyIndexData order).bind _) = _
    rw [e1]
    show (Mesh.unifyIndexData order _).bind _ = _
    rw [hm order ho]
    rfl
  · obtain ⟨v', n', u', t', i, hs, -, hk⟩ := smartMerge4_ok hn h'.vertices h'.normals h'.uvs h'.tangents
    have hmo := hm order ho
    rw [Mesh.unifyIndexData, hs order ho] at hmo
    cases i with
    | none =>
      cases hmo
      exact reorder_fixed v2 n2 u2
    | some ids =>
      obtain ⟨-, ov, on, ou, -⟩ := hk ids rfl
      cases hmo
      exact reorder_fixed (takeMerged_settled ov v2) (takeMerged_settled on n2) (takeMerged_settled ou u2)

/-- C77: a mesh that has been reordered and then unified is not changed by any further steps, whatever the iteration
orders of the hash maps are. -/
theorem C77_settled (m : Mesh F) (n : Nat) (h : UnifyInput m n) (hn : n ≤ 2 ^ 32) {order : Combos → Combos} (ho : IterOrder order) :
    ∃ m', prepare [.reorder, .unify order] m = .ok m' ∧ ∀ rest, prepare rest m' = .ok m' := by
  obtain ⟨m', e, hr, hu, -⟩ := settled m n h hn ho
  refine ⟨m', e, fun rest => ?_⟩
  induction rest with
  | nil => rfl
  | cons s rest ih =>
    have : s.run m' = .ok m' := by
      cases s with
      | reorder => exact hr
      | unify order' => exact hu order'
    rw [prepare, this, Outcome.bind_ok, ih]

theorem reorderPair_indexed {α : Type} {a a' : Option (List α)} {ia ia' : Option (List Nat)} {n : Nat} {t : List Nat} (hs : Slot n a ia)
    (h : IndexedBy a ia t) (hr : reorderPair a ia = .ok (a', ia')) : IndexedBy a' ia' (t.map ((firstUses t).idxOf ·)) := by
  match a, ia with
  | none, ia => cases hr; intro h; cases h
  | some d, none => cases hr; intro _ h; cases h
  | some d, some t' =>
    cases indexed_some h
    by_cases ht : t = []
    · subst ht
      rw [reorderPair_empty] at hr
      cases hr
      intro _ _
      rfl
    · obtain ⟨d', e, -⟩ := optimize_eq (hs d t rfl rfl).1 ht
      rw [reorderPair] at hr
      simp only [e, Outcome.bind_ok] at hr
      cases hr
      intro _ _
      rfl

/-- C77, reordering after unifying: a unified mesh without tangents stays unified. With tangents this is false, see
`C77_violated`. -/
theorem C77_stays_unified_partial (m : Mesh F) (n : Nat) (h : UnifyInput m n) {t : List Nat} (hu : Unified m t)
    (ht : m.tangents = none ∨ m.tangentTriangles = none) : ∃ m' t', m.reorderData = .ok m' ∧ Unified m' t' := by
  obtain ⟨v, iv, v1, -⟩ := reorderPair_settled h.vertices
  obtain ⟨no, ino, n1, -⟩ := reorderPair_settled h.normals
  obtain ⟨u, iu, u1, -⟩ := reorderPair_settled h.uvs
  refine ⟨{ m with vertices := v, vertexTriangles := iv, normals := no, normalTriangles := ino, uvs := u, uvTriangles := iu },
    t.map ((firstUses t).idxOf ·), by simp [Mesh.reorderData, v1, n1, u1], reorderPair_indexed h.vertices hu.vertices v1,
    reorderPair_indexed h.normals hu.normals n1, reorderPair_indexed h.uvs hu.uvs u1, ?_⟩
  show IndexedBy m.tangents m.tangentTriangles _
  intro h1 h2
  rcases ht with ht | ht
  · rw [ht] at h1; cases h1
  · rw [ht] at h2; cases h2

/-- Three vertices and tangents with the same indices, the last element first. -/
def turnedMesh (x : F) : Mesh F :=
  { (Mesh.empty : Mesh F) with
    vertices := some [(x, x, x), (x, x, x), (x, x, x)], vertexTriangles := some [2, 0, 1]
    tangents := some [((x, x, x), x), ((x, x, x), x), ((x, x, x), x)], tangentTriangles := some [2, 0, 1] }

theorem turnedMesh_input (x : F) : UnifyInput (turnedMesh x) 3 := by
  have key : ∀ {α : Type} {a b c : α}, Slot 3 (some [a, b, c]) (some [2, 0, 1]) := by
    intro α a b c d t hd ht
    cases hd
    cases ht
    refine ⟨?_, rfl⟩
    show ∀ i ∈ [2, 0, 1], i < 3 ∧ i < 2 ^ 32
    decide
  exact ⟨key, fun _ _ h => (by cases h), fun _ _ h => (by cases h), key⟩

/-- C77 is false for the other order of steps: `reorder_data` passes over tangents, so a unified mesh with tangents is
no longer unified after reordering, and the next unifying changes it. -/
theorem C77_violated (x : F) {order : Combos → Combos} : UnifyInput (turnedMesh x) 3 ∧ Unified (turnedMesh x) [2, 0, 1] ∧
    ∃ m', prepare [.unify order, .reorder] (turnedMesh x) = .ok m' ∧ m'.vertices.isSome ∧ m'.tangents.isSome ∧
      m'.vertexTriangles = some [0, 1, 2] ∧ m'.tangentTriangles = some [2, 0, 1] ∧ ∀ t, ¬Unified m' t := by
  have hu : Unified (turnedMesh x) [2, 0, 1] := ⟨fun _ _ => rfl, fun h => (by cases h), fun h => (by cases h), fun _ _ => rfl⟩
  refine ⟨turnedMesh_input x, hu, { turnedMesh x with vertexTriangles := some [0, 1, 2] }, ?_, rfl, rfl, rfl, rfl, fun t h => ?_⟩
  · show (Mesh.unifyIndexData order (turnedMesh x)).bind (fun m => m.reorderData.bind _) = _
    rw [unify_unified hu]
    rfl
  · have h1 := h.vertices rfl rfl
    have h2 := h.tangents rfl rfl
    have : (some [0, 1, 2] : Option (List Nat)) = some [2, 0, 1] := h1.trans h2.symm
    exact absurd this (by decide)

/-- The first theorem at work on the same mesh: one round, and then nothing changes. -/
example (x : F) : ∃ m', prepare [.reorder, .unify List.reverse] (turnedMesh x) = .ok m' ∧
    prepare [.unify id, .reorder, .unify List.reverse] m' = .ok m' := by
  obtain ⟨m', h, hr⟩ := C77_settled (turnedMesh x) 3 (turnedMesh_input x) (by decide) (order := List.reverse) (fun c => List.reverse_perm c)
  exact ⟨m', h, hr _⟩

/-- And on the corners, which are given new numbers by the first two steps. -/
example : (prepare [.reorder, .unify id] (turnedMesh ()) : Outcome Empty (Mesh Unit)).bind
    (fun m => .ok (m.vertexTriangles, m.tangentTriangles)) = .ok (some [0, 1, 2], some [0, 1, 2]) := by decide +kernel

/-- Without tangents the mesh stays unified. -/
example (x : F) : ∃ m' t', ({ turnedMesh x with tangents := none } : Mesh F).reorderData = .ok m' ∧ Unified m' t' :=
  C77_stays_unified_partial _ 3 ⟨(turnedMesh_input x).vertices, (turnedMesh_input x).normals, (turnedMesh_input x).uvs, fun _ _ h => (by cases h)⟩
    (t := [2, 0, 1]) ⟨fun _ _ => rfl, fun h => (by cases h), fun h => (by cases h), fun h => (by cases h)⟩ (.inl rfl)

end Tmf.Props
