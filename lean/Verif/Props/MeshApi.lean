import Verif.Lemmas.MeshApi
/-
C13, C26, C27: custom data lookup, set/append/get, expanded buffers.
-/

namespace Tmf.Props
open Spec
variable {F : Type}

/-! ### C26 -/

/-- C26. After any history of set and append calls on a new mesh, each getter returns what was
last set followed by everything appended since, independent of calls on the other arrays. -/
theorem C26_get_after_history (h : List (MeshCall F)) (a : ArrayName) :
    getArr (h.foldl perform Mesh.empty) a = content a h := by
  induction h using List.reverseRecOn with
  | nil => cases a <;> rfl
  | append_singleton h c ih =>
    rw [List.foldl_append, List.foldl_cons, List.foldl_nil, getArr_perform, ih]
    unfold content callsOn
    rw [List.filterMap_append, List.reverse_append]
    by_cases e : c.array = a
    · rw [dif_pos e]
      simp only [List.filterMap_cons, dif_pos e, List.filterMap_nil, List.reverse_cons, List.reverse_nil,
        List.nil_append, List.cons_append]
      cases hc : (e ▸ c.call : ArrayCall (a.Elem F)) <;> rfl
    · rw [dif_neg e]
      simp only [List.filterMap_cons, dif_neg e, List.filterMap_nil, List.reverse_nil, List.nil_append]

/-- C26. A set call returns the previous content. -/
theorem C26_set_returns_previous (h : List (MeshCall F)) (a : ArrayName) (l : List (a.Elem F)) :
    (setArr (h.foldl perform Mesh.empty) a l).2 = content a h := by
  rw [← C26_get_after_history]
  cases a <;> rfl

/-- A history where sets and appends on two arrays are mixed. -/
example : content (F := Nat) .uvTriangles
    [⟨.uvTriangles, .append [1]⟩, ⟨.uvTriangles, .set [2, 3]⟩, ⟨.uvs, .append [(7, 7)]⟩, ⟨.uvTriangles, .append [4]⟩]
    = some [2, 3, 4] := by decide

/-! ### C27 -/

/-- C27. The vertex buffer is the indexed lookup. -/
theorem C27_vertex_buffer (m : Mesh F) : IsBuffer m.getVertices m.getVertexTriangles m.getVertexBuffer :=
  isBuffer_of_loop _ _ _ rfl
/-- C27. The normal buffer is the indexed lookup. -/
theorem C27_normal_buffer (m : Mesh F) : IsBuffer m.getNormals m.getNormalTriangles m.getNormalBuffer :=
  isBuffer_of_loop _ _ _ rfl
/-- C27. The uv buffer is the indexed lookup. -/
theorem C27_uv_buffer (m : Mesh F) : IsBuffer m.getUvs m.getUvTriangles m.getUvBuffer :=
  isBuffer_of_loop _ _ _ rfl

example : (((Mesh.empty (F := Nat)).setUvs [(1, 2), (3, 4)]).1.setUvTriangles [1, 0, 1]).1.getUvBuffer
    = some [(3, 4), (1, 2), (3, 4)] := by decide
example : (((Mesh.empty (F := Nat)).setUvs [(1, 2), (3, 4)]).1.setUvTriangles [1, 2]).1.getUvBuffer
    = none := by decide

/-! ### C13 -/

/-- C13. Adding fails exactly when the name is empty or longer than 255 bytes. -/
theorem C13_add_fails_exactly (m : Mesh F) (d : CustomData F) (name : List UInt8) :
    ((m.addCustomData d name).2 = .err .noName ↔ name = []) ∧
    ((m.addCustomData d name).2 = .err .nameTooLong ↔ 255 < name.length) ∧
    ((m.addCustomData d name).2 = .ok () ↔ name ≠ [] ∧ name.length ≤ 255) := by
  unfold Mesh.addCustomData CustomSeg.new
  by_cases h1 : name.length > 255
  · have : name ≠ [] := by rintro rfl; simp at h1
    simp [h1, this]
  · by_cases h2 : name = []
    · subst h2; simp
    · have : name.length ≠ 0 := by simpa using h2
      simp [h1, h2, this]
      omega

/-- C13. A failed addition leaves the mesh unchanged. -/
theorem C13_failed_add_unchanged (m : Mesh F) (d : CustomData F) (name : List UInt8)
    (h : (m.addCustomData d name).2 ≠ .ok ()) : (m.addCustomData d name).1 = m := by
  unfold Mesh.addCustomData at h ⊢
  split <;> simp_all

/-- C13. After any history of additions (some of which may have failed), looking up a name returns
what the mesh already had under that name or else the first data added under exactly that name. -/
theorem C13_lookup_first (m : Mesh F) (adds : List (CustomData F × List UInt8)) (name : List UInt8)
    (hname : name ≠ [] ∧ name.length ≤ 255) :
    (addAll m adds).lookupCustomData name
      = (m.lookupCustomData name).or ((adds.find? (fun p => p.2 == name)).map Prod.fst) := by
  have hn : ¬ name.length > 255 := by omega
  simp only [Mesh.lookupCustomData, if_neg hn]
  induction adds generalizing m with
  | nil => simp [addAll]
  | cons p adds ih =>
    have : addAll m (p :: adds) = addAll (m.addCustomData p.1 p.2).1 adds := rfl
    rw [this, ih, List.find?_cons]
    by_cases hp : p.2 = name
    · obtain ⟨d, n⟩ := p
      dsimp only at hp ⊢
      subst hp
      have hok : CustomSeg.new d n = .ok ⟨n, d⟩ := by
        rw [CustomSeg.new, if_neg hn, if_neg (by simpa using hname.1)]
      simp only [Mesh.addCustomData, hok, Mesh.addCustomDataSeg, lookupLoop_append, Mesh.lookupLoop, beq_self_eq_true,
        and_self, if_true, Option.map_some, Option.or_assoc, Option.some_or]
    · have hb : (p.2 == name) = false := by simpa using hp
      rw [hb]
      have : Mesh.lookupLoop name (m.addCustomData p.1 p.2).1.customData = Mesh.lookupLoop name m.customData := by
        unfold Mesh.addCustomData CustomSeg.new
        by_cases h1 : p.2.length > 255
        · simp [h1]
        · by_cases h2 : p.2.length = 0
          · simp [h2]
          · simp only [h1, h2, if_false, Mesh.addCustomDataSeg, lookupLoop_append, Mesh.lookupLoop]
            rw [if_neg (by rintro ⟨_, h⟩; exact hp h.symm)]
            simp
      rw [this]

/-- C13. On a new mesh a lookup of a name under which nothing was added returns `None`, as does one
of a name that cannot be added. -/
theorem C13_lookup_none (adds : List (CustomData F × List UInt8)) (name : List UInt8)
    (h : (∀ p ∈ adds, p.2 ≠ name) ∨ name = [] ∨ 255 < name.length) :
    (addAll Mesh.empty adds).lookupCustomData name = none := by
  by_cases hname : name ≠ [] ∧ name.length ≤ 255
  · rw [C13_lookup_first _ _ _ hname]
    rcases h with h | h | h
    · have : adds.find? (fun p => p.2 == name) = none := by
        rw [List.find?_eq_none]; intro p hp; simpa using h p hp
      rw [this]
      simp [Mesh.lookupCustomData, Mesh.empty, Mesh.lookupLoop]
    · exact absurd h hname.1
    · omega
  · by_cases h255 : name.length > 255
    · simp [Mesh.lookupCustomData, h255]
    · have hnil : name = [] := by
        by_contra h0
        exact hname ⟨h0, by omega⟩
      subst hnil
      have key : ∀ (adds : List (CustomData F × List UInt8)) (m : Mesh F), (∀ s ∈ m.customData, s.name ≠ []) →
          ∀ s ∈ (addAll m adds).customData, s.name ≠ [] := by
        intro adds
        induction adds with
        | nil => intro m hm; exact hm
        | cons p adds ih =>
          intro m hm
          apply ih
          unfold Mesh.addCustomData CustomSeg.new
          by_cases h1 : p.2.length > 255
          · simpa [h1] using hm
          · by_cases h2 : p.2.length = 0
            · simpa [h1, h2] using hm
            · simp only [h1, h2, if_false, Mesh.addCustomDataSeg]
              intro s hs
              rcases List.mem_append.mp hs with hs | hs
              · exact hm s hs
              · simp at hs; subst hs; simpa using h2
      have := key adds Mesh.empty (by simp [Mesh.empty])
      simp only [Mesh.lookupCustomData, List.length_nil, gt_iff_lt, Nat.not_lt_zero, if_false]
      generalize (addAll Mesh.empty adds).customData = l at this
      induction l with
      | nil => rfl
      | cons s l ih =>
        rw [Mesh.lookupLoop, if_neg]
        · exact ih (fun s hs => this s (by simp [hs]))
        · rintro ⟨_, h⟩; exact this s (by simp) h.symm

example : (addAll (F := Nat) Mesh.empty [(.index [1] 1, [97]), (.index [2] 2, []), (.index [3] 3, [98]), (.index [4] 4, [97])]).lookupCustomData [97]
    = some (.index [1] 1) := by decide

end Tmf.Props
