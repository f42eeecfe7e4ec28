import Verif.Model.Unify
import Verif.Lemmas.Reorder
import Verif.Spec.Unify
/-
Lemmas about `unify_index_data`.
-/

namespace Tmf
open Spec

/-! ### The combination loop -/

/-- The combination of indices at a position. -/
def comboOf (indices : List (List Nat)) (k : Nat) : List Nat := indices.map (fun arr => arr.getD k 0)

theorem comboAt_eq {indices : List (List Nat)} {k : Nat} (h : ∀ arr ∈ indices, k < arr.length) :
    comboAt indices k = .ok (comboOf indices k) := by
  unfold comboAt comboOf
  apply mapAll_of_ok
  intro arr ha
  rw [List.getElem?_eq_getElem (h arr ha)]
  simp [List.getD, h arr ha]

theorem lookup_zipIdx {used : List (List Nat)} (c : List Nat) : ∀ (s : Nat),
    (used.zipIdx s).lookup c = if c ∈ used then some (s + used.idxOf c) else none := by
  induction used with
  | nil => intro s; simp
  | cons u used ih =>
    intro s
    rw [List.zipIdx_cons, List.lookup_cons]
    by_cases e : c = u
    · subst e; simp
    · have e' : (c == u) = false := by simpa using e
      rw [e', ih, List.idxOf_cons_ne _ (Ne.symm e)]
      by_cases hm : c ∈ used
      · simp only [List.mem_cons, hm, or_true, if_true, Option.some.injEq]; omega
      · simp [e, hm]

theorem entry_eq {used : List (List Nat)} (c : List Nat) :
    Combos.entry (used.zipIdx 0) c used.length = ((useStep used c).idxOf c, (useStep used c).zipIdx 0, (useStep used c).length) := by
  unfold Combos.entry useStep
  rw [lookup_zipIdx]
  by_cases h : c ∈ used
  · rw [if_pos h, if_pos h]; simp
  · rw [if_neg h, if_neg h]
    simp only
    rw [List.zipIdx_append, List.idxOf_append_of_notMem h]
    simp

/-- Entries keep their place when more follow. -/
theorem idxOf_foldl_useStep (l : List (List Nat)) : ∀ {used : List (List Nat)} {c : List Nat}, c ∈ used →
    (l.foldl useStep used).idxOf c = used.idxOf c := by
  induction l with
  | nil => intro used c _; rfl
  | cons i l ih =>
    intro used c h
    rw [List.foldl_cons]
    have hm : c ∈ useStep used i := by
      unfold useStep; split_ifs
      · exact h
      · exact List.mem_append_left _ h
    rw [ih hm]
    unfold useStep; split_ifs
    · rfl
    · exact List.idxOf_append_of_mem h

theorem comboLoop_eq {indices : List (List Nat)} (l : List Nat) : ∀ {used : List (List Nat)},
    (∀ k ∈ l, ∀ arr ∈ indices, k < arr.length) →
    comboLoop indices l (used.zipIdx 0) used.length =
      .ok ((l.map (comboOf indices)).map (fun c => ((l.map (comboOf indices)).foldl useStep used).idxOf c % 2 ^ 32),
        ((l.map (comboOf indices)).foldl useStep used).zipIdx 0) := by
  induction l with
  | nil => intro used _; rfl
  | cons k l ih =>
    intro used h
    have e1 := comboAt_eq (h k List.mem_cons_self)
    have e2 := ih (used := useStep used (comboOf indices k)) (fun j hj => h j (List.mem_cons_of_mem _ hj))
    have hm : comboOf indices k ∈ useStep used (comboOf indices k) := by
      unfold useStep; split_ifs with hh
      · exact hh
      · simp
    rw [comboLoop, e1, Outcome.bind_ok]
    simp only [entry_eq]
    rw [e2, Outcome.bind_ok]
    simp only [List.map_cons, List.foldl_cons]
    rw [idxOf_foldl_useStep _ hm]

/-! ### Sorting -/

theorem insertById_perm (e : List Nat × Nat) (l : Combos) : (insertById e l).Perm (e :: l) := by
  induction l with
  | nil => exact List.Perm.refl _
  | cons x l ih =>
    unfold insertById
    split_ifs
    · exact List.Perm.refl _
    · exact (List.Perm.cons x ih).trans (List.Perm.swap e x l)

theorem sortById_perm (l : Combos) : (sortById l).Perm l := by
  induction l with
  | nil => exact List.Perm.refl _
  | cons e l ih => exact (insertById_perm e _).trans (List.Perm.cons e ih)

theorem insertById_sorted (e : List Nat × Nat) (l : Combos) (h : l.Pairwise (fun a b => a.2 ≤ b.2)) :
    (insertById e l).Pairwise (fun a b => a.2 ≤ b.2) := by
  induction l with
  | nil => simp [insertById]
  | cons x l ih =>
    obtain ⟨hx, hl⟩ := List.pairwise_cons.mp h
    unfold insertById
    split_ifs with hle
    · refine List.pairwise_cons.mpr ⟨?_, h⟩
      intro a ha
      rcases List.mem_cons.mp ha with rfl | ha
      · exact hle
      · exact hle.trans (hx a ha)
    · refine List.pairwise_cons.mpr ⟨?_, ih hl⟩
      intro a ha
      rcases List.mem_cons.mp ((insertById_perm e l).mem_iff.mp ha) with rfl | ha
      · omega
      · exact hx a ha

theorem sortById_sorted (l : Combos) : (sortById l).Pairwise (fun a b => a.2 ≤ b.2) := by
  induction l with
  | nil => exact List.Pairwise.nil
  | cons e l ih => exact insertById_sorted e _ ih

theorem zipIdx_sorted (used : List (List Nat)) : ∀ (s : Nat), (used.zipIdx s).Pairwise (fun a b => a.2 ≤ b.2) := by
  induction used with
  | nil => intro s; simp
  | cons u used ih =>
    intro s
    rw [List.zipIdx_cons]
    refine List.pairwise_cons.mpr ⟨?_, ih _⟩
    rintro ⟨a, k⟩ h
    have := (List.mem_zipIdx h).1
    simp only; omega

/-- Whatever the iteration order, sorting by id restores the order of first use. -/
theorem sortById_zipIdx {used : List (List Nat)} {l : Combos} (h : l.Perm (used.zipIdx 0)) :
    sortById l = used.zipIdx 0 := by
  refine List.Perm.eq_of_pairwise (le := fun a b : List Nat × Nat => a.2 ≤ b.2) ?_ (sortById_sorted l) (zipIdx_sorted used 0)
    ((sortById_perm l).trans h)
  rintro ⟨a, i⟩ ⟨b, j⟩ ha hb h1 h2
  have ha := ((sortById_perm l).trans h).mem_iff.mp ha
  have e : i = j := Nat.le_antisymm h1 h2
  subst e
  have ha' := (List.mem_zipIdx ha).2.2
  have hb' := (List.mem_zipIdx hb).2.2
  rw [ha', hb']

/-! ### `unfiy_data_common` -/

/-- The result of `unfiy_data_common`: `used` are the combinations in order of first use. -/
theorem unifyCommon_eq {indices : List (List Nat)} {n : Nat} (hne : indices ≠ [])
    (hlen : ∀ arr ∈ indices, arr.length = n) {order : Combos → Combos} (ho : IterOrder order) :
    unifyCommon order indices = .ok
      (((List.range n).map (comboOf indices)).map
          (fun c => (firstUses ((List.range n).map (comboOf indices))).idxOf c % 2 ^ 32),
        (List.range indices.length).map
          (fun i => (firstUses ((List.range n).map (comboOf indices))).map (fun c => c.getD i 0))) := by
  cases indices with
  | nil => exact absurd rfl hne
  | cons first rest =>
    have hf : first.length = n := hlen first List.mem_cons_self
    have hall : (first :: rest).all (fun arr => decide (arr.length = first.length)) = true := by
      rw [List.all_eq_true]
      intro arr ha
      rw [hf]; simpa using hlen arr ha
    unfold unifyCommon
    simp only
    rw [if_pos hall, hf]
    have hl := comboLoop_eq (indices := first :: rest) (List.range n) (used := [])
      (fun k hk arr ha => by rw [hlen arr ha]; exact List.mem_range.mp hk)
    rw [show ([] : Combos) = ([] : List (List Nat)).zipIdx 0 from rfl]
    rw [show (0 : Nat) = ([] : List (List Nat)).length from rfl]
    rw [show ([] : List (List Nat)).zipIdx ([] : List (List Nat)).length = ([] : List (List Nat)).zipIdx 0 from rfl]
    rw [hl, Outcome.bind_ok, ← firstUses_eq]
    have hs := sortById_zipIdx (ho ((firstUses ((List.range n).map (comboOf (first :: rest)))).zipIdx 0))
    simp only [hs, List.zipIdx_map_fst]
    have hmem : ∀ c ∈ firstUses ((List.range n).map (comboOf (first :: rest))), c.length = (first :: rest).length := by
      intro c hc
      obtain ⟨k, _, rfl⟩ := List.mem_map.mp (mem_firstUses.mp hc)
      simp [comboOf]
    have hd : ∀ i ∈ List.range (first :: rest).length,
        Outcome.mapAll (comboGet i) (firstUses ((List.range n).map (comboOf (first :: rest)))) =
          .ok ((firstUses ((List.range n).map (comboOf (first :: rest)))).map (fun c => c.getD i 0)) := by
      intro i hi
      apply mapAll_of_ok
      intro c hc
      have hlt : i < c.length := by rw [hmem c hc]; exact List.mem_range.mp hi
      unfold comboGet
      rw [List.getElem?_eq_getElem hlt]
      simp [List.getD, hlt]
    rw [mapAll_of_ok hd, Outcome.bind_ok]
    rfl

/-- What a merged pair of arrays must satisfy. -/
structure Merged {α : Type} (data : List α) (t : List Nat) (data' : List α) (ids : List Nat) : Prop where
  same : lookups data' ids = lookups data t
  inside : InRange data'.length ids
  source : ∀ x ∈ data', x ∈ data
  short : data'.length ≤ ids.length
  order : firstUses ids = List.range data'.length

/-- What the result of `unfiy_data_common` gives for each array. -/
structure UnifyResult (indices : List (List Nat)) (n : Nat) (ids : List Nat) (dm : List (List Nat)) : Prop where
  idsLength : ids.length = n
  columns : ∀ (k : Nat) (t : List Nat), indices[k]? = some t → ∃ l, dm[k]? = some l ∧ (∀ i ∈ l, i ∈ t) ∧
    lookups l ids = t.map some ∧ InRange l.length ids ∧ l.length ≤ n ∧ firstUses ids = List.range l.length

theorem unifyCommon_result {indices : List (List Nat)} {n : Nat} (hne : indices ≠ [])
    (hlen : ∀ arr ∈ indices, arr.length = n) (hn : n ≤ 2 ^ 32) :
    ∃ ids dm, (∀ order, IterOrder order → unifyCommon order indices = .ok (ids, dm)) ∧ UnifyResult indices n ids dm := by
  refine ⟨_, _, fun order ho => unifyCommon_eq hne hlen ho, by simp, ?_⟩
  intro k t ht
  obtain ⟨hk, hkt⟩ := List.getElem?_eq_some_iff.mp ht
  have htl : t.length = n := hlen t (List.mem_of_getElem? ht)
  generalize hcs : (List.range n).map (comboOf indices) = cs
  have hclen : cs.length = n := by rw [← hcs]; simp
  have huse : (firstUses cs).length ≤ n := by
    have : firstUses cs ⊆ cs := fun c hc => mem_firstUses.mp hc
    rw [← hclen]; exact (List.subperm_of_subset (firstUses_nodup cs) this).length_le
  have hidx : ∀ c ∈ cs, (firstUses cs).idxOf c < (firstUses cs).length :=
    fun c hc => List.idxOf_lt_length_of_mem (mem_firstUses.mpr hc)
  have hcol : ∀ p, (comboOf indices p).getD k 0 = t.getD p 0 := by
    intro p
    simp [comboOf, List.getD, ht]
  refine ⟨(firstUses cs).map (fun c => c.getD k 0), ?_, ?_, ?_, ?_, by rw [List.length_map]; exact huse, ?_⟩
  rotate_left 4
  · rw [List.length_map, ← map_idxOf_self (firstUses_nodup cs)]
    have e : cs.map (fun c => (firstUses cs).idxOf c % 2 ^ 32) = cs.map ((firstUses cs).idxOf ·) := by
      apply List.map_congr_left
      intro c hc
      have := hidx c hc
      exact Nat.mod_eq_of_lt (by omega)
    rw [e, firstUses_map]
    intro x hx y hy hxy
    exact (List.idxOf_inj (mem_firstUses.mpr hx)).mp hxy
  · rw [List.getElem?_map, List.getElem?_range hk]; rfl
  · intro i hi
    obtain ⟨c, hc, rfl⟩ := List.mem_map.mp hi
    have hc := mem_firstUses.mp hc
    rw [← hcs] at hc
    obtain ⟨p, hp, rfl⟩ := List.mem_map.mp hc
    rw [hcol]
    have hp : p < t.length := by rw [htl]; exact List.mem_range.mp hp
    simp [List.getD, hp]
  · unfold lookups
    rw [List.map_map]
    have : t.map some = cs.map (fun c => some (c.getD k 0)) := by
      rw [← hcs, List.map_map]
      apply List.ext_getElem
      · simp [htl]
      · intro p h1 h2
        simp only [List.getElem_map, Function.comp, List.getElem_range, hcol]
        have hp : p < t.length := by simpa using h1
        simp [List.getD, hp]
    rw [this]
    apply List.map_congr_left
    intro c hc
    have h1 := hidx c hc
    have h2 : (firstUses cs).idxOf c % 2 ^ 32 = (firstUses cs).idxOf c := Nat.mod_eq_of_lt (by omega)
    simp only [Function.comp, h2]
    rw [List.getElem?_map, List.getElem?_eq_getElem h1, List.getElem_idxOf]
    rfl
  · intro i hi
    obtain ⟨c, hc, rfl⟩ := List.mem_map.mp hi
    have h1 := hidx c hc
    have h2 : (firstUses cs).idxOf c % 2 ^ 32 = (firstUses cs).idxOf c := Nat.mod_eq_of_lt (by omega)
    rw [h2, List.length_map]
    exact ⟨h1, by omega⟩

theorem gather_eq {α : Type} {data : List α} {dm : List (List Nat)} {k : Nat} {l : List Nat} {data' : List α}
    (hl : dm[k]? = some l) (hd : lookups data l = data'.map some) : gather data dm k = .ok data' := by
  unfold gather
  rw [hl]
  simp only
  clear hl
  induction l generalizing data' with
  | nil =>
    cases data' with
    | nil => rfl
    | cons x d => simp [lookups] at hd
  | cons i l ih =>
    cases data' with
    | nil => simp [lookups] at hd
    | cons x d =>
      simp only [lookups, List.map_cons, List.cons.injEq] at hd
      have := ih (data' := d) hd.2
      rw [Outcome.mapAll, hd.1]
      simp only
      rw [this]
      rfl

theorem gather_ok {α : Type} {data : List α} {indices : List (List Nat)} {n : Nat} {ids : List Nat} {dm : List (List Nat)}
    (h : UnifyResult indices n ids dm) {k : Nat} {t : List Nat} (ht : indices[k]? = some t) (hr : InRange data.length t) :
    ∃ data', gather data dm k = .ok data' ∧ Merged data t data' ids := by
  obtain ⟨l, hl, hmem, hlook, hin, hshort, hord⟩ := h.columns k t ht
  have hlr : InRange data.length l := fun i hi => hr i (hmem i hi)
  obtain ⟨data', hd⟩ := lookups_inRange hlr
  have hlen : data'.length = l.length := by simpa [lookups] using (congrArg List.length hd).symm
  refine ⟨data', ?_, ?_, ?_, ?_, by rw [hlen, h.idsLength]; exact hshort, by rw [hlen]; exact hord⟩
  · exact gather_eq hl hd
  · unfold lookups at *
    apply List.ext_getElem
    · simpa using congrArg List.length hlook
    · intro p h1 h2
      have hp : p < ids.length := by simpa using h1
      have hpt : p < t.length := by simpa using h2
      have e1 := congrArg (fun l => l[p]?) hlook
      simp only [List.getElem?_map, List.getElem?_eq_getElem hp, List.getElem?_eq_getElem hpt, Option.map_some,
        Option.some.injEq] at e1
      simp only [List.getElem_map]
      have hlt := (hin ids[p] (List.getElem_mem hp)).1
      rw [List.getElem?_eq_getElem hlt] at e1
      have := getElem?_of_map_some hd.symm ids[p] hlt
      rw [this]
      rw [Option.some.inj e1]
  · rw [hlen]; exact hin
  · intro x hx
    have hx : some x ∈ lookups data l := by rw [hd]; exact List.mem_map_of_mem hx
    obtain ⟨i, _, hi⟩ := List.mem_map.mp hx
    exact List.mem_of_getElem? hi

/-! ### Merging two, three or four arrays -/

theorem mergeData2_ok {A B : Type} {ia ib : List Nat} {a : List A} {b : List B} {n : Nat} (hn : n ≤ 2 ^ 32)
    (la : ia.length = n) (lb : ib.length = n) (ra : InRange a.length ia) (rb : InRange b.length ib) :
    ∃ ids a' b', (∀ order, IterOrder order → mergeData2 order ia ib a b = .ok (ids, a', b')) ∧ ids.length = n ∧
      Merged a ia a' ids ∧ Merged b ib b' ids := by
  obtain ⟨ids, dm, h, hr⟩ := unifyCommon_result (indices := [ia, ib]) (n := n) (by simp) (by simp [la, lb]) hn
  obtain ⟨a', ea, ma⟩ := gather_ok hr (k := 0) rfl ra
  obtain ⟨b', eb, mb⟩ := gather_ok hr (k := 1) rfl rb
  refine ⟨ids, a', b', fun order ho => ?_, hr.idsLength, ma, mb⟩
  simp [mergeData2, h order ho, ea, eb]

theorem mergeData3_ok {A B C : Type} {ia ib ic : List Nat} {a : List A} {b : List B} {c : List C} {n : Nat} (hn : n ≤ 2 ^ 32)
    (la : ia.length = n) (lb : ib.length = n) (lc : ic.length = n) (ra : InRange a.length ia) (rb : InRange b.length ib)
    (rc : InRange c.length ic) :
    ∃ ids a' b' c', (∀ order, IterOrder order → mergeData3 order ia ib ic a b c = .ok (ids, a', b', c')) ∧ ids.length = n ∧
      Merged a ia a' ids ∧ Merged b ib b' ids ∧ Merged c ic c' ids := by
  obtain ⟨ids, dm, h, hr⟩ := unifyCommon_result (indices := [ia, ib, ic]) (n := n) (by simp) (by simp [la, lb, lc]) hn
  obtain ⟨a', ea, ma⟩ := gather_ok hr (k := 0) rfl ra
  obtain ⟨b', eb, mb⟩ := gather_ok hr (k := 1) rfl rb
  obtain ⟨c', ec, mc⟩ := gather_ok hr (k := 2) rfl rc
  refine ⟨ids, a', b', c', fun order ho => ?_, hr.idsLength, ma, mb, mc⟩
  simp [mergeData3, h order ho, ea, eb, ec]

theorem mergeData4_ok {A B C D : Type} {ia ib ic id : List Nat} {a : List A} {b : List B} {c : List C} {d : List D}
    {n : Nat} (hn : n ≤ 2 ^ 32) (la : ia.length = n) (lb : ib.length = n) (lc : ic.length = n) (ld : id.length = n)
    (ra : InRange a.length ia) (rb : InRange b.length ib) (rc : InRange c.length ic) (rd : InRange d.length id) :
    ∃ ids a' b' c' d', (∀ order, IterOrder order → mergeData4 order ia ib ic id a b c d = .ok (ids, a', b', c', d')) ∧
      ids.length = n ∧ Merged a ia a' ids ∧ Merged b ib b' ids ∧ Merged c ic c' ids ∧ Merged d id d' ids := by
  obtain ⟨ids, dm, h, hr⟩ := unifyCommon_result (indices := [ia, ib, ic, id]) (n := n) (by simp)
    (by simp [la, lb, lc, ld]) hn
  obtain ⟨a', ea, ma⟩ := gather_ok hr (k := 0) rfl ra
  obtain ⟨b', eb, mb⟩ := gather_ok hr (k := 1) rfl rb
  obtain ⟨c', ec, mc⟩ := gather_ok hr (k := 2) rfl rc
  obtain ⟨d', ed, md⟩ := gather_ok hr (k := 3) rfl rd
  refine ⟨ids, a', b', c', d', fun order ho => ?_, hr.idsLength, ma, mb, mc, md⟩
  simp [mergeData4, h order ho, ea, eb, ec, ed]

/-! ### Choosing what to merge -/

/-- If the arrays have data and indices then the indices are `t`. -/
def OnlyIndices {α : Type} (a : Option (List α)) (ia : Option (List Nat)) (t : List Nat) : Prop :=
  ∀ d t', a = some d → d ≠ [] → ia = some t' → t' = t

/-- What happened to an array: merged, or left out because it has no data or no indices. -/
def SlotOut {α : Type} (a : Option (List α)) (ia : Option (List Nat)) (ids : List Nat) (a' : Option (List α)) : Prop :=
  match a' with
  | some d' => ∃ d t, a = some d ∧ ia = some t ∧ Merged d t d' ids
  | none => noData a = true ∨ ia = none

theorem isMergeNeeded_false {l : List (Option (List Nat))} (h : isMergeNeeded l = false) :
    ∃ t, ∀ t', some t' ∈ l → t' = t := by
  unfold isMergeNeeded at h
  cases e : l.filterMap id with
  | nil =>
    refine ⟨[], fun t' ht => ?_⟩
    have : t' ∈ l.filterMap id := List.mem_filterMap.mpr ⟨some t', ht, rfl⟩
    rw [e] at this; cases this
  | cons first rest =>
    rw [e] at h
    simp only [Bool.not_eq_false', List.all_eq_true, decide_eq_true_eq] at h
    refine ⟨first, fun t' ht => ?_⟩
    have : t' ∈ l.filterMap id := List.mem_filterMap.mpr ⟨some t', ht, rfl⟩
    rw [e] at this
    rcases List.mem_cons.mp this with e | e
    · exact e
    · exact h t' e

theorem isMergeNeeded_pos {l : List (Option (List Nat))} {n : Nat} (h : isMergeNeeded l = true)
    (hl : ∀ t, some t ∈ l → t.length = n) : n ≠ 0 := by
  rintro rfl
  have hall : ∀ t ∈ l.filterMap id, t = [] := by
    intro t ht
    obtain ⟨o, ho, e⟩ := List.mem_filterMap.mp ht
    exact List.length_eq_zero_iff.mp (hl t (e ▸ ho))
  unfold isMergeNeeded at h
  cases e : l.filterMap id with
  | nil => rw [e] at h; cases h
  | cons first rest =>
    rw [e] at h hall
    simp only [Bool.not_eq_true', List.all_eq_false, decide_eq_true_eq] at h
    obtain ⟨t, ht, hne⟩ := h
    exact hne ((hall t (List.mem_cons_of_mem _ ht)).trans (hall first List.mem_cons_self).symm)

theorem noData_only {α : Type} {a : Option (List α)} {ia : Option (List Nat)} (h : noData a || ia.isNone) (t : List Nat) :
    OnlyIndices a ia t := by
  intro d t' ha hd hi
  subst ha hi
  cases d with
  | nil => exact absurd rfl hd
  | cons x d => simp [noData] at h

theorem noData_out {α : Type} {a : Option (List α)} {ia : Option (List Nat)} (h : noData a || ia.isNone) (ids : List Nat) :
    SlotOut a ia ids none := by
  show noData a = true ∨ ia = none
  cases ia
  · exact .inr rfl
  · left; simpa using h

theorem noData_false {α : Type} {a : Option (List α)} {ia : Option (List Nat)} (h : ¬ (noData a || ia.isNone) = true) :
    ∃ d t, a = some d ∧ ia = some t := by
  cases a with
  | none => simp [noData] at h
  | some d =>
    cases ia with
    | none => simp at h
    | some t => exact ⟨d, t, rfl, rfl⟩

theorem smartMerge2_ok {A B : Type} {a : Option (List A)} {b : Option (List B)} {ia ib : Option (List Nat)} {n : Nat}
    (hn : n ≤ 2 ^ 32) (sa : Slot n a ia) (sb : Slot n b ib) :
    ∃ a' b' i, (∀ order, IterOrder order → smartMerge2 order a b ia ib = .ok (a', b', i)) ∧
      (i = none → ∃ t, OnlyIndices a ia t ∧ OnlyIndices b ib t) ∧
      (∀ ids, i = some ids → (ids.length = n ∧ n ≠ 0) ∧ SlotOut a ia ids a' ∧ SlotOut b ib ids b') := by
  by_cases hm : isMergeNeeded [ia, ib] = true
  · match a, ia, b, ib with
    | none, ia, b, ib =>
      refine ⟨none, none, none, fun order _ => by simp [smartMerge2, hm], fun _ => ?_, fun ids h => by cases h⟩
      exact ⟨ib.getD [], fun d t h => (by cases h), fun d t h _ e => by rw [e]; rfl⟩
    | some a, none, b, ib =>
      refine ⟨none, none, none, fun order _ => by simp [smartMerge2, hm], fun _ => ?_, fun ids h => by cases h⟩
      exact ⟨ib.getD [], fun d t _ _ h => (by cases h), fun d t h _ e => by rw [e]; rfl⟩
    | some a, some ia, none, ib =>
      refine ⟨none, none, none, fun order _ => by simp [smartMerge2, hm], fun _ => ?_, fun ids h => by cases h⟩
      exact ⟨ia, fun d t _ _ h => (by cases h; rfl), fun d t h => by cases h⟩
    | some a, some ia, some b, none =>
      refine ⟨none, none, none, fun order _ => by simp [smartMerge2, hm], fun _ => ?_, fun ids h => by cases h⟩
      exact ⟨ia, fun d t _ _ h => (by cases h; rfl), fun d t _ _ h => by cases h⟩
    | some a, some ia, some b, some ib =>
      obtain ⟨ra, la⟩ := sa a ia rfl rfl
      obtain ⟨rb, lb⟩ := sb b ib rfl rfl
      obtain ⟨ids, a', b', h, hl, ma, mb⟩ := mergeData2_ok hn la lb ra rb
      refine ⟨some a', some b', some ids, fun order ho => by simp [smartMerge2, hm, h order ho], fun h => (by cases h), ?_⟩
      intro ids' e
      cases e
      exact ⟨⟨hl, isMergeNeeded_pos hm (by simp [la, lb])⟩, ⟨a, ia, rfl, rfl, ma⟩, ⟨b, ib, rfl, rfl, mb⟩⟩
  · obtain ⟨t, ht⟩ := isMergeNeeded_false (Bool.not_eq_true _ ▸ hm)
    refine ⟨none, none, none, fun order _ => by simp [smartMerge2, hm], fun _ => ⟨t, ?_, ?_⟩, fun ids h => by cases h⟩
    · intro d t' _ _ h; exact ht t' (by simp [h])
    · intro d t' _ _ h; exact ht t' (by simp [h])

theorem smartMerge3_ok {A B C : Type} {a : Option (List A)} {b : Option (List B)} {c : Option (List C)}
    {ia ib ic : Option (List Nat)} {n : Nat} (hn : n ≤ 2 ^ 32) (sa : Slot n a ia) (sb : Slot n b ib) (sc : Slot n c ic) :
    ∃ a' b' c' i, (∀ order, IterOrder order → smartMerge3 order a b c ia ib ic = .ok (a', b', c', i)) ∧
      (i = none → ∃ t, OnlyIndices a ia t ∧ OnlyIndices b ib t ∧ OnlyIndices c ic t) ∧
      (∀ ids, i = some ids → (ids.length = n ∧ n ≠ 0) ∧ SlotOut a ia ids a' ∧ SlotOut b ib ids b' ∧ SlotOut c ic ids c') := by
  by_cases hm : isMergeNeeded [ia, ib, ic] = true
  · by_cases ha : (noData a || ia.isNone) = true
    · obtain ⟨b', c', i, h, h0, h1⟩ := smartMerge2_ok hn sb sc
      refine ⟨none, b', c', i, fun order ho => ?_, fun e => ?_, fun ids e => ?_⟩
      · rw [smartMerge3.eq_def, if_pos hm, if_pos ha, h order ho]; rfl
      · obtain ⟨t, tb, tc⟩ := h0 e
        exact ⟨t, noData_only ha t, tb, tc⟩
      · obtain ⟨l, ob, oc⟩ := h1 ids e
        exact ⟨l, noData_out ha ids, ob, oc⟩
    · by_cases hb : (noData b || ib.isNone) = true
      · obtain ⟨a', c', i, h, h0, h1⟩ := smartMerge2_ok hn sa sc
        refine ⟨a', none, c', i, fun order ho => ?_, fun e => ?_, fun ids e => ?_⟩
        · rw [smartMerge3.eq_def, if_pos hm, if_neg ha, if_pos hb, h order ho]; rfl
        · obtain ⟨t, ta, tc⟩ := h0 e
          exact ⟨t, ta, noData_only hb t, tc⟩
        · obtain ⟨l, oa, oc⟩ := h1 ids e
          exact ⟨l, oa, noData_out hb ids, oc⟩
      · by_cases hc : (noData c || ic.isNone) = true
        · obtain ⟨a', b', i, h, h0, h1⟩ := smartMerge2_ok hn sa sb
          refine ⟨a', b', none, i, fun order ho => ?_, fun e => ?_, fun ids e => ?_⟩
          · rw [smartMerge3.eq_def, if_pos hm, if_neg ha, if_neg hb, if_pos hc, h order ho]; rfl
          · obtain ⟨t, ta, tb⟩ := h0 e
            exact ⟨t, ta, tb, noData_only hc t⟩
          · obtain ⟨l, oa, ob⟩ := h1 ids e
            exact ⟨l, oa, ob, noData_out hc ids⟩
        · obtain ⟨a, ta, rfl, rfl⟩ := noData_false ha
          obtain ⟨b, tb, rfl, rfl⟩ := noData_false hb
          obtain ⟨c, tc, rfl, rfl⟩ := noData_false hc
          obtain ⟨ra, la⟩ := sa _ _ rfl rfl
          obtain ⟨rb, lb⟩ := sb _ _ rfl rfl
          obtain ⟨rc, lc⟩ := sc _ _ rfl rfl
          obtain ⟨ids, a', b', c', h, hl, ma, mb, mc⟩ := mergeData3_ok hn la lb lc ra rb rc
          refine ⟨some a', some b', some c', some ids, fun order ho => ?_, fun h => (by cases h), ?_⟩
          · rw [smartMerge3.eq_def, if_pos hm, if_neg ha, if_neg hb, if_neg hc]
            simp [h order ho]
          · intro ids' e
            cases e
            exact ⟨⟨hl, isMergeNeeded_pos hm (by simp [la, lb, lc])⟩, ⟨_, _, rfl, rfl, ma⟩, ⟨_, _, rfl, rfl, mb⟩, ⟨_, _, rfl, rfl, mc⟩⟩
  · obtain ⟨t, ht⟩ := isMergeNeeded_false (Bool.not_eq_true _ ▸ hm)
    refine ⟨none, none, none, none, fun order _ => by simp [smartMerge3, hm], fun _ => ⟨t, ?_, ?_, ?_⟩, fun ids h => by cases h⟩
    all_goals intro d t' _ _ h; exact ht t' (by simp [h])

theorem smartMerge4_ok {A B C D : Type} {a : Option (List A)} {b : Option (List B)} {c : Option (List C)}
    {d : Option (List D)} {ia ib ic id : Option (List Nat)} {n : Nat} (hn : n ≤ 2 ^ 32)
    (sa : Slot n a ia) (sb : Slot n b ib) (sc : Slot n c ic) (sd : Slot n d id) :
    ∃ a' b' c' d' i, (∀ order, IterOrder order → smartMerge4 order a b c d ia ib ic id = .ok (a', b', c', d', i)) ∧
      (i = none → ∃ t, OnlyIndices a ia t ∧ OnlyIndices b ib t ∧ OnlyIndices c ic t ∧ OnlyIndices d id t) ∧
      (∀ ids, i = some ids → (ids.length = n ∧ n ≠ 0) ∧ SlotOut a ia ids a' ∧ SlotOut b ib ids b' ∧ SlotOut c ic ids c' ∧
        SlotOut d id ids d') := by
  by_cases hm : isMergeNeeded [ia, ib, ic, id] = true
  · by_cases ha : (noData a || ia.isNone) = true
    · obtain ⟨b', c', d', i, h, h0, h1⟩ := smartMerge3_ok hn sb sc sd
      refine ⟨none, b', c', d', i, fun order ho => ?_, fun e => ?_, fun ids e => ?_⟩
      · rw [smartMerge4.eq_def, if_pos hm, if_pos ha, h order ho]; rfl
      · obtain ⟨t, tb, tc, td⟩ := h0 e
        exact ⟨t, noData_only ha t, tb, tc, td⟩
      · obtain ⟨l, ob, oc, od⟩ := h1 ids e
        exact ⟨l, noData_out ha ids, ob, oc, od⟩
    · by_cases hb : (noData b || ib.isNone) = true
      · obtain ⟨a', c', d', i, h, h0, h1⟩ := smartMerge3_ok hn sa sc sd
        refine ⟨a', none, c', d', i, fun order ho => ?_, fun e => ?_, fun ids e => ?_⟩
        · rw [smartMerge4.eq_def, if_pos hm, if_neg ha, if_pos hb, h order ho]; rfl
        · obtain ⟨t, ta, tc, td⟩ := h0 e
          exact ⟨t, ta, noData_only hb t, tc, td⟩
        · obtain ⟨l, oa, oc, od⟩ := h1 ids e
          exact ⟨l, oa, noData_out hb ids, oc, od⟩
      · by_cases hc : (noData c || ic.isNone) = true
        · obtain ⟨a', b', d', i, h, h0, h1⟩ := smartMerge3_ok hn sa sb sd
          refine ⟨a', b', none, d', i, fun order ho => ?_, fun e => ?_, fun ids e => ?_⟩
          · rw [smartMerge4.eq_def, if_pos hm, if_neg ha, if_neg hb, if_pos hc, h order ho]; rfl
          · obtain ⟨t, ta, tb, td⟩ := h0 e
            exact ⟨t, ta, tb, noData_only hc t, td⟩
          · obtain ⟨l, oa, ob, od⟩ := h1 ids e
            exact ⟨l, oa, ob, noData_out hc ids, od⟩
        · by_cases hd : (noData d || id.isNone) = true
          · obtain ⟨a', b', c', i, h, h0, h1⟩ := smartMerge3_ok hn sa sb sc
            refine ⟨a', b', c', none, i, fun order ho => ?_, fun e => ?_, fun ids e => ?_⟩
            · rw [smartMerge4.eq_def, if_pos hm, if_neg ha, if_neg hb, if_neg hc, if_pos hd, h order ho]; rfl
            · obtain ⟨t, ta, tb, tc⟩ := h0 e
              exact ⟨t, ta, tb, tc, noData_only hd t⟩
            · obtain ⟨l, oa, ob, oc⟩ := h1 ids e
              exact ⟨l, oa, ob, oc, noData_out hd ids⟩
          · obtain ⟨a, ta, rfl, rfl⟩ := noData_false ha
            obtain ⟨b, tb, rfl, rfl⟩ := noData_false hb
            obtain ⟨c, tc, rfl, rfl⟩ := noData_false hc
            obtain ⟨d, td, rfl, rfl⟩ := noData_false hd
            obtain ⟨ra, la⟩ := sa _ _ rfl rfl
            obtain ⟨rb, lb⟩ := sb _ _ rfl rfl
            obtain ⟨rc, lc⟩ := sc _ _ rfl rfl
            obtain ⟨rd, ld⟩ := sd _ _ rfl rfl
            obtain ⟨ids, a', b', c', d', h, hl, ma, mb, mc, md⟩ := mergeData4_ok hn la lb lc ld ra rb rc rd
            refine ⟨some a', some b', some c', some d', some ids, fun order ho => ?_, fun h => (by cases h), ?_⟩
            · rw [smartMerge4.eq_def, if_pos hm, if_neg ha, if_neg hb, if_neg hc, if_neg hd]
              simp [h order ho]
            · intro ids' e
              cases e
              exact ⟨⟨hl, isMergeNeeded_pos hm (by simp [la, lb, lc, ld])⟩, ⟨_, _, rfl, rfl, ma⟩, ⟨_, _, rfl, rfl, mb⟩, ⟨_, _, rfl, rfl, mc⟩, ⟨_, _, rfl, rfl, md⟩⟩
  · obtain ⟨t, ht⟩ := isMergeNeeded_false (Bool.not_eq_true _ ▸ hm)
    refine ⟨none, none, none, none, none, fun order _ => by simp [smartMerge4, hm], fun _ => ⟨t, ?_, ?_, ?_, ?_⟩,
      fun ids h => by cases h⟩
    all_goals intro d t' _ _ h; exact ht t' (by simp [h])

/-! ### Meshes -/

theorem takeMerged_selected {α : Type} {n : Nat} {a a' : Option (List α)} {ia : Option (List Nat)} {ids : List Nat}
    (h : SlotOut a ia ids a') :
    selected (takeMerged a' ids (a, ia)).1 (takeMerged a' ids (a, ia)).2 = selected a ia := by
  cases a' with
  | none => rfl
  | some d' =>
    obtain ⟨d, t, rfl, rfl, m⟩ := h
    exact congrArg some m.same

theorem takeMerged_indexed {α : Type} {n : Nat} {a a' : Option (List α)} {ia : Option (List Nat)} {ids : List Nat}
    (hs : Slot n a ia) (hl : ids.length = n) (h : SlotOut a ia ids a') :
    IndexedBy (takeMerged a' ids (a, ia)).1 (takeMerged a' ids (a, ia)).2 ids := by
  cases a' with
  | none =>
    intro ha hi
    show ia = _
    obtain ⟨d, rfl⟩ := Option.isSome_iff_exists.mp ha
    obtain ⟨t, rfl⟩ := Option.isSome_iff_exists.mp hi
    rcases h with h | h
    · cases d with
      | cons x d => cases h
      | nil =>
        obtain ⟨hr, ht⟩ := hs [] t rfl rfl
        have e : t = [] := by
          cases t with
          | nil => rfl
          | cons i t => exact absurd (hr i List.mem_cons_self).1 (by simp)
        subst e
        rw [List.length_nil] at ht
        rw [← ht] at hl
        rw [List.length_eq_zero_iff.mp hl]
    · cases h
  | some d' => intro _ _; rfl

theorem onlyIndices_indexed {α : Type} {n : Nat} {a : Option (List α)} {ia : Option (List Nat)} {t : List Nat}
    (hs : Slot n a ia) (hn : n ≠ 0) (h : OnlyIndices a ia t) : IndexedBy a ia t := by
  intro ha hi
  obtain ⟨d, rfl⟩ := Option.isSome_iff_exists.mp ha
  obtain ⟨t', rfl⟩ := Option.isSome_iff_exists.mp hi
  obtain ⟨hr, hl⟩ := hs d t' rfl rfl
  rw [h d t' rfl ?_ rfl]
  rintro rfl
  cases t' with
  | nil => exact hn hl.symm
  | cons i t => exact absurd (hr i List.mem_cons_self).1 (by simp)

theorem zero_indexed {α : Type} {a : Option (List α)} {ia : Option (List Nat)} (hs : Slot 0 a ia) : IndexedBy a ia [] := by
  intro ha hi
  obtain ⟨d, rfl⟩ := Option.isSome_iff_exists.mp ha
  obtain ⟨t', rfl⟩ := Option.isSome_iff_exists.mp hi
  rw [List.length_eq_zero_iff.mp (hs d t' rfl rfl).2]

theorem selected_buffer {α : Type} {n : Nat} {a a' : Option (List α)} {ia ia' : Option (List Nat)} (hs : Slot n a ia)
    (h : selected a' ia' = selected a ia) :
    (do let d ← a'; let t ← ia'; Mesh.bufferLoop d t []) = (do let d ← a; let t ← ia; Mesh.bufferLoop d t []) := by
  match a, ia, a', ia', h with
  | none, _, none, _, _ => rfl
  | none, _, some _, none, _ => rfl
  | some _, none, none, _, _ => rfl
  | some _, none, some _, none, _ => rfl
  | some d, some t, some d', some t', h => exact bufferLoop_same (hs d t rfl rfl).1 (Option.some.inj h)

theorem foldl_useStep_new {κ : Type} [DecidableEq κ] (l : List κ) : ∀ {seen : List κ}, (seen ++ l).Nodup →
    l.foldl useStep seen = seen ++ l := by
  induction l with
  | nil => intro seen _; simp
  | cons i l ih =>
    intro seen h
    have hi : i ∉ seen := by
      intro hi
      exact (List.nodup_append.mp h).2.2 i hi i List.mem_cons_self rfl
    rw [List.foldl_cons, useStep, if_neg hi, ih (by simpa using h)]
    simp

theorem firstUses_nodup_eq {κ : Type} [DecidableEq κ] {l : List κ} (h : l.Nodup) : firstUses l = l := by
  rw [firstUses_eq, foldl_useStep_new l (by simpa using h), List.nil_append]

theorem bufferLoop_lookups {α : Type} {d d' : List α} {t t' : List Nat} (h : InRange d.length t) (h' : InRange d'.length t')
    (e : Mesh.bufferLoop d' t' [] = Mesh.bufferLoop d t []) : lookups d' t' = lookups d t := by
  obtain ⟨l, hl⟩ := lookups_inRange h
  obtain ⟨l', hl'⟩ := lookups_inRange h'
  rw [lookups_some hl, lookups_some hl'] at e
  rw [hl, hl']
  simpa using congrArg (List.map some) (Option.some.inj e)

end Tmf
