import Verif.Lemmas.IndexWidth
import Verif.Lemmas.ObjFace
import Verif.Lemmas.ObjFile
import Verif.Lemmas.Unify
import Verif.Model.IndexWidthObj
import Verif.Spec.FastTrig
import Verif.Spec.IndexWidthObj
/-
Reordering, pruning, unifying and .obj files with other types of indices.
-/

namespace Tmf
open Spec

/-! ### The default -/

theorem unifyIn_default {F : Type} (order : Combos → Combos) (m : Mesh F) : m.unifyIndexDataIn 32 order = m.unifyIndexData order := by
  have h1 : ∀ (indices : List (List Nat)) (l : List Nat) (c : Combos) (n : Nat),
      comboLoopIn 32 indices l c n = comboLoop indices l c n := by
    intro indices l
    induction l with
    | nil => intros; rfl
    | cons i l ih => intro c n; rw [comboLoopIn, comboLoop]; simp only [ih]
  have h2 : unifyCommonIn 32 = unifyCommon := by
    funext order indices
    unfold unifyCommonIn unifyCommon
    simp only [h1]
    rfl
  have h3 : ∀ {A B C : Type}, @smartMerge3In 32 A B C = smartMerge3 := by
    intros
    funext
    unfold smartMerge3In smartMerge3 smartMerge2In smartMerge2 mergeData3In mergeData3 mergeData2In mergeData2
    rw [h2]
    rfl
  have h4 : ∀ {A B C D : Type}, @smartMerge4In 32 A B C D = smartMerge4 := by
    intros
    funext
    unfold smartMerge4In smartMerge4 mergeData4In mergeData4
    rw [h2]
    simp only [h3]
    rfl
  unfold Mesh.unifyIndexDataIn Mesh.unifyIndexData
  rw [h4]
  rfl

theorem pruneIn_default {α : Type} (b : Build) (data : List α) (indices : List Nat) :
    fastPruneIn 32 b data indices = fastPrune b data indices := rfl

theorem parseLineIn_default {fo : FloatOps} (ft : FloatText fo) (face : PushFace fo.F) (b : Build) (line : List UInt8) (oi : Importer fo.F) :
    parseLineIn 32 ft face b line oi = parseLine ft face b line oi := by
  have h1 : ∀ (fuel : Nat) (ws : List (List UInt8)) (v u n : List Nat), loadFaceLoopIn 32 fuel ws v u n = loadFaceLoop fuel ws v u n := by
    intro fuel
    induction fuel with
    | zero => intros; rfl
    | succ fuel ih =>
      intro ws v u n
      rw [loadFaceLoopIn, loadFaceLoop]
      simp only [ih]
      rfl
  unfold parseLineIn parseLine parseWordsIn parseWords loadFaceIn loadFace
  simp only [h1]
  rfl

theorem readObjLoopIn_default {fo : FloatOps} (ft : FloatText fo) (face : PushFace fo.F) (b : Build) :
    ∀ (lines : List (List UInt8)) (oi : Importer fo.F), readObjLoopIn 32 ft face b lines oi = readObjLoop ft face b lines oi := by
  intro lines
  induction lines with
  | nil => intro oi; rfl
  | cons line lines ih => intro oi; rw [readObjLoopIn, readObjLoop]; simp only [parseLineIn_default, ih]

theorem writeObjIn_default {fo : FloatOps} (ft : FloatText fo) (b : Build) (meshes : List (Mesh fo.F × List UInt8)) :
    writeObjIn 32 ft b meshes = writeObj ft b meshes := by
  have h1 : ∀ (v : List Nat) (u n : Option (List Nat)) (o : Nat × Nat × Nat) (l : List Nat),
      facesTextIn 32 b v u n o l = facesText b v u n o l := by
    intro v u n o l
    induction l with
    | nil => rfl
    | cons i l ih => rw [facesTextIn, facesText]; simp only [ih]; rfl
  have h2 : ∀ (m : Mesh fo.F) (o : Nat × Nat × Nat) (name : List UInt8), saveObjIn 32 ft b m o name = saveObj ft b m o name := by
    intro m o name
    unfold saveObjIn saveObj
    simp only [h1]
    rfl
  have h3 : ∀ (l : List (Mesh fo.F × List UInt8)) (o : Nat × Nat × Nat), writeObjLoopIn 32 ft b l o = writeObjLoop ft b l o := by
    intro l
    induction l with
    | nil => intro o; rfl
    | cons x l ih => intro o; obtain ⟨m, name⟩ := x; rw [writeObjLoopIn, writeObjLoop]; simp only [h2, ih]; rfl
  rw [writeObjIn, writeObj, h3]

/-! ### Reordering -/

theorem mapLoop_inside {α : Type} {data : List α} : ∀ (l : List Nat) {map : List (Option Nat)} {mapped : List α} {curr : Nat}
    {r : List (Option Nat) × List α}, map.length = data.length → mapLoop data l map mapped curr = .ok r → ∀ i ∈ l, i < data.length
  | [], _, _, _, _, _, _ => by simp
  | i :: l, map, mapped, curr, r, hm, h => by
    rw [mapLoop] at h
    cases e : map[i]? with
    | none => rw [e] at h; cases h
    | some x =>
      have hi : i < data.length := by rw [← hm]; exact (List.getElem?_eq_some_iff.mp e).1
      rw [e] at h
      intro j hj
      rcases List.mem_cons.mp hj with rfl | hj
      · exact hi
      · cases x with
        | none =>
          rw [List.getElem?_eq_getElem hi] at h
          exact mapLoop_inside l (by rw [List.length_set]; exact hm) h j hj
        | some _ => exact mapLoop_inside l hm h j hj

/-- With a type that holds all indices, new indices are never cut: there are at most as many elements in use as the
type has values. -/
theorem optimizeTriangleIn_eq {α : Type} {k : Nat} {indices : List Nat} (hk : ∀ i ∈ indices, i < 2 ^ k) (data : List α) :
    optimizeTriangleIndicesIn k indices data =
      if indices = [] ∨ data = [] then .ok (indices, data)
      else mapLoop data indices (List.replicate data.length none) [] 0 >>= fun r =>
        .ok (indices.map ((firstUses indices).idxOf ·), r.2) := by
  unfold optimizeTriangleIndicesIn
  split_ifs with he
  · rfl
  · cases hm : mapLoop data indices (List.replicate data.length none) [] 0 with
    | panic => rfl
    | err e => cases e
    | ok r =>
      have hin := mapLoop_inside indices (by simp) hm
      have h0 : MapState data [] (List.replicate data.length none) [] :=
        ⟨List.nodup_nil, by simp, by simp, by intro i hi; simp [hi], rfl⟩
      obtain ⟨map, mapped, hm', hs⟩ := mapLoop_spec indices h0 hin
      rw [show ([] : List Nat).length = 0 from rfl, hm] at hm'
      cases hm'
      have hnew : ∀ i ∈ indices, newIndexIn k map i = .ok ((firstUses indices).idxOf i) := by
        intro i h
        have hmem : i ∈ firstUses indices := mem_firstUses.mpr h
        have hlt : (firstUses indices).idxOf i < 2 ^ k := by
          have h1 := List.idxOf_lt_length_of_mem hmem
          have h2 := nodup_length_le (firstUses_nodup indices) (n := 2 ^ k) (fun x hx => hk x (mem_firstUses.mp hx))
          omega
        have := hs.mapEq i (hin i h)
        rw [← firstUses_eq, if_pos hmem] at this
        unfold newIndexIn
        rw [this]
        exact congrArg Outcome.ok (Nat.mod_eq_of_lt hlt)
      rw [Outcome.bind_ok, Outcome.bind_ok]
      show (Outcome.mapAll (newIndexIn k map) indices >>= _) = _
      rw [mapAll_of_ok hnew, Outcome.bind_ok]

theorem reorderIn_default {F : Type} (m : Mesh F) : m.reorderDataIn 32 = m.reorderData := by
  have h1 : ∀ {α : Type} (l : List Nat) (d : List α), optimizeTriangleIndicesIn 32 l d = optimizeTriangleIndices l d := by
    intro α l d
    rfl
  have h2 : ∀ {α : Type} (d : Option (List α)) (l : Option (List Nat)), reorderPairIn 32 d l = reorderPair d l := by
    intro α d l
    cases d <;> cases l <;> rfl
  unfold Mesh.reorderDataIn Mesh.reorderData
  simp only [h2]

theorem reorderPairIn_eq {α : Type} {j k : Nat} {indices : Option (List Nat)} (hj : ∀ l, indices = some l → ∀ i ∈ l, i < 2 ^ j)
    (hk : ∀ l, indices = some l → ∀ i ∈ l, i < 2 ^ k) (data : Option (List α)) :
    reorderPairIn j data indices = reorderPairIn k data indices := by
  match data, indices with
  | none, _ => rfl
  | some _, none => rfl
  | some d, some t => rw [reorderPairIn, reorderPairIn, optimizeTriangleIn_eq (hj t rfl), optimizeTriangleIn_eq (hk t rfl)]

/-! ### Pruning -/

theorem fastPruneIn_ok {α : Type} (k : Nat) (b : Build) (data : List α) (indices : List Nat) :
    ∃ data' indices', fastPruneIn k b data indices = .ok (data', indices') ∧
      indices'.length = indices.length ∧ lookups data' indices' = lookups data indices := by
  unfold fastPruneIn
  cases hp : pruneMin indices (if indices = [] then 0 else data.length % 2 ^ k) with
  | none => exact ⟨data, indices, rfl, rfl, rfl⟩
  | some m =>
    obtain ⟨hm, hi⟩ := pruneMin_spec _ hp
    have hle : m ≤ data.length := by
      split_ifs at hm with he
      · omega
      · exact hm.trans (Nat.mod_le _ _)
    have hsub : ∀ i ∈ indices, subUIntIn k b i m = .ok (i - m) := by
      intro i h
      rw [subUIntIn.eq_def, if_pos (hi i h)]
    refine ⟨data.drop m, indices.map (· - m), ?_, by simp, ?_⟩
    · show (if m ≤ data.length then _ else _) = _
      rw [if_pos hle, mapAll_of_ok hsub, Outcome.bind_ok]
    · unfold lookups
      rw [List.map_map]
      apply List.map_congr_left
      intro i h
      have := hi i h
      show (data.drop m)[i - m]? = _
      rw [List.getElem?_drop]
      congr 1
      omega

theorem fastPruneIn_eq {α : Type} {j k : Nat} (b : Build) {data : List α} (hj : data.length < 2 ^ j) (hk : data.length < 2 ^ k)
    (indices : List Nat) : fastPruneIn j b data indices = fastPruneIn k b data indices := by
  unfold fastPruneIn
  rw [Nat.mod_eq_of_lt hj, Nat.mod_eq_of_lt hk]
  cases hp : pruneMin indices (if indices = [] then 0 else data.length) with
  | none => rfl
  | some m =>
    obtain ⟨-, hi⟩ := pruneMin_spec _ hp
    have hsub : ∀ k, ∀ i ∈ indices, subUIntIn k b i m = .ok (i - m) := by
      intro k i h
      rw [subUIntIn.eq_def, if_pos (hi i h)]
    simp only [mapAll_of_ok (hsub _)]

/-! ### Unifying -/

theorem comboLoopIn_cut {j k : Nat} (h : j ≤ k) (indices : List (List Nat)) : ∀ (l : List Nat) (c : Combos) (n : Nat),
    Both (fun x y => y.1 = cut j x.1 ∧ y.2 = x.2) (comboLoopIn k indices l c n) (comboLoopIn j indices l c n)
  | [], _, _ => .ok ⟨rfl, rfl⟩
  | i :: l, c, n => by
    rw [comboLoopIn, comboLoopIn]
    refine (Both.of_eq (R := Eq) (fun _ => rfl) rfl).bind fun a _ e => ?_
    subst e
    refine (comboLoopIn_cut h indices l _ _).bind fun x y hxy => .ok ⟨?_, hxy.2⟩
    show _ :: y.1 = cut j (_ :: x.1)
    rw [hxy.1, cut, cut, List.map_cons, Nat.mod_mod_of_dvd _ (pow_dvd_pow 2 h)]

theorem unifyCommonIn_cut {j k : Nat} (h : j ≤ k) (order : Combos → Combos) (indices : List (List Nat)) :
    Both (fun x y => y.1 = cut j x.1 ∧ y.2 = x.2) (unifyCommonIn k order indices) (unifyCommonIn j order indices) := by
  unfold unifyCommonIn
  cases indices with
  | nil => exact .panic
  | cons first rest =>
    simp only
    split_ifs
    · refine (comboLoopIn_cut h _ _ _ _).bind fun x y hxy => ?_
      obtain ⟨ids, c⟩ := x
      obtain ⟨ids', c'⟩ := y
      obtain ⟨h1, h2⟩ := hxy
      dsimp only at h1 h2
      subst h1 h2
      refine (Both.of_eq (R := Eq) (fun _ => rfl) rfl).bind fun a _ e => ?_
      subst e
      exact .ok ⟨rfl, rfl⟩
    · exact .panic

/-- `unifyCommon` in both types, then the same steps on the data. -/
theorem unifyCommonIn_bind {j k : Nat} (h : j ≤ k) (order : Combos → Combos) (indices : List (List Nat)) {β : Type} {R : β → β → Prop}
    {f g : List Nat × List (List Nat) → Outcome Empty β} (hfg : ∀ ids dm, Both R (f (ids, dm)) (g (cut j ids, dm))) :
    Both R (unifyCommonIn k order indices >>= f) (unifyCommonIn j order indices >>= g) := by
  refine (unifyCommonIn_cut h order indices).bind fun x y hxy => ?_
  obtain ⟨ids, dm⟩ := x
  obtain ⟨ids', dm'⟩ := y
  obtain ⟨h1, h2⟩ := hxy
  dsimp only at h1 h2
  subst h1 h2
  exact hfg ids dm'

theorem both_same {ε α β γ : Type} {R : β → γ → Prop} (x : Outcome ε α) {f : α → Outcome ε β} {g : α → Outcome ε γ}
    (h : ∀ a, Both R (f a) (g a)) : Both R (x >>= f) (x >>= g) := by
  cases x with
  | ok a => exact h a
  | err e => exact .err
  | panic => exact .panic

theorem mergeData2In_cut {j k : Nat} (h : j ≤ k) (order : Combos → Combos) {A B : Type} (ia ib : List Nat)
    (a : List A) (b : List B) : Both (fun x y => y = (cut j x.1, x.2))
      (mergeData2In k order ia ib a b) (mergeData2In j order ia ib a b) := by
  unfold mergeData2In
  exact unifyCommonIn_bind h order _ fun ids dm => both_same _ fun _ => both_same _ fun _ => .ok rfl

theorem smartMerge2In_cut {j k : Nat} (h : j ≤ k) (order : Combos → Combos) {A B : Type} (a : Option (List A)) (b : Option (List B))
    (ia ib : Option (List Nat)) : Both (fun x y => y = (x.1, x.2.1, x.2.2.map (cut j))) (smartMerge2In k order a b ia ib)
      (smartMerge2In j order a b ia ib) := by
  unfold smartMerge2In
  split_ifs
  · match a, ia, b, ib with
    | some a, some ia, some b, some ib =>
      refine (mergeData2In_cut h order ..).bind fun x y e => ?_
      subst e; exact .ok rfl
    | none, _, _, _ | some _, none, _, _ | some _, some _, none, _ | some _, some _, some _, none => exact .ok rfl
  · exact .ok rfl

theorem mergeData3In_cut {j k : Nat} (h : j ≤ k) (order : Combos → Combos) {A B C : Type} (ia ib ic : List Nat)
    (a : List A) (b : List B) (c : List C) : Both (fun x y => y = (cut j x.1, x.2))
      (mergeData3In k order ia ib ic a b c) (mergeData3In j order ia ib ic a b c) := by
  unfold mergeData3In
  exact unifyCommonIn_bind h order _ fun ids dm => both_same _ fun _ => both_same _ fun _ => both_same _ fun _ => .ok rfl

theorem smartMerge3In_cut {j k : Nat} (h : j ≤ k) (order : Combos → Combos) {A B C : Type} (a : Option (List A)) (b : Option (List B))
    (c : Option (List C)) (ia ib ic : Option (List Nat)) :
    Both (fun x y => y = (x.1, x.2.1, x.2.2.1, x.2.2.2.map (cut j))) (smartMerge3In k order a b c ia ib ic)
      (smartMerge3In j order a b c ia ib ic) := by
  unfold smartMerge3In
  split_ifs with _ ha hb hc
  · refine (smartMerge2In_cut h order ..).bind fun x y e => ?_
    subst e; exact .ok rfl
  · refine (smartMerge2In_cut h order ..).bind fun x y e => ?_
    subst e; exact .ok rfl
  · refine (smartMerge2In_cut h order ..).bind fun x y e => ?_
    subst e; exact .ok rfl
  · obtain ⟨a, ia, rfl, rfl⟩ := noData_false ha
    obtain ⟨b, ib, rfl, rfl⟩ := noData_false hb
    obtain ⟨c, ic, rfl, rfl⟩ := noData_false hc
    refine (mergeData3In_cut h order ..).bind fun x y e => ?_
    subst e; exact .ok rfl
  · exact .ok rfl

theorem mergeData4In_cut {j k : Nat} (h : j ≤ k) (order : Combos → Combos) {A B C D : Type} (ia ib ic id : List Nat)
    (a : List A) (b : List B) (c : List C) (d : List D) : Both (fun x y => y = (cut j x.1, x.2))
      (mergeData4In k order ia ib ic id a b c d) (mergeData4In j order ia ib ic id a b c d) := by
  unfold mergeData4In
  exact unifyCommonIn_bind h order _ fun ids dm => both_same _ fun _ => both_same _ fun _ => both_same _ fun _ => both_same _ fun _ => .ok rfl

theorem smartMerge4In_cut {j k : Nat} (h : j ≤ k) (order : Combos → Combos) {A B C D : Type} (a : Option (List A)) (b : Option (List B))
    (c : Option (List C)) (d : Option (List D)) (ia ib ic id : Option (List Nat)) :
    Both (fun x y => y = (x.1, x.2.1, x.2.2.1, x.2.2.2.1, x.2.2.2.2.map (cut j))) (smartMerge4In k order a b c d ia ib ic id)
      (smartMerge4In j order a b c d ia ib ic id) := by
  unfold smartMerge4In
  split_ifs with _ ha hb hc hd
  · refine (smartMerge3In_cut h order ..).bind fun x y e => ?_
    subst e; exact .ok rfl
  · refine (smartMerge3In_cut h order ..).bind fun x y e => ?_
    subst e; exact .ok rfl
  · refine (smartMerge3In_cut h order ..).bind fun x y e => ?_
    subst e; exact .ok rfl
  · refine (smartMerge3In_cut h order ..).bind fun x y e => ?_
    subst e; exact .ok rfl
  · obtain ⟨a, ia, rfl, rfl⟩ := noData_false ha
    obtain ⟨b, ib, rfl, rfl⟩ := noData_false hb
    obtain ⟨c, ic, rfl, rfl⟩ := noData_false hc
    obtain ⟨d, id, rfl, rfl⟩ := noData_false hd
    refine (mergeData4In_cut h order ..).bind fun x y e => ?_
    subst e; exact .ok rfl
  · exact .ok rfl

theorem cut_in {k : Nat} {l : List Nat} (h : ∀ i ∈ l, i < 2 ^ k) : cut k l = l := by
  rw [cut, List.map_congr_left (g := fun i => i) fun i hi => Nat.mod_eq_of_lt (h i hi), List.map_id']

theorem map_cut_in {k : Nat} {o : Option (List Nat)} (h : ∀ l, o = some l → ∀ i ∈ l, i < 2 ^ k) : o.map (cut k) = o := by
  cases o with
  | none => rfl
  | some l => rw [Option.map_some, cut_in (h l rfl)]

theorem takeMerged_cut {α : Type} {j : Nat} (a' : Option (List α)) (ids : List Nat) (a : Option (List α)) {ia : Option (List Nat)}
    (h : ∀ l, ia = some l → ∀ i ∈ l, i < 2 ^ j) :
    takeMerged a' (cut j ids) (a, ia) = ((takeMerged a' ids (a, ia)).1, (takeMerged a' ids (a, ia)).2.map (cut j)) := by
  cases a' with
  | none => exact Prod.ext rfl (map_cut_in h).symm
  | some d => rfl

theorem unifyIn_cut {F : Type} {j k : Nat} (h : j ≤ k) (order : Combos → Combos) {m : Mesh F} (hm : ArraysIn j m) :
    Both (fun x y => y = cutIndices j x) (m.unifyIndexDataIn k order) (m.unifyIndexDataIn j order) := by
  unfold Mesh.unifyIndexDataIn
  refine (smartMerge4In_cut h order ..).bind fun x y e => ?_
  subst e
  obtain ⟨v, n, u, t, i⟩ := x
  cases i with
  | none =>
    refine .ok ?_
    rw [cutIndices, map_cut_in hm.vertex, map_cut_in hm.normal, map_cut_in hm.uv, map_cut_in hm.tangent]
  | some ids =>
    refine .ok ?_
    simp only [takeMerged_cut _ _ _ hm.vertex, takeMerged_cut _ _ _ hm.normal, takeMerged_cut _ _ _ hm.uv,
      takeMerged_cut _ _ _ hm.tangent]
    rfl

theorem lookup_mem {α β : Type} [BEq α] [LawfulBEq α] {l : List (α × β)} {a : α} {x : β} (h : l.lookup a = some x) : (a, x) ∈ l := by
  induction l with
  | nil => cases h
  | cons e l ih =>
    rw [List.lookup_cons] at h
    split at h
    · rename_i he
      cases h
      have := eq_of_beq he
      subst this
      exact List.mem_cons_self
    · exact List.mem_cons_of_mem _ (ih h)

/-- With no more positions than the type has values, no id is cut. -/
theorem comboLoopIn_eq {j k : Nat} (indices : List (List Nat)) : ∀ (l : List Nat) (c : Combos) (n : Nat), (∀ e ∈ c, e.2 < n) →
    n + l.length ≤ 2 ^ j → n + l.length ≤ 2 ^ k → comboLoopIn j indices l c n = comboLoopIn k indices l c n
  | [], _, _, _, _, _ => rfl
  | i :: l, c, n, hc, hj, hk => by
    rw [List.length_cons] at hj hk
    rw [comboLoopIn, comboLoopIn]
    congr 1
    funext key
    have he : (c.entry key n).1 < n + 1 ∧ (∀ e ∈ (c.entry key n).2.1, e.2 < (c.entry key n).2.2) ∧ (c.entry key n).2.2 ≤ n + 1 := by
      unfold Combos.entry
      cases h : c.lookup key with
      | some id =>
        have := hc _ (lookup_mem h)
        exact ⟨by dsimp only at this ⊢; omega, hc, by dsimp only; omega⟩
      | none =>
        refine ⟨by dsimp only; omega, ?_, le_rfl⟩
        intro e he
        rcases List.mem_append.mp he with he | he
        · have := hc e he; dsimp only; omega
        · rcases List.mem_singleton.mp he with rfl; exact Nat.lt_succ_self n
    generalize c.entry key n = r at he
    obtain ⟨id, c', n'⟩ := r
    obtain ⟨h1, h2, h3⟩ := he
    dsimp only at h1 h2 h3 ⊢
    rw [comboLoopIn_eq (j := j) (k := k) indices l _ _ h2 (by omega) (by omega), Nat.mod_eq_of_lt (by omega), Nat.mod_eq_of_lt (by omega)]

theorem unifyCommonIn_eq {j k : Nat} (order : Combos → Combos) {first : List Nat} (rest : List (List Nat)) (hj : first.length ≤ 2 ^ j)
    (hk : first.length ≤ 2 ^ k) : unifyCommonIn j order (first :: rest) = unifyCommonIn k order (first :: rest) := by
  unfold unifyCommonIn
  simp only
  rw [comboLoopIn_eq (j := j) (k := k) _ _ _ _ (by simp) (by simpa using hj) (by simpa using hk)]

/-- The array is no longer than both types have values. -/
def NoLonger (j k : Nat) (o : Option (List Nat)) : Prop := ∀ t, o = some t → t.length ≤ 2 ^ j ∧ t.length ≤ 2 ^ k

theorem smartMerge2In_eq {j k : Nat} (order : Combos → Combos) {A B : Type} (a : Option (List A)) (b : Option (List B))
    {ia ib : Option (List Nat)} (ha : NoLonger j k ia) : smartMerge2In j order a b ia ib = smartMerge2In k order a b ia ib := by
  unfold smartMerge2In
  match a, ia, b, ib with
  | some a, some ia, some b, some ib =>
    simp only [mergeData2In, unifyCommonIn_eq order [ib] (ha ia rfl).1 (ha ia rfl).2]
  | none, _, _, _ | some _, none, _, _ | some _, some _, none, _ | some _, some _, some _, none => rfl

theorem smartMerge3In_eq {j k : Nat} (order : Combos → Combos) {A B C : Type} (a : Option (List A)) (b : Option (List B))
    (c : Option (List C)) {ia ib ic : Option (List Nat)} (ha : NoLonger j k ia) (hb : NoLonger j k ib) :
    smartMerge3In j order a b c ia ib ic = smartMerge3In k order a b c ia ib ic := by
  unfold smartMerge3In
  rw [smartMerge2In_eq order b c hb, smartMerge2In_eq order a c ha, smartMerge2In_eq order a b ha]
  split_ifs with _ ha' hb' hc'
  · rfl
  · rfl
  · rfl
  · obtain ⟨a, ia, rfl, rfl⟩ := noData_false ha'
    obtain ⟨b, ib, rfl, rfl⟩ := noData_false hb'
    obtain ⟨c, ic, rfl, rfl⟩ := noData_false hc'
    simp only [mergeData3In, unifyCommonIn_eq order [ib, ic] (ha ia rfl).1 (ha ia rfl).2]
  · rfl

theorem smartMerge4In_eq {j k : Nat} (order : Combos → Combos) {A B C D : Type} (a : Option (List A)) (b : Option (List B))
    (c : Option (List C)) (d : Option (List D)) {ia ib ic id : Option (List Nat)} (ha : NoLonger j k ia) (hb : NoLonger j k ib)
    (hc : NoLonger j k ic) : smartMerge4In j order a b c d ia ib ic id = smartMerge4In k order a b c d ia ib ic id := by
  unfold smartMerge4In
  rw [smartMerge3In_eq order b c d hb hc, smartMerge3In_eq order a c d ha hc, smartMerge3In_eq order a b d ha hb,
    smartMerge3In_eq order a b c ha hb]
  split_ifs with _ ha' hb' hc' hd'
  · rfl
  · rfl
  · rfl
  · rfl
  · obtain ⟨a, ia, rfl, rfl⟩ := noData_false ha'
    obtain ⟨b, ib, rfl, rfl⟩ := noData_false hb'
    obtain ⟨c, ic, rfl, rfl⟩ := noData_false hc'
    obtain ⟨d, id, rfl, rfl⟩ := noData_false hd'
    simp only [mergeData4In, unifyCommonIn_eq order [ib, ic, id] (ha ia rfl).1 (ha ia rfl).2]
  · rfl

theorem unifyIn_eq {F : Type} {j k : Nat} (order : Combos → Combos) {m : Mesh F} (hv : NoLonger j k m.vertexTriangles)
    (hn : NoLonger j k m.normalTriangles) (hu : NoLonger j k m.uvTriangles) : m.unifyIndexDataIn j order = m.unifyIndexDataIn k order := by
  unfold Mesh.unifyIndexDataIn
  rw [smartMerge4In_eq order _ _ _ _ hv hn hu]

/-! One index array with few different indices cannot tell many corners apart. -/

theorem selected_at {α : Type} {d : Option (List α)} {o : Option (List Nat)} {t : List Nat} (h : IndexedBy d o t) {p q : Nat}
    (e : t[p]? = t[q]?) : (selected d o).bind (·[p]?) = (selected d o).bind (·[q]?) := by
  cases d with
  | none => rfl
  | some d =>
    cases o with
    | none => rfl
    | some t' =>
      obtain rfl := Option.some.inj (h rfl rfl)
      simp only [selected, lookups, Option.bind_some, List.getElem?_map, e]

theorem repeated {t : List Nat} {k n : Nat} (ht : ∀ i ∈ t, i < 2 ^ k) (hl : n ≤ t.length) (hn : 2 ^ k < n) :
    ∃ p q, p < n ∧ q < n ∧ p ≠ q ∧ t[p]? = t[q]? := by
  obtain ⟨p, q, hne, e⟩ := Fintype.exists_ne_map_eq_of_card_lt
    (fun p : Fin n => (⟨t[p.1]'(by omega), ht _ (List.getElem_mem _)⟩ : Fin (2 ^ k))) (by simpa using hn)
  refine ⟨p.1, q.1, p.2, q.2, fun h => hne (Fin.ext h), ?_⟩
  rw [List.getElem?_eq_getElem (by omega), List.getElem?_eq_getElem (by omega)]
  exact congrArg some (Fin.mk.inj_iff.mp e)

theorem slot_at {α : Type} {n : Nat} {d : Option (List α)} {o : Option (List Nat)} (h : Slot n d o) {p q : Nat} (hp : p < n)
    (e : (selected d o).bind (·[p]?) = none) : (selected d o).bind (·[q]?) = none := by
  cases d with
  | none => rfl
  | some d =>
    cases o with
    | none => rfl
    | some t =>
      have := (h d t rfl rfl).2
      simp only [selected, lookups, Option.bind_some, List.getElem?_map, Option.map_eq_none_iff, List.getElem?_eq_none_iff] at e
      omega

theorem indexed_length {α : Type} {d : Option (List α)} {o : Option (List Nat)} {t : List Nat} (h : IndexedBy d o t) {p : Nat}
    (e : (selected d o).bind (·[p]?) ≠ none) : p < t.length := by
  cases d with
  | none => exact absurd rfl e
  | some d =>
    cases o with
    | none => exact absurd rfl e
    | some t' =>
      obtain rfl := Option.some.inj (h rfl rfl)
      simp only [selected, lookups, Option.bind_some, List.getElem?_map, ne_eq, Option.map_eq_none_iff, List.getElem?_eq_none_iff] at e
      omega

/-- A mesh with one index array cannot have the corners of one with more different corners than there are indices. -/
theorem corners_confused {F : Type} {m m' : Mesh F} {n k : Nat} (hm : UnifyInput m n) (hn : 2 ^ k < n)
    (hd : ∀ p < n, ∀ q < n, cornerAt m p = cornerAt m q → p = q) {t : List Nat} (ht : ∀ i ∈ t, i < 2 ^ k)
    (hv : IndexedBy m'.vertices m'.vertexTriangles t) (hno : IndexedBy m'.normals m'.normalTriangles t)
    (hu : IndexedBy m'.uvs m'.uvTriangles t) (hta : IndexedBy m'.tangents m'.tangentTriangles t) :
    ∃ p < n, cornerAt m' p ≠ cornerAt m p := by
  by_contra hc
  have hc : ∀ p < n, cornerAt m' p = cornerAt m p := fun p hp => by
    by_contra h
    exact hc ⟨p, hp, h⟩
  have h2 : 1 < n := by have := Nat.pos_of_ne_zero (show 2 ^ k ≠ 0 by simp); omega
  have hl : n ≤ t.length := by
    have hlast := hc (n - 1) (by omega)
    unfold cornerAt at hlast
    simp only [Prod.mk.injEq] at hlast
    obtain ⟨e1, e2, e3, e4⟩ := hlast
    by_contra hlt
    have g1 : (selected m.vertices m.vertexTriangles).bind (·[n - 1]?) = none := by
      rw [← e1]; by_contra h; have := indexed_length hv h; omega
    have g2 : (selected m.normals m.normalTriangles).bind (·[n - 1]?) = none := by
      rw [← e2]; by_contra h; have := indexed_length hno h; omega
    have g3 : (selected m.uvs m.uvTriangles).bind (·[n - 1]?) = none := by
      rw [← e3]; by_contra h; have := indexed_length hu h; omega
    have g4 : (selected m.tangents m.tangentTriangles).bind (·[n - 1]?) = none := by
      rw [← e4]; by_contra h; have := indexed_length hta h; omega
    have : 0 = 1 := hd 0 (by omega) 1 h2 (by
      unfold cornerAt
      rw [slot_at hm.vertices (q := 0) (by omega) g1, slot_at hm.vertices (q := 1) (by omega) g1,
        slot_at hm.normals (q := 0) (by omega) g2, slot_at hm.normals (q := 1) (by omega) g2,
        slot_at hm.uvs (q := 0) (by omega) g3, slot_at hm.uvs (q := 1) (by omega) g3,
        slot_at hm.tangents (q := 0) (by omega) g4, slot_at hm.tangents (q := 1) (by omega) g4])
    cases this
  obtain ⟨p, q, hp, hq, hne, e⟩ := repeated ht hl hn
  refine hne (hd p hp q hq ?_)
  rw [← hc p hp, ← hc q hq]
  unfold cornerAt
  rw [selected_at hv e, selected_at hno e, selected_at hu e, selected_at hta e]

theorem indexedBy_cut {α : Type} {d : Option (List α)} {o : Option (List Nat)} {t : List Nat} (k : Nat) (h : IndexedBy d o t) :
    IndexedBy d (o.map (cut k)) (cut k t) := by
  intro hd ho
  rw [h hd (by simpa using ho)]
  rfl

theorem cut_lt {k : Nat} {t : List Nat} : ∀ i ∈ cut k t, i < 2 ^ k := by
  intro i hi
  obtain ⟨x, -, rfl⟩ := List.mem_map.mp hi
  exact Nat.mod_lt _ (by positivity)

/-! ### Reading .obj -/

variable {fo : FloatOps}

theorem digitsValue_iff (ds : List UInt8) : ∀ (acc n : Nat), digitsValue acc ds = some n ↔
    (∀ c ∈ ds, 48 ≤ c.toNat ∧ c.toNat ≤ 57) ∧ n = ds.foldl (fun x c => 10 * x + (c.toNat - 48)) acc := by
  induction ds with
  | nil => intro acc n; simp [digitsValue, eq_comm]
  | cons c ds ih =>
    intro acc n
    rw [digitsValue, List.forall_mem_cons, List.foldl_cons]
    by_cases hc : 48 ≤ c.toNat ∧ c.toNat ≤ 57
    · have : digit? c = some (c.toNat - 48) := by rw [digit?, if_pos hc]
      rw [this]
      simp only [ih, hc, true_and]
    · have : digit? c = none := by rw [digit?, if_neg hc]
      rw [this]
      simp [hc]

theorem numeral_iff {w : List UInt8} {n : Nat} : Numeral w n ↔ unsignedDigits w ≠ [] ∧ digitsValue 0 (unsignedDigits w) = some n := by
  rw [digitsValue_iff]
  constructor
  · rintro ⟨ds, hne, hw, hd, hn⟩
    have : unsignedDigits w = ds := by
      rcases hw with rfl | rfl
      · match w, hne, hd with
        | c :: rest, _, hd =>
          have := (hd c List.mem_cons_self).1
          rw [unsignedDigits, if_neg]
          rintro rfl
          exact absurd this (by decide)
      · rw [unsignedDigits, if_pos rfl]
    rw [this]
    exact ⟨hne, hd, hn⟩
  · rintro ⟨hne, hd, hn⟩
    refine ⟨_, hne, ?_, hd, hn⟩
    match w with
    | [] => exact .inl rfl
    | c :: rest =>
      rw [unsignedDigits]
      split_ifs with h
      · exact .inr (by rw [h])
      · exact .inl rfl

theorem parseUIntIn_iff {k : Nat} {w : List UInt8} {n : Nat} : parseUIntIn k w = some n ↔ Numeral w n ∧ n < 2 ^ k := by
  rw [numeral_iff, parseUIntIn]
  by_cases he : unsignedDigits w = []
  · simp [he]
  · rw [if_neg he]
    cases hd : digitsValue 0 (unsignedDigits w) with
    | none => simp
    | some v =>
      simp only [Option.some.injEq, ne_eq, he, not_false_eq_true, true_and]
      by_cases hv : v < 2 ^ k
      · rw [if_pos hv, Option.some.injEq]
        constructor
        · rintro rfl; exact ⟨rfl, hv⟩
        · exact fun h => h.1
      · rw [if_neg hv]
        constructor
        · intro h; cases h
        · rintro ⟨rfl, h⟩; exact absurd h hv

theorem parseIndexIn_eq {j k : Nat} {w : List UInt8} (hj : ∀ n, Numeral w n → n < 2 ^ j) (hk : ∀ n, Numeral w n → n < 2 ^ k) :
    parseIndexIn j w = parseIndexIn k w := by
  have : parseUIntIn j w = parseUIntIn k w := by
    apply Option.ext
    intro n
    rw [parseUIntIn_iff, parseUIntIn_iff]
    exact ⟨fun h => ⟨h.1, hk n h.1⟩, fun h => ⟨h.1, hj n h.1⟩⟩
  rw [parseIndexIn, parseIndexIn, this]

theorem numeral_unique {w : List UInt8} {n n' : Nat} (h : Numeral w n) (h' : Numeral w n') : n = n' := by
  have h := (numeral_iff.mp h).2
  have h' := (numeral_iff.mp h').2
  rw [h] at h'
  exact Option.some.inj h'

theorem parseIndexIn_orOne (k : Nat) (w : List UInt8) : parseIndexIn k (orOneIn k w) = parseIndexIn k w := by
  rw [orOneIn]
  split_ifs with h
  · obtain ⟨n, hn, hk⟩ := h
    have hw : parseUIntIn k w = none := by
      cases hp : parseUIntIn k w with
      | none => rfl
      | some v =>
        obtain ⟨h1, h2⟩ := parseUIntIn_iff.mp hp
        have := numeral_unique hn h1
        omega
    have h1 : (parseUIntIn k (ascii "1")).getD 1 = 1 := by
      cases hp : parseUIntIn k (ascii "1") with
      | none => rfl
      | some v =>
        have : Numeral (ascii "1") 1 := ⟨[49], by decide, .inl (by decide), by decide, rfl⟩
        exact (numeral_unique this (parseUIntIn_iff.mp hp).1).symm
    rw [parseIndexIn, parseIndexIn, hw, h1]
    rfl
  · rfl

theorem orOneIn_ascii {k : Nat} {w : List UInt8} (h : AsciiWord w) : AsciiWord (orOneIn k w) := by
  rw [orOneIn]
  split_ifs
  · unfold AsciiWord; decide
  · exact h

theorem loadIndicesIn_words (k : Nat) (w0 w1 w2 : List UInt8) (ws : List (List UInt8)) : loadIndicesIn k (w0 :: w1 :: w2 :: ws) =
    if parseIndexIn k w0 < 1 ∨ parseIndexIn k w1 < 1 ∨ parseIndexIn k w2 < 1 then .err .other
    else .ok ((parseIndexIn k w0 - 1, parseIndexIn k w1 - 1, parseIndexIn k w2 - 1), ws) := rfl

/-- Only the values of the words matter. -/
theorem loadFaceLoopIn_values (j k : Nat) : ∀ (fuel : Nat) (ws ws' : List (List UInt8)) (v u n : List Nat),
    ws.map (parseIndexIn j) = ws'.map (parseIndexIn k) → loadFaceLoopIn j fuel ws v u n = loadFaceLoopIn k fuel ws' v u n
  | 0, _, _, _, _, _, _ => rfl
  | fuel + 1, ws, ws', v, u, n, h => by
    have hl : ws.length = ws'.length := by simpa using congrArg List.length h
    match ws, ws', h, hl with
    | w0 :: w1 :: w2 :: ws, w0' :: w1' :: w2' :: ws', h, _ =>
      simp only [List.map_cons, List.cons.injEq] at h
      obtain ⟨h0, h1, h2, h⟩ := h
      rw [loadFaceLoopIn, loadFaceLoopIn, loadIndicesIn_words, loadIndicesIn_words, h0, h1, h2]
      split_ifs with hc
      · rfl
      · exact loadFaceLoopIn_values j k fuel ws ws' _ _ _ h
    | [], [], _, _ => rfl
    | [_], [_], _, _ => rfl
    | [_, _], [_, _], _, _ => rfl

theorem loadFaceIn_values {F : Type} {j k : Nat} (face : PushFace F) {ws ws' : List (List UInt8)}
    (h : ws.map (parseIndexIn j) = ws'.map (parseIndexIn k)) (oi : Importer F) : loadFaceIn j face ws oi = loadFaceIn k face ws' oi := by
  have hl : ws.length = ws'.length := by simpa using congrArg List.length h
  rw [loadFaceIn, loadFaceIn, loadFaceLoopIn_values _ _ _ _ _ _ _ _ h, hl]

/-- One or no mesh. -/
def OptRel {α β : Type} (R : α → β → Prop) (x : Option α) (y : Option β) : Prop := List.Forall₂ R x.toList y.toList

theorem Both.widen {α β : Type} {ε : Type} {R : α → β → Prop} {x : Outcome Empty α} {y : Outcome Empty β} (h : Both R x y) :
    Both R (x.widen (ε := ε)) y.widen := by
  cases h with
  | ok h => exact .ok h
  | err => rename_i e; exact e.elim
  | panic => exact .panic

/-- Reading with two types, if the builds of meshes are related and the faces of the lines have the same values. `P` says
what is known of the state when some lines are left. -/
theorem readObjLoopIn_both {j k : Nat} (ft : FloatText fo) (face : PushFace fo.F) (b : Build)
    {R : Mesh fo.F × List UInt8 → Mesh fo.F × List UInt8 → Prop} {P : Importer fo.F → List (List UInt8) → Prop}
    (hb : ∀ oi ls, P oi ls → Both (fun m m' => R (m, oi.name) (m', oi.name)) (oi.buildIn j b) (oi.buildIn k b))
    (hP : ∀ oi line ls r, P oi (line :: ls) → parseLineIn j ft face b line oi = .ok r → P r.2 ls) :
    ∀ (ls : List (List UInt8)) (oi : Importer fo.F), P oi ls →
      (∀ line ∈ ls, ∀ ws, splitBytes isObjSep line = ascii "f" :: ws → ws.map (parseIndexIn j) = ws.map (parseIndexIn k)) →
      Both (List.Forall₂ R) (readObjLoopIn j ft face b ls oi) (readObjLoopIn k ft face b ls oi)
  | [], oi, h, _ => by
    rw [readObjLoopIn, readObjLoopIn]
    refine (Both.widen (R := R) ?_).bind fun m m' hm => .ok (.cons hm .nil)
    exact (hb oi [] h).bind fun m m' hm => .ok hm
  | line :: ls, oi, h, hw => by
    have hline : Both (fun x y => OptRel R x.1 y.1 ∧ y.2 = x.2) (parseLineIn j ft face b line oi) (parseLineIn k ft face b line oi) := by
      unfold parseLineIn
      split_ifs
      · cases hs : splitBytes isObjSep line with
        | nil => exact .err
        | cons beg ws =>
          simp only [nextWord, bind, Outcome.bind]
          unfold parseWordsIn
          split_ifs with _ _ _ h4 h5
          · exact both_same _ fun x => .ok ⟨.nil, rfl⟩
          · exact both_same _ fun x => .ok ⟨.nil, rfl⟩
          · exact both_same _ fun x => .ok ⟨.nil, rfl⟩
          · rw [loadFaceIn_values face (hw line List.mem_cons_self ws (by rw [hs, h4]))]
            exact both_same _ fun oi => .ok ⟨.nil, rfl⟩
          · refine both_same _ fun a => Both.widen ?_
            unfold Importer.nextMeshIn
            split_ifs
            · exact .ok ⟨.nil, rfl⟩
            · exact (hb oi _ h).bind fun m m' hm => .ok ⟨.cons hm .nil, rfl⟩
          · exact .ok ⟨.nil, rfl⟩
      · exact .err
    rw [readObjLoopIn, readObjLoopIn]
    cases hx : parseLineIn j ft face b line oi with
    | err e => rw [hx] at hline; generalize parseLineIn k ft face b line oi = y at hline ⊢; cases hline; exact .err
    | panic => rw [hx] at hline; generalize parseLineIn k ft face b line oi = y at hline ⊢; cases hline; exact .panic
    | ok r =>
      have hr := hP oi line ls r h hx
      rw [hx] at hline
      generalize parseLineIn k ft face b line oi = y at hline ⊢
      cases hline with
      | @ok _ r' hrr =>
        obtain ⟨m, oi1⟩ := r
        obtain ⟨m', oi2⟩ := r'
        obtain ⟨h1, h2⟩ := hrr
        dsimp only at h1 h2 hr
        subst h2
        refine (readObjLoopIn_both ft face b hb hP ls oi2 hr fun l hl => hw l (List.mem_cons_of_mem _ hl)).bind fun ms ms' hm => .ok ?_
        exact List.rel_append h1 hm

theorem numbersIn_values {j k : Nat} {text : List UInt8} (hj : NumbersIn j text) (hk : NumbersIn k text) :
    ∀ line ∈ textLines text, ∀ ws, splitBytes isObjSep line = ascii "f" :: ws → ws.map (parseIndexIn j) = ws.map (parseIndexIn k) := by
  intro line hl ws hs
  apply List.map_congr_left
  intro w hw
  have : FaceWord text w := ⟨line, hl, ws, hs, hw⟩
  exact parseIndexIn_eq (fun n hn => hj w n this hn) fun n hn => hk w n this hn

theorem buildIn_selection {F : Type} (j k : Nat) (b : Build) (oi : Importer F) :
    Both (fun m m' => SameSelection (m, oi.name) (m', oi.name)) (oi.buildIn j b) (oi.buildIn k b) := by
  obtain ⟨v1, i1, e1, -, l1⟩ := fastPruneIn_ok j b oi.vertices oi.vertexTriangles
  obtain ⟨v2, i2, e2, -, l2⟩ := fastPruneIn_ok j b oi.normals oi.normalTriangles
  obtain ⟨v3, i3, e3, -, l3⟩ := fastPruneIn_ok j b oi.uvs oi.uvTriangles
  obtain ⟨v1', i1', e1', -, l1'⟩ := fastPruneIn_ok k b oi.vertices oi.vertexTriangles
  obtain ⟨v2', i2', e2', -, l2'⟩ := fastPruneIn_ok k b oi.normals oi.normalTriangles
  obtain ⟨v3', i3', e3', -, l3'⟩ := fastPruneIn_ok k b oi.uvs oi.uvTriangles
  unfold Importer.buildIn
  rw [e1, e2, e3, e1', e2', e3']
  exact .ok ⟨rfl, congrArg some (l1'.trans l1.symm), congrArg some (l2'.trans l2.symm), congrArg some (l3'.trans l3.symm)⟩

/-- The state has fewer elements than the type has values, and so it will be when the lines have been read. -/
structure StateIn (k : Nat) (oi : Importer fo.F) (ls : List (List UInt8)) : Prop where
  vertices : oi.vertices.length + (ls.countP fun line => (splitBytes isObjSep line).head? = some (ascii "v")) < 2 ^ k
  normals : oi.normals.length + (ls.countP fun line => (splitBytes isObjSep line).head? = some (ascii "vn")) < 2 ^ k
  uvs : oi.uvs.length + (ls.countP fun line => (splitBytes isObjSep line).head? = some (ascii "vt")) < 2 ^ k

theorem stateIn_step {j k : Nat} (ft : FloatText fo) {face : PushFace fo.F} (hf : AddsIndices face) (b : Build) {oi : Importer fo.F}
    {line : List UInt8} {ls : List (List UInt8)} {r : Option (Mesh fo.F × List UInt8) × Importer fo.F}
    (h : StateIn k oi (line :: ls)) (hr : parseLineIn j ft face b line oi = .ok r) : StateIn k r.2 ls := by
  obtain ⟨h1, h2, h3⟩ := h
  rw [List.countP_cons] at h1 h2 h3
  unfold parseLineIn at hr
  split_ifs at hr
  cases hs : splitBytes isObjSep line with
  | nil => rw [hs] at hr; cases hr
  | cons beg ws =>
    rw [hs] at hr h1 h2 h3
    simp only [nextWord, bind, Outcome.bind] at hr
    simp only [List.head?_cons, Option.some.injEq] at h1 h2 h3
    unfold parseWordsIn at hr
    split_ifs at hr with c1 c2 c3 c4 c5
    · cases hx : loadVec3 ft ws with
      | err e => rw [hx] at hr; cases hr
      | panic => rw [hx] at hr; cases hr
      | ok x =>
        rw [hx] at hr; cases hr
        simp only [c1, decide_true, if_true] at h1
        exact ⟨by rw [List.length_append, List.length_singleton]; omega, by show oi.normals.length + _ < _; omega, by show oi.uvs.length + _ < _; omega⟩
    · cases hx : loadVec3 ft ws with
      | err e => rw [hx] at hr; cases hr
      | panic => rw [hx] at hr; cases hr
      | ok x =>
        rw [hx] at hr; cases hr
        simp only [c2, decide_true, if_true] at h2
        exact ⟨by show oi.vertices.length + _ < _; omega, by rw [List.length_append, List.length_singleton]; omega, by show oi.uvs.length + _ < _; omega⟩
    · cases hx : loadVec2 ft ws with
      | err e => rw [hx] at hr; cases hr
      | panic => rw [hx] at hr; cases hr
      | ok x =>
        rw [hx] at hr; cases hr
        simp only [c3, decide_true, if_true] at h3
        exact ⟨by show oi.vertices.length + _ < _; omega, by show oi.normals.length + _ < _; omega, by rw [List.length_append, List.length_singleton]; omega⟩
    · cases hx : loadFaceIn j face ws oi with
      | err e => rw [hx] at hr; cases hr
      | panic => rw [hx] at hr; cases hr
      | ok x =>
        rw [hx] at hr; cases hr
        unfold loadFaceIn at hx
        cases hl : loadFaceLoopIn j (ws.length + 1) ws [] [] [] with
        | err e => rw [hl] at hx; cases hx
        | panic => rw [hl] at hx; cases hx
        | ok y =>
          rw [hl] at hx
          obtain ⟨e1, e2, e3⟩ := hf _ _ _ _ _ hx
          exact ⟨by rw [e1]; omega, by rw [e2]; omega, by rw [e3]; omega⟩
    · cases ws with
      | nil => cases hr
      | cons name ws =>
        have hn : r.2.vertices = oi.vertices ∧ r.2.normals = oi.normals ∧ r.2.uvs = oi.uvs := by
          change (oi.nextMeshIn j b name).widen = .ok r at hr
          unfold Importer.nextMeshIn at hr
          split_ifs at hr
          · cases hr; exact ⟨rfl, rfl, rfl⟩
          · cases hx : oi.buildIn j b with
            | err e => cases e
            | panic => rw [hx] at hr; cases hr
            | ok m => rw [hx] at hr; cases hr; exact ⟨rfl, rfl, rfl⟩
        exact ⟨by rw [hn.1]; omega, by rw [hn.2.1]; omega, by rw [hn.2.2]; omega⟩
    · cases hr
      dsimp only
      exact ⟨by omega, by omega, by omega⟩

theorem buildIn_eq {j k : Nat} (b : Build) {oi : Importer fo.F} {ls : List (List UInt8)} (hj : StateIn j oi ls) (hk : StateIn k oi ls) :
    oi.buildIn j b = oi.buildIn k b := by
  obtain ⟨a1, a2, a3⟩ := hj
  obtain ⟨c1, c2, c3⟩ := hk
  unfold Importer.buildIn
  rw [fastPruneIn_eq (j := j) (k := k) b (by omega) (by omega), fastPruneIn_eq (j := j) (k := k) b (data := oi.normals) (by omega) (by omega),
    fastPruneIn_eq (j := j) (k := k) b (data := oi.uvs) (by omega) (by omega)]

theorem forall₂_eq {α : Type} {l l' : List α} (h : List.Forall₂ (fun x y => x = y) l l') : l = l' := by
  induction h with
  | nil => rfl
  | cons h _ ih => rw [h, ih]

theorem readObjIn_eq {j k : Nat} (ft : FloatText fo) {face : PushFace fo.F} (hf : AddsIndices face) (b : Build) {text : List UInt8}
    (hj : NumbersIn j text) (hk : NumbersIn k text) (lj : LinesIn j text) (lk : LinesIn k text) :
    readFromObjIn j ft face b text = readFromObjIn k ft face b text := by
  have := readObjLoopIn_both (j := j) (k := k) ft face b (R := fun x y => x = y) (P := fun oi ls => StateIn j oi ls ∧ StateIn k oi ls)
    (fun oi ls h => Both.of_eq (R := fun m m' => (m, oi.name) = (m', oi.name)) (fun _ => rfl) (buildIn_eq b h.1 h.2))
    (fun oi line ls r h hr => ⟨stateIn_step ft hf b h.1 hr, stateIn_step ft hf b h.2 hr⟩) (textLines text) .new
    ⟨⟨by simpa [Importer.new, linesWith] using lj.vertices, by simpa [Importer.new, linesWith] using lj.normals, by simpa [Importer.new, linesWith] using lj.uvs⟩,
      ⟨by simpa [Importer.new, linesWith] using lk.vertices, by simpa [Importer.new, linesWith] using lk.normals, by simpa [Importer.new, linesWith] using lk.uvs⟩⟩
    (numbersIn_values hj hk)
  unfold readFromObjIn
  generalize readObjLoopIn j ft face b (textLines text) .new = x at this
  generalize readObjLoopIn k ft face b (textLines text) .new = y at this
  cases this with
  | ok h => rw [forall₂_eq h]
  | err => rfl
  | panic => rfl

theorem pushFace_adds {F : Type} : AddsIndices (Importer.pushFace (F := F)) := by
  intro v u n oi oi' h
  rw [Importer.pushFace, Importer.pushFaceWith] at h
  split_ifs at h
  cases h
  exact ⟨rfl, rfl, rfl⟩

theorem triangulateLoop_adds (acos : fo.F → fo.F) : ∀ (fuel : Nat) (v n u : List Nat) (ears : List fo.F) (oi oi' : Importer fo.F),
    triangulateLoop fo acos fuel v n u ears oi = .ok oi' → oi'.vertices = oi.vertices ∧ oi'.normals = oi.normals ∧ oi'.uvs = oi.uvs
  | 0, _, _, _, _, _, _, h => by cases h
  | fuel + 1, v, n, u, ears, oi, oi', h => by
    rw [triangulateLoop] at h
    split_ifs at h
    · obtain ⟨_, _, h⟩ := Outcome.bind_eq_ok.mp h
      obtain ⟨_, _, h⟩ := Outcome.bind_eq_ok.mp h
      obtain ⟨_, _, h⟩ := Outcome.bind_eq_ok.mp h
      obtain ⟨_, _, h⟩ := Outcome.bind_eq_ok.mp h
      obtain ⟨_, _, h⟩ := Outcome.bind_eq_ok.mp h
      obtain ⟨_, _, h⟩ := Outcome.bind_eq_ok.mp h
      obtain ⟨_, _, h⟩ := Outcome.bind_eq_ok.mp h
      obtain ⟨_, _, h⟩ := Outcome.bind_eq_ok.mp h
      obtain ⟨_, _, h⟩ := Outcome.bind_eq_ok.mp h
      obtain ⟨_, _, h⟩ := Outcome.bind_eq_ok.mp h
      obtain ⟨_, _, h⟩ := Outcome.bind_eq_ok.mp h
      obtain ⟨_, _, h⟩ := Outcome.bind_eq_ok.mp h
      have := triangulateLoop_adds acos fuel _ _ _ _ _ _ h
      exact this
    · obtain ⟨_, _, h⟩ := Outcome.bind_eq_ok.mp h
      obtain ⟨_, _, h⟩ := Outcome.bind_eq_ok.mp h
      obtain ⟨_, _, h⟩ := Outcome.bind_eq_ok.mp h
      cases h
      exact ⟨rfl, rfl, rfl⟩

theorem pushFaceTri_adds (acos : fo.F → fo.F) : AddsIndices (Importer.pushFaceTri fo acos) := by
  intro v u n oi oi' h
  rw [Importer.pushFaceTri, Importer.pushFaceWith] at h
  split_ifs at h
  · cases h
    exact ⟨rfl, rfl, rfl⟩
  · rw [triangulate] at h
    cases he : earVals fo acos oi.vertices v (List.range v.length) with
    | err e => cases e
    | panic => rw [he] at h; cases h
    | ok ears =>
      rw [he] at h
      cases ht : triangulateLoop fo acos v.length v n u ears oi with
      | err e => cases e
      | panic => rw [Outcome.bind_ok, ht] at h; cases h
      | ok x =>
        rw [Outcome.bind_ok, ht] at h
        cases h
        exact triangulateLoop_adds acos _ _ _ _ _ _ _ ht

theorem parseLineIn_faceLine (k : Nat) (ft : FloatText fo) (face : PushFace fo.F) (b : Build) {ws : List (List UInt8)}
    (h : ∀ w ∈ ws, AsciiWord w) (oi : Importer fo.F) :
    parseLineIn k ft face b (faceLine ws) oi = (loadFaceIn k face ws oi >>= fun oi => .ok (none, oi)) := by
  have hs : splitBytes isObjSep (faceLine ws) = ascii "f" :: ws :=
    splitBytes_list ws [102] (by unfold IsWord; decide) fun w hw c hc => ⟨(h w hw c hc).2.1, (h w hw c hc).2.2.1⟩
  have e1 : ascii "f" ≠ ascii "v" := by decide
  have e2 : ascii "f" ≠ ascii "vn" := by decide
  have e3 : ascii "f" ≠ ascii "vt" := by decide
  rw [parseLineIn, if_pos (validUtf8_ascii fun c hc => (faceLine_chars h c hc).1), hs]
  simp only [nextWord, bind, Outcome.bind, parseWordsIn, if_neg e1, if_neg e2, if_neg e3, if_true]

theorem readObjLoopIn_congr (k : Nat) (ft : FloatText fo) (face : PushFace fo.F) (b : Build) {l l' : List (List UInt8)}
    (h : ∀ oi, readObjLoopIn k ft face b l oi = readObjLoopIn k ft face b l' oi) : ∀ (ls : List (List UInt8)) (oi : Importer fo.F),
    readObjLoopIn k ft face b (ls ++ l) oi = readObjLoopIn k ft face b (ls ++ l') oi
  | [], oi => h oi
  | line :: ls, oi => by
    rw [List.cons_append, List.cons_append, readObjLoopIn, readObjLoopIn]
    simp only [readObjLoopIn_congr k ft face b h ls]

/-- Faces of words with the same values can be exchanged. -/
theorem readFromObjIn_values (k : Nat) (ft : FloatText fo) (face : PushFace fo.F) (b : Build) {pre post : List UInt8}
    (hpre : pre = [] ∨ ∃ p, pre = p ++ [10]) {ws ws' : List (List UInt8)} (hw : ∀ w ∈ ws, AsciiWord w) (hw' : ∀ w ∈ ws', AsciiWord w)
    (h : ws.map (parseIndexIn k) = ws'.map (parseIndexIn k)) :
    readFromObjIn k ft face b (pre ++ faceLine ws ++ 10 :: post) = readFromObjIn k ft face b (pre ++ faceLine ws' ++ 10 :: post) := by
  obtain ⟨ls, ls', e⟩ := textLines_around hpre post
  rw [readFromObjIn, readFromObjIn, e _ fun c hc => (faceLine_chars hw c hc).2, e _ fun c hc => (faceLine_chars hw' c hc).2]
  apply readObjLoopIn_congr
  intro oi
  rw [readObjLoopIn, readObjLoopIn, parseLineIn_faceLine k ft face b hw, parseLineIn_faceLine k ft face b hw', loadFaceIn_values face h]

/-! ### Writing .obj -/

theorem addUIntIn_ok {k : Nat} (b : Build) {x y : Nat} (h : x + y < 2 ^ k) : addUIntIn k b x y = .ok (x + y) := by
  rw [addUIntIn.eq_def, if_pos h]

theorem uvTextIn_eq {j k : Nat} (b : Build) {u n : Option (List Nat)} {o : Nat} (hj : ∀ t, u = some t → ∀ i ∈ t, i + o < 2 ^ j)
    (hk : ∀ t, u = some t → ∀ i ∈ t, i + o < 2 ^ k) (i : Nat) : uvTextIn j b u n o i = uvTextIn k b u n o i := by
  cases u with
  | none => rfl
  | some t =>
    rw [uvTextIn, uvTextIn, indexAt]
    cases h : t[i]? with
    | none => rfl
    | some x =>
      have hx := List.mem_of_getElem? h
      simp only [Outcome.bind_ok, addUIntIn_ok b (hj t rfl x hx), addUIntIn_ok b (hk t rfl x hx)]

theorem normalTextIn_eq {j k : Nat} (b : Build) {n : Option (List Nat)} {o : Nat} (hj : ∀ t, n = some t → ∀ i ∈ t, i + o < 2 ^ j)
    (hk : ∀ t, n = some t → ∀ i ∈ t, i + o < 2 ^ k) (i : Nat) : normalTextIn j b n o i = normalTextIn k b n o i := by
  cases n with
  | none => rfl
  | some t =>
    rw [normalTextIn, normalTextIn, indexAt]
    cases h : t[i]? with
    | none => rfl
    | some x =>
      have hx := List.mem_of_getElem? h
      simp only [Outcome.bind_ok, addUIntIn_ok b (hj t rfl x hx), addUIntIn_ok b (hk t rfl x hx)]

theorem facesTextIn_eq {j k : Nat} (b : Build) {v : List Nat} {u n : Option (List Nat)} {o : Nat × Nat × Nat}
    (hj : ∀ i ∈ v, i + o.1 < 2 ^ j) (hk : ∀ i ∈ v, i + o.1 < 2 ^ k) (uj : ∀ t, u = some t → ∀ i ∈ t, i + o.2.1 < 2 ^ j)
    (uk : ∀ t, u = some t → ∀ i ∈ t, i + o.2.1 < 2 ^ k) (nj : ∀ t, n = some t → ∀ i ∈ t, i + o.2.2 < 2 ^ j)
    (nk : ∀ t, n = some t → ∀ i ∈ t, i + o.2.2 < 2 ^ k) : ∀ l, facesTextIn j b v u n o l = facesTextIn k b v u n o l
  | [] => rfl
  | i :: l => by
    rw [facesTextIn, facesTextIn, uvTextIn_eq b uj uk, normalTextIn_eq b nj nk, facesTextIn_eq b hj hk uj uk nj nk l, indexAt]
    cases h : v[i]? with
    | none => rfl
    | some x =>
      have hx := List.mem_of_getElem? h
      simp only [Outcome.bind_ok, addUIntIn_ok b (hj x hx), addUIntIn_ok b (hk x hx)]

theorem saveObjIn_eq {j k : Nat} (ft : FloatText fo) (b : Build) {m : Mesh fo.F} (h : IndicesInside m) {o : Nat × Nat × Nat}
    (vj : o.1 + (m.vertices.getD []).length < 2 ^ j) (vk : o.1 + (m.vertices.getD []).length < 2 ^ k)
    (uj : o.2.1 + (m.uvs.getD []).length < 2 ^ j) (uk : o.2.1 + (m.uvs.getD []).length < 2 ^ k)
    (nj : o.2.2 + (m.normals.getD []).length < 2 ^ j) (nk : o.2.2 + (m.normals.getD []).length < 2 ^ k) (name : List UInt8) :
    saveObjIn j ft b m o name = saveObjIn k ft b m o name := by
  unfold saveObjIn
  cases hv : m.vertexTriangles with
  | none => rfl
  | some v =>
    have e := facesTextIn_eq (j := j) (k := k) b (v := v) (u := m.uvTriangles) (n := m.normalTriangles) (o := o)
      (fun i hi => by have := h.vertices v hv i hi; omega) (fun i hi => by have := h.vertices v hv i hi; omega)
      (fun t ht i hi => by have := h.uvs t ht i hi; omega) (fun t ht i hi => by have := h.uvs t ht i hi; omega)
      (fun t ht i hi => by have := h.normals t ht i hi; omega) (fun t ht i hi => by have := h.normals t ht i hi; omega)
    simp only [e]
    rw [Nat.mod_eq_of_lt (show (m.vertices.getD []).length < 2 ^ j by omega), Nat.mod_eq_of_lt (show (m.vertices.getD []).length < 2 ^ k by omega),
      Nat.mod_eq_of_lt (show (m.uvs.getD []).length < 2 ^ j by omega), Nat.mod_eq_of_lt (show (m.uvs.getD []).length < 2 ^ k by omega),
      Nat.mod_eq_of_lt (show (m.normals.getD []).length < 2 ^ j by omega), Nat.mod_eq_of_lt (show (m.normals.getD []).length < 2 ^ k by omega)]

/-- The counts a mesh adds are at most the numbers of its elements. -/
theorem saveObjIn_counts {k : Nat} {ft : FloatText fo} {b : Build} {m : Mesh fo.F} {o : Nat × Nat × Nat} {name : List UInt8}
    {r : List UInt8 × Nat × Nat × Nat} (h : saveObjIn k ft b m o name = .ok r) :
    r.2.1 ≤ (m.vertices.getD []).length ∧ r.2.2.1 ≤ (m.uvs.getD []).length ∧ r.2.2.2 ≤ (m.normals.getD []).length := by
  unfold saveObjIn at h
  cases hv : m.vertexTriangles with
  | none =>
    rw [hv] at h
    simp only at h
    split_ifs at h
    cases h
    exact ⟨Nat.zero_le _, Nat.zero_le _, Nat.zero_le _⟩
  | some v =>
    rw [hv] at h
    simp only at h
    split_ifs at h
    obtain ⟨_, _, h⟩ := Outcome.bind_eq_ok.mp h
    cases h
    exact ⟨Nat.mod_le _ _, Nat.mod_le _ _, Nat.mod_le _ _⟩

theorem writeObjLoopIn_eq {j k : Nat} (ft : FloatText fo) (b : Build) : ∀ (meshes : List (Mesh fo.F × List UInt8)) (o : Nat × Nat × Nat),
    (∀ mn ∈ meshes, IndicesInside mn.1) →
    (∀ e, e = j ∨ e = k → o.1 + (meshes.map fun m => (m.1.vertices.getD []).length).sum < 2 ^ e ∧
      o.2.1 + (meshes.map fun m => (m.1.uvs.getD []).length).sum < 2 ^ e ∧
      o.2.2 + (meshes.map fun m => (m.1.normals.getD []).length).sum < 2 ^ e) →
    writeObjLoopIn j ft b meshes o = writeObjLoopIn k ft b meshes o
  | [], _, _, _ => rfl
  | (m, name) :: meshes, o, hi, hs => by
    obtain ⟨vj, uj, nj⟩ := hs j (.inl rfl)
    obtain ⟨vk, uk, nk⟩ := hs k (.inr rfl)
    simp only [List.map_cons, List.sum_cons] at vj uj nj vk uk nk
    rw [writeObjLoopIn, writeObjLoopIn, saveObjIn_eq (j := j) (k := k) ft b (hi _ List.mem_cons_self) (by dsimp only; omega) (by dsimp only; omega)
      (by dsimp only; omega) (by dsimp only; omega) (by dsimp only; omega) (by dsimp only; omega)]
    cases hx : saveObjIn k ft b m o name with
    | err e => rfl
    | panic => rfl
    | ok r =>
      obtain ⟨c1, c2, c3⟩ := saveObjIn_counts hx
      obtain ⟨text, a, c, d⟩ := r
      dsimp only at c1 c2 c3
      simp only [Outcome.bind_ok]
      rw [addUIntIn_ok b (show o.1 + a < 2 ^ j by omega), addUIntIn_ok b (show o.1 + a < 2 ^ k by omega),
        addUIntIn_ok b (show o.2.1 + c < 2 ^ j by omega), addUIntIn_ok b (show o.2.1 + c < 2 ^ k by omega),
        addUIntIn_ok b (show o.2.2 + d < 2 ^ j by omega), addUIntIn_ok b (show o.2.2 + d < 2 ^ k by omega)]
      simp only [Outcome.bind_ok]
      rw [writeObjLoopIn_eq ft b meshes _ (fun mn h => hi mn (List.mem_cons_of_mem _ h))]
      rintro e (rfl | rfl)
      · dsimp only; exact ⟨by omega, by omega, by omega⟩
      · dsimp only; exact ⟨by omega, by omega, by omega⟩

/-- Faces of vertices alone: if no number is too large, the text is the same with all types and builds. -/
theorem facesTextIn_ok {v : List Nat} {o : Nat × Nat × Nat} : ∀ l, (∀ i ∈ l, i < v.length) →
    ∃ text, ∀ (k : Nat) (b : Build), (∀ i ∈ v, i + o.1 < 2 ^ k) → facesTextIn k b v none none o l = .ok text
  | [], _ => ⟨[], fun _ _ _ => rfl⟩
  | i :: l, hl => by
    obtain ⟨text, ht⟩ := facesTextIn_ok (v := v) (o := o) l fun x hx => hl x (List.mem_cons_of_mem _ hx)
    have hi := hl i List.mem_cons_self
    refine ⟨(if i % 3 = 0 then ascii "f " else []) ++ decimal (v[i] + o.1) ++ [] ++ [] ++ (if i % 3 = 2 then [10] else [32]) ++ text,
      fun k b h => ?_⟩
    · rw [facesTextIn, indexAt, List.getElem?_eq_getElem hi]
      simp only [Outcome.bind_ok, addUIntIn_ok b (h _ (List.getElem_mem hi)), uvTextIn, normalTextIn, ht k b h]
      rfl

end Tmf
