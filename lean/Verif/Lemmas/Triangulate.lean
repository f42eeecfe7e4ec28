import Verif.Model.Importer
import Verif.Spec.Face
import Mathlib.Data.List.Basic
import Mathlib.Tactic.Ring
/-
Lemmas about triangulation.
-/

namespace Tmf
open Spec

theorem at?_map {α β : Type} (l : List α) (f : α → β) {i : Nat} (h : i < l.length) :
    at? (l.map f) i = .ok (f l[i]) := by
  simp [at?, List.getElem?_map, List.getElem?_eq_getElem h]

theorem at?_ok {α : Type} (l : List α) {i : Nat} (h : i < l.length) : at? l i = .ok l[i] := by
  simp [at?, List.getElem?_eq_getElem h]

theorem prevIndex_lt (i : Nat) {n : Nat} (h : 0 < n) : prevIndex i n < n := Nat.mod_lt _ h
theorem nextIndex_lt (i : Nat) {n : Nat} (h : 0 < n) : nextIndex i n < n := Nat.mod_lt _ h

theorem calcEarVal_ok (fo : FloatOps) (acos : fo.F → fo.F) (vertices : List (Vec3 fo.F)) (v : List Nat) {i : Nat}
    (hi : i < v.length) (hv : ∀ x ∈ v, x < vertices.length) : ∃ e, calcEarVal fo acos vertices v i = .ok e := by
  have h0 : 0 < v.length := by omega
  unfold calcEarVal
  rw [at?_ok v (prevIndex_lt i h0), at?_ok v hi, at?_ok v (nextIndex_lt i h0)]
  simp only [Outcome.bind_ok]
  rw [at?_ok vertices (hv _ (List.getElem_mem _)), at?_ok vertices (hv _ (List.getElem_mem _)),
    at?_ok vertices (hv _ (List.getElem_mem _))]
  exact ⟨_, rfl⟩

theorem earVals_ok (fo : FloatOps) (acos : fo.F → fo.F) (vertices : List (Vec3 fo.F)) (v : List Nat)
    (hv : ∀ x ∈ v, x < vertices.length) : ∀ is : List Nat, (∀ i ∈ is, i < v.length) →
    ∃ es, earVals fo acos vertices v is = .ok es ∧ es.length = is.length := by
  intro is
  induction is with
  | nil => intro _; exact ⟨[], rfl, rfl⟩
  | cons i is ih =>
    intro h
    obtain ⟨e, he⟩ := calcEarVal_ok fo acos vertices v (h i (by simp)) hv
    obtain ⟨es, hes, hl⟩ := ih (fun j hj => h j (by simp [hj]))
    exact ⟨e :: es, by rw [earVals, he, Outcome.bind_ok, hes]; rfl, by simp [hl]⟩

theorem bestEar_ok (fo : FloatOps) (ears : List fo.F) : ∀ (is : List Nat) (best : Nat), best < ears.length →
    (∀ i ∈ is, i < ears.length) → ∃ i, bestEar fo ears is best = .ok i ∧ i < ears.length := by
  intro is
  induction is with
  | nil => intro best hb _; exact ⟨best, rfl, hb⟩
  | cons i is ih =>
    intro best hb h
    rw [bestEar, at?_ok ears (h i (by simp)), at?_ok ears hb]
    simp only [Outcome.bind_ok]
    refine ih _ ?_ (fun j hj => h j (by simp [hj]))
    split
    · exact h i (by simp)
    · exact hb

/-- If nothing compares greater than the first value, the first ear is taken. -/
theorem bestEar_first (fo : FloatOps) (e : fo.F) (ears : List fo.F) (h : ∀ x, fo.lt e x = false) : ∀ is : List Nat,
    (∀ i ∈ is, i < (e :: ears).length) → bestEar fo (e :: ears) is 0 = .ok 0 := by
  intro is
  induction is with
  | nil => intro _; rfl
  | cons i is ih =>
    intro hi
    rw [bestEar, at?_ok _ (hi i (by simp)), at?_ok _ (show 0 < (e :: ears).length by simp)]
    simp only [Outcome.bind_ok, List.getElem_cons_zero, h]
    exact ih (fun j hj => hi j (by simp [hj]))

theorem pick3_map (c : List Corner) (f : Corner → Nat) {i j k : Nat} (hi : i < c.length) (hj : j < c.length)
    (hk : k < c.length) : pick3 (c.map f) i j k = .ok [f c[i], f c[j], f c[k]] := by
  rw [pick3, at?_map c f hi, at?_map c f hj, at?_map c f hk]
  rfl

theorem removeAt_map (c : List Corner) (f : Corner → Nat) {i : Nat} (hi : i < c.length) :
    removeAt (c.map f) i = .ok ((c.eraseIdx i).map f) := by
  rw [removeAt, if_pos (by simpa using hi)]
  simp [List.eraseIdx_eq_take_drop_succ]

theorem removeAt_ok {α : Type} (l : List α) {i : Nat} (hi : i < l.length) : removeAt l i = .ok (l.eraseIdx i) := by
  rw [removeAt, if_pos hi]

theorem setAt_ok {α : Type} (l : List α) {i : Nat} (x : α) (hi : i < l.length) : setAt l i x = .ok (l.set i x) := by
  rw [setAt, if_pos hi]

/-- The importer after pushing triangles. -/
def Importer.pushTriangles {F : Type} (mi : Importer F) (l : List Triangle) : Importer F :=
  mi.pushIndices (triangleIndices Corner.vertex l) (triangleIndices Corner.uv l) (triangleIndices Corner.normal l)

theorem Importer.pushIndices_pushTriangles {F : Type} (mi : Importer F) (t : Triangle) (l : List Triangle) :
    (mi.pushIndices [t.1.vertex, t.2.1.vertex, t.2.2.vertex] [t.1.uv, t.2.1.uv, t.2.2.uv]
      [t.1.normal, t.2.1.normal, t.2.2.normal]).pushTriangles l = mi.pushTriangles (t :: l) := by
  simp [pushTriangles, pushIndices, triangleIndices]

theorem triangulateLoop_ok (fo : FloatOps) (acos : fo.F → fo.F) : ∀ (fuel : Nat) (c : List Corner) (ears : List fo.F)
    (mi : Importer fo.F), 3 ≤ c.length → c.length ≤ fuel + 2 → ears.length = c.length →
    (∀ x ∈ c, x.vertex < mi.vertices.length) →
    ∃ tris, triangulateLoop fo acos fuel (c.map Corner.vertex) (c.map Corner.normal) (c.map Corner.uv) ears mi =
        .ok (mi.pushTriangles tris) ∧ tris.length = c.length - 2 ∧ CornersFrom c tris ∧
      (3 < c.length → ∀ best, bestEar fo ears (List.range c.length) 0 = .ok best → ∃ x y z,
        c[prevIndex best c.length]? = some x ∧ c[best]? = some y ∧ c[nextIndex best c.length]? = some z ∧
        tris.head? = some (x, y, z)) ∧
      ∃ ps, CutOff c ps tris ∧ (3 < c.length → ∀ best, bestEar fo ears (List.range c.length) 0 = .ok best → ps.head? = some best) := by
  intro fuel
  induction fuel with
  | zero => intro c ears mi h1 h2; omega
  | succ fuel ih =>
    intro c ears mi h3 hf he hv
    have hlen : ∀ f : Corner → Nat, (c.map f).length = c.length := fun f => by simp
    rw [triangulateLoop]
    split
    · next h =>
      rw [hlen] at h ⊢
      obtain ⟨best, hb, hbl⟩ := bestEar_ok fo ears (List.range c.length) 0 (by omega)
        (fun i hi => by rw [List.mem_range] at hi; omega)
      rw [hb, Outcome.bind_ok]
      have hbl' : best < c.length := by omega
      have hp := prevIndex_lt best (n := c.length) (by omega)
      have hn := nextIndex_lt best (n := c.length) (by omega)
      simp only
      rw [pick3_map c _ hp hbl' hn, pick3_map c _ hp hbl' hn, pick3_map c _ hp hbl' hn]
      simp only [Outcome.bind_ok]
      rw [removeAt_map c _ hbl', removeAt_map c _ hbl', removeAt_map c _ hbl', removeAt_ok ears hbl]
      simp only [Outcome.bind_ok, List.length_map]
      have hcl : (c.eraseIdx best).length = c.length - 1 := List.length_eraseIdx_of_lt hbl'
      have hel : (ears.eraseIdx best).length = c.length - 1 := by rw [List.length_eraseIdx_of_lt hbl, he]
      have hv' : ∀ x ∈ (c.eraseIdx best).map Corner.vertex, x < mi.vertices.length := by
        intro x hx
        obtain ⟨y, hy, rfl⟩ := List.mem_map.mp hx
        exact hv y (List.mem_of_mem_eraseIdx hy)
      have hc1 : best % (c.eraseIdx best).length < c.length - 1 := by rw [hcl]; exact Nat.mod_lt _ (by omega)
      have hc2 : prevIndex best (c.eraseIdx best).length < c.length - 1 := by rw [hcl]; exact prevIndex_lt _ (by omega)
      obtain ⟨e1, h1⟩ := calcEarVal_ok fo acos mi.vertices ((c.eraseIdx best).map Corner.vertex)
        (i := best % (c.eraseIdx best).length) (by simp only [List.length_map]; omega) hv'
      obtain ⟨e2, h2⟩ := calcEarVal_ok fo acos mi.vertices ((c.eraseIdx best).map Corner.vertex)
        (i := prevIndex best (c.eraseIdx best).length) (by simp only [List.length_map]; omega) hv'
      simp only [Importer.pushIndices] at ih ⊢
      rw [h1, Outcome.bind_ok, setAt_ok _ _ (by omega), Outcome.bind_ok, h2, Outcome.bind_ok,
        setAt_ok _ _ (by simp only [List.length_set]; omega), Outcome.bind_ok]
      set t : Triangle := (c[prevIndex best c.length], c[best], c[nextIndex best c.length]) with ht
      obtain ⟨tris, hr, hl, hm, _, ps, hps, _⟩ := ih (c.eraseIdx best)
        (((ears.eraseIdx best).set (best % (c.eraseIdx best).length) e1).set (prevIndex best (c.eraseIdx best).length) e2)
        (mi.pushIndices [t.1.vertex, t.2.1.vertex, t.2.2.vertex] [t.1.uv, t.2.1.uv, t.2.2.uv]
          [t.1.normal, t.2.1.normal, t.2.2.normal])
        (by omega) (by omega) (by simp only [List.length_set]; omega)
        (fun x hx => hv x (List.mem_of_mem_eraseIdx hx))
      refine ⟨t :: tris, ?_, by simp only [List.length_cons]; omega, ?_, ?_, best :: ps, ?_, ?_⟩
      · rw [← Importer.pushIndices_pushTriangles]
        exact hr
      · intro s hs
        rcases List.mem_cons.mp hs with rfl | hs
        · exact ⟨List.getElem_mem _, List.getElem_mem _, List.getElem_mem _⟩
        · obtain ⟨a, b, d⟩ := hm s hs
          exact ⟨List.mem_of_mem_eraseIdx a, List.mem_of_mem_eraseIdx b, List.mem_of_mem_eraseIdx d⟩
      · intro _ best' hb'
        have hbb : best' = best := by injection hb' with h'; exact h'.symm
        rw [hbb]
        exact ⟨_, _, _, List.getElem?_eq_getElem hp, List.getElem?_eq_getElem hbl', List.getElem?_eq_getElem hn, rfl⟩
      · refine .corner h ?_ (List.getElem?_eq_getElem hbl') (List.getElem?_eq_getElem hn) hps
        rw [← List.getElem?_eq_getElem hp, prevIndex]
        split
        · rfl
        · rw [Nat.mod_eq_of_lt (by omega)]
      · intro _ best' hb'
        cases hb'
        rfl
    · next h =>
      rw [hlen] at h
      have hc : c.length = 3 := by omega
      rw [pick3_map c _ (by omega) (by omega) (by omega), pick3_map c _ (by omega) (by omega) (by omega),
        pick3_map c _ (by omega) (by omega) (by omega)]
      refine ⟨[(c[0], c[1], c[2])], rfl, by simp [hc], ?_, fun h3 => by omega, [], ?_, fun h3 => by omega⟩
      rotate_left
      · match c, hc with
        | [a, b, d], _ => exact .last a b d
      intro s hs
      cases List.mem_singleton.mp hs
      exact ⟨List.getElem_mem _, List.getElem_mem _, List.getElem_mem _⟩

/-! ### Covering -/

/-- One edge, counted with its direction. -/
def oneEdge (p q x y : Corner) : Int := (if (p, q) = (x, y) then 1 else 0) - if (p, q) = (y, x) then 1 else 0

theorem oneEdge_swap (p q x y : Corner) : oneEdge q p x y = -oneEdge p q x y := by
  simp only [oneEdge, Prod.mk.injEq, and_comm (a := q = _), neg_sub]

theorem netEdges_nil (x y : Corner) : netEdges [] x y = 0 := rfl

theorem netEdges_cons (e : Corner × Corner) (l : List (Corner × Corner)) (x y : Corner) :
    netEdges (e :: l) x y = oneEdge e.1 e.2 x y + netEdges l x y := by
  simp only [netEdges, oneEdge, List.count_cons, Prod.mk.eta, beq_iff_eq]
  split <;> split <;> push_cast <;> ring

theorem netEdges_append (l l' : List (Corner × Corner)) (x y : Corner) : netEdges (l ++ l') x y = netEdges l x y + netEdges l' x y := by
  simp only [netEdges, List.count_append]
  push_cast
  ring

/-- The edges along a path. -/
def pathNet (l : List Corner) (x y : Corner) : Int := netEdges (l.zip l.tail) x y

theorem pathNet_two (p q : Corner) (l : List Corner) (x y : Corner) : pathNet (p :: q :: l) x y = oneEdge p q x y + pathNet (q :: l) x y := by
  rw [pathNet, List.tail_cons, List.zip_cons_cons, netEdges_cons]
  rfl

theorem pathNet_split (q : Corner) (x y : Corner) (l' : List Corner) : ∀ l : List Corner,
    pathNet (l ++ q :: l') x y = pathNet (l ++ [q]) x y + pathNet (q :: l') x y
  | [] => by
    show pathNet (q :: l') x y = pathNet [q] x y + _
    simp [pathNet, netEdges_nil]
  | [p] => by
    show pathNet (p :: q :: l') x y = pathNet [p, q] x y + _
    rw [pathNet_two, pathNet_two, show pathNet [q] x y = 0 from rfl]
    ring
  | p :: p' :: l => by
    have := pathNet_split q x y l' (p' :: l)
    simp only [List.cons_append] at this ⊢
    rw [pathNet_two, pathNet_two, this]
    ring

theorem outline_path (a : Corner) (l : List Corner) (x y : Corner) : netEdges (outline (a :: l)) x y = pathNet (a :: l ++ [a]) x y := by
  rw [pathNet, outline]
  congr 1
  simp only [List.head?_cons, Option.toList_some, List.tail_cons, List.cons_append]
  rw [← List.cons_append]
  have : ∀ (u v : List Corner) (z : Corner), u.length = v.length → (u ++ [z]).zip v = u.zip v := by
    intro u v z h
    have := List.zip_append (l₁ := u) (r₁ := [z]) (l₂ := v) (r₂ := []) h
    simpa using this
  exact (this (a :: l) (l ++ [a]) a (by simp)).symm

/-- Cutting off a corner with its neighbours. -/
theorem outline_cut {face : List Corner} (h : 3 ≤ face.length) {i : Nat} {p c n : Corner} (hp : face[if i = 0 then face.length - 1 else i - 1]? = some p)
    (hc : face[i]? = some c) (hn : face[(i + 1) % face.length]? = some n) (x y : Corner) :
    netEdges (outline face) x y = netEdges [(p, c), (c, n), (n, p)] x y + netEdges (outline (face.eraseIdx i)) x y := by
  have hi : i < face.length := (List.getElem?_eq_some_iff.mp hc).1
  simp only [netEdges_cons, netEdges_nil]
  rw [oneEdge_swap p n]
  by_cases h0 : i = 0
  · subst h0
    match face, h with
    | c' :: n' :: r :: rest, _ =>
      cases hc
      rw [Nat.mod_eq_of_lt (by simp)] at hn
      cases hn
      obtain ⟨mid, hm⟩ : ∃ mid, r :: rest = mid ++ [p] := by
        simp only [if_true, List.length_cons, Nat.add_sub_cancel] at hp
        refine ⟨(r :: rest).dropLast, ?_⟩
        have e : (r :: rest).getLast (by simp) = p := by
          rw [List.getLast_eq_getElem]
          have := (List.getElem?_eq_some_iff.mp hp).2
          simpa using this
        rw [← e, List.dropLast_append_getLast]
      rw [hm, List.eraseIdx_zero, List.tail_cons, outline_path, outline_path]
      simp only [List.cons_append, List.append_assoc, List.nil_append]
      rw [pathNet_two]
      have e1 := pathNet_split p x y [c] (n :: mid)
      have e2 := pathNet_split p x y [n] (n :: mid)
      simp only [List.cons_append] at e1 e2
      rw [e1, e2, pathNet_two, pathNet_two]
      simp only [show ∀ q, pathNet [q] x y = 0 from fun _ => rfl]
      ring
  · rw [if_neg h0] at hp
    have hsplit : face = face.take (i - 1) ++ p :: c :: face.drop (i + 1) := by
      have e1 : face = face.take (i - 1) ++ face.drop (i - 1) := (List.take_append_drop _ _).symm
      rw [List.drop_eq_getElem_cons (by omega), (List.getElem?_eq_some_iff.mp hp).2] at e1
      rw [show i - 1 + 1 = i by omega, List.drop_eq_getElem_cons hi, (List.getElem?_eq_some_iff.mp hc).2] at e1
      exact e1
    have hlen : (face.take (i - 1)).length = i - 1 := by rw [List.length_take]; omega
    have herase : face.eraseIdx i = face.take (i - 1) ++ p :: face.drop (i + 1) := by
      rw [List.eraseIdx_eq_take_drop_succ]
      have : face.take i = face.take (i - 1) ++ [p] := by
        conv_lhs => rw [show i = (i - 1) + 1 by omega]
        rw [List.take_succ, hp]; rfl
      rw [this, List.append_assoc]; rfl
    generalize face.take (i - 1) = u at hsplit hlen herase
    by_cases hl : i + 1 < face.length
    · rw [Nat.mod_eq_of_lt hl] at hn
      have hd : face.drop (i + 1) = n :: face.drop (i + 2) := by
        rw [List.drop_eq_getElem_cons hl, (List.getElem?_eq_some_iff.mp hn).2]
      rw [hd] at hsplit herase
      generalize face.drop (i + 2) = w at hsplit herase
      rw [herase, hsplit]
      cases u with
      | nil =>
        simp only [List.nil_append]
        rw [outline_path, outline_path]
        simp only [List.cons_append]
        rw [pathNet_two, pathNet_two, pathNet_two]
        ring
      | cons a u =>
        rw [List.cons_append, List.cons_append, outline_path, outline_path]
        have e1 := pathNet_split p x y (c :: n :: (w ++ [a])) (a :: u)
        have e2 := pathNet_split p x y (n :: (w ++ [a])) (a :: u)
        simp only [List.cons_append, List.append_assoc] at e1 e2 ⊢
        rw [e1, e2, pathNet_two, pathNet_two, pathNet_two]
        ring
    · have he : i + 1 = face.length := by omega
      rw [he, Nat.mod_self] at hn
      rw [he, List.drop_length] at hsplit herase
      rw [herase, hsplit]
      have hn' : (u ++ [p, c])[0]? = some n := by rw [← hsplit]; exact hn
      cases u with
      | nil => simp only [List.length_nil] at hlen; omega
      | cons a u =>
        cases hn'
        rw [List.cons_append, List.cons_append, outline_path, outline_path]
        have e1 := pathNet_split p x y [c, n] (n :: u)
        have e2 := pathNet_split p x y [n] (n :: u)
        simp only [List.cons_append, List.append_assoc, List.nil_append] at e1 e2 ⊢
        rw [e1, e2, pathNet_two, pathNet_two, pathNet_two]
        simp only [show ∀ q, pathNet [q] x y = 0 from fun _ => rfl]
        ring

theorem cutOff_covers {face : List Corner} {ps : List Nat} {l : List Triangle} (h : CutOff face ps l)
    (hp : ∀ k, ps[k]? = some 0 → (face.length - k) ∣ 2 ^ 64) : Covers face l := by
  induction h with
  | last a b c => intro x y; rfl
  | @corner face i p c n ps l h hx hy hz hr ih =>
    intro x y
    have hi : i < face.length := (List.getElem?_eq_some_iff.mp hy).1
    have ih := ih (fun k hk => by
      rw [List.length_eraseIdx_of_lt hi, Nat.sub_sub, Nat.add_comm 1 k]
      exact hp (k + 1) hk) x y
    rw [triangleEdges, List.flatMap_cons, netEdges_append, outline_cut (by omega) (p := p) (c := c) (n := n) ?_ hy hz, ← ih]
    · rfl
    rw [← hx]
    by_cases h0 : i = 0
    · have hd := hp 0 (by rw [h0]; rfl)
      rw [Nat.sub_zero] at hd
      obtain ⟨q, hq⟩ := hd
      rw [if_pos h0, if_pos h0]
      congr 1
      obtain ⟨m, hm⟩ : ∃ m, q = m + 1 := ⟨q - 1, by rcases q with _ | q; · simp at hq
                                                    · rfl⟩
      have : (2 : Nat) ^ 64 - 1 = face.length * m + (face.length - 1) := by
        rw [hq, hm, Nat.mul_add, Nat.mul_one]; omega
      rw [this, Nat.mul_add_mod, Nat.mod_eq_of_lt (by omega)]
    · rw [if_neg h0, if_neg h0]

end Tmf
