import Verif.Props.Triangulate
import Verif.Lemmas.IeeeValue
/-
C76: which faces are covered by their triangles.
-/

namespace Tmf.Props
open Spec Ieee

/-- What `push_face` has appended for a face. -/
def Pushed {F : Type} (oi oi' : Importer F) (tris : List Triangle) : Prop :=
  oi'.vertexTriangles = oi.vertexTriangles ++ triangleIndices Corner.vertex tris ∧
    oi'.uvTriangles = oi.uvTriangles ++ triangleIndices Corner.uv tris ∧
    oi'.normalTriangles = oi.normalTriangles ++ triangleIndices Corner.normal tris

theorem pushed_cutOff (fo : FloatOps) (acos : fo.F → fo.F) (oi : Importer fo.F) (face : List Corner) (hn : 3 ≤ face.length)
    (hv : ∀ c ∈ face, c.vertex < oi.vertices.length) : ∃ (tris : List Triangle) (ps : List Nat) (oi' : Importer fo.F),
      Importer.pushFaceTri fo acos (face.map Corner.vertex) (face.map Corner.uv) (face.map Corner.normal) oi = .ok oi' ∧
      Pushed oi oi' tris ∧ CutOff face ps tris ∧
      (3 < face.length → ∀ ears, earVals fo acos oi.vertices (face.map Corner.vertex) (List.range face.length) = .ok ears →
        ∀ best, bestEar fo ears (List.range face.length) 0 = .ok best → ps.head? = some best) := by
  unfold Importer.pushFaceTri Importer.pushFaceWith
  simp only [List.length_map, and_self, if_true]
  rw [if_neg (by omega)]
  split
  · next h =>
    match face, h with
    | [a, b, c], _ => exact ⟨[(a, b, c)], [], _, rfl, ⟨rfl, rfl, rfl⟩, .last a b c, fun h => absurd h (by simp)⟩
  · next h =>
    unfold triangulate
    obtain ⟨es, hes, hl⟩ := earVals_ok fo acos oi.vertices (face.map Corner.vertex)
      (by intro x hx; obtain ⟨c, hc, rfl⟩ := List.mem_map.mp hx; exact hv c hc)
      (List.range (face.map Corner.vertex).length) (fun i hi => List.mem_range.mp hi)
    obtain ⟨tris, hr, -, -, -, ps, hps, hb⟩ := triangulateLoop_ok fo acos face.length face es oi hn (by omega) (by simpa using hl) hv
    rw [hes, Outcome.bind_ok, List.length_map, hr]
    refine ⟨tris, ps, _, rfl, ⟨rfl, rfl, rfl⟩, hps, fun h3 ears he best hbe => hb h3 best ?_⟩
    rw [List.length_map] at hes
    rw [hes] at he
    cases he
    exact hbe

/-- C76, what holds: the triangles come from cutting off one corner after the other, and they cover the face if
the first corner of what is left is only cut off when the number of corners left divides `2^64`. Missing are the other
faces, where the triangle of the first corner gets a wrong third corner (`C76_violated`). -/
theorem C76_cover_partial (fo : FloatOps) (acos : fo.F → fo.F) (oi : Importer fo.F) (face : List Corner) (hn : 3 ≤ face.length)
    (hv : ∀ c ∈ face, c.vertex < oi.vertices.length) : ∃ (tris : List Triangle) (ps : List Nat) (oi' : Importer fo.F),
      Importer.pushFaceTri fo acos (face.map Corner.vertex) (face.map Corner.uv) (face.map Corner.normal) oi = .ok oi' ∧
      Pushed oi oi' tris ∧ CutOff face ps tris ∧ ((∀ k, ps[k]? = some 0 → (face.length - k) ∣ 2 ^ 64) → Covers face tris) := by
  obtain ⟨tris, ps, oi', h, hp, hc, -⟩ := pushed_cutOff fo acos oi face hn hv
  exact ⟨tris, ps, oi', h, hp, hc, cutOff_covers hc⟩

theorem cutOff_positions {face : List Corner} {ps : List Nat} {l : List Triangle} (h : CutOff face ps l) : ps.length + 3 = face.length := by
  induction h with
  | last => rfl
  | @corner face i x y z ps l h hx hy hz hr ih =>
    have hi := (List.getElem?_eq_some_iff.mp hy).1
    rw [List.length_eraseIdx_of_lt hi] at ih
    rw [List.length_cons]
    omega

/-- C76 for triangles and quads: their triangles cover them, whatever the arithmetic and `acos` are. -/
theorem C76_quad (fo : FloatOps) (acos : fo.F → fo.F) (oi : Importer fo.F) (face : List Corner) (hn : 3 ≤ face.length)
    (hn' : face.length ≤ 4) (hv : ∀ c ∈ face, c.vertex < oi.vertices.length) : ∃ (tris : List Triangle) (oi' : Importer fo.F),
      Importer.pushFaceTri fo acos (face.map Corner.vertex) (face.map Corner.uv) (face.map Corner.normal) oi = .ok oi' ∧
      Pushed oi oi' tris ∧ tris.length = face.length - 2 ∧ Covers face tris := by
  obtain ⟨tris, ps, oi', h, hp, hc, -⟩ := pushed_cutOff fo acos oi face hn hv
  refine ⟨tris, oi', h, hp, ?_, cutOff_covers hc fun k hk => ?_⟩
  · clear h hp hn' hv
    induction hc with
    | last => rfl
    | @corner face i x y z ps l h hx hy hz hr ih =>
      have hi := (List.getElem?_eq_some_iff.mp hy).1
      have ih := ih (by rw [List.length_eraseIdx_of_lt hi]; omega)
      rw [List.length_eraseIdx_of_lt hi] at ih
      rw [List.length_cons]
      omega
  · have := cutOff_positions hc
    have hk := (List.getElem?_eq_some_iff.mp hk).1
    rw [show face.length - k = 4 by omega]
    decide

theorem cutOff_from {face : List Corner} {ps : List Nat} {l : List Triangle} (h : CutOff face ps l) : CornersFrom face l := by
  induction h with
  | last a b c => intro t ht; cases List.mem_singleton.mp ht; simp
  | @corner face i x y z ps l h hx hy hz hr ih =>
    intro t ht
    rcases List.mem_cons.mp ht with rfl | ht
    · exact ⟨List.mem_of_getElem? hx, List.mem_of_getElem? hy, List.mem_of_getElem? hz⟩
    · obtain ⟨h1, h2, h3⟩ := ih t ht
      exact ⟨List.mem_of_mem_eraseIdx h1, List.mem_of_mem_eraseIdx h2, List.mem_of_mem_eraseIdx h3⟩

theorem nan_direction : normalize (ops ⟨id, id, id, id⟩) ((rounded false 0 1 : Val b32), (rounded false 0 1 : Val b32), (rounded false 0 1 : Val b32)) =
    ((.nan, .nan, .nan) : Vec3 (Val b32)) := by decide +kernel

theorem nan_angle (lib : Libm) (acos : Val b32 → Val b32) (hn : acos .nan = .nan) {a c : Vec3 (Val b32)}
    (ha : isFinite a.1 = true ∧ isFinite a.2.1 = true ∧ isFinite a.2.2 = true) : computeAngle (ops lib) acos a a c = .nan := by
  have hs : ∀ x : Val b32, isFinite x = true → (ops lib).sub x x = rounded false 0 1 := by
    intro x hx
    show sub x x = _
    cases x with
    | nan => cases hx
    | inf s => cases hx
    | fin s n h =>
      show (if signed s n + signed (!s) n = 0 then rounded (s && !s) 0 1 else _) = _
      rw [if_pos (by cases s <;> simp [signed]), Bool.and_not_self]
  have hz : normalize (ops lib) ((rounded false 0 1 : Val b32), (rounded false 0 1 : Val b32), (rounded false 0 1 : Val b32)) = (.nan, .nan, .nan) := by
    rw [normalize_lib lib ⟨id, id, id, id⟩]
    exact nan_direction
  unfold computeAngle subVec3
  rw [hs _ ha.1, hs _ ha.2.1, hs _ ha.2.2, hz]
  exact hn

/-- C76 is false: with `n` corners, where `n` divides `2^64 - 1` (5, 15, 17, 51, 85, 255, …), the corner before the first is
taken to be the first itself. Its ear value is then NaN, which no other exceeds, so the first triangle is degenerate, and
the triangles do not cover the face, wherever its corners are. (`acos` need only map NaN to NaN, and the first
vertex must be finite.) -/
theorem C76_violated (lib : Libm) (acos : Val b32 → Val b32) (hacos : acos .nan = .nan) (oi : Importer (Val b32)) (a b : Corner)
    (rest : List Corner) (hn : 2 ≤ rest.length) (hd : (rest.length + 2) ∣ 2 ^ 64 - 1) (hne : (a :: b :: rest).Nodup)
    (hv : ∀ c ∈ a :: b :: rest, c.vertex < oi.vertices.length) {v : Vec3 (Val b32)} (hva : oi.vertices[a.vertex]? = some v)
    (hf : isFinite v.1 = true ∧ isFinite v.2.1 = true ∧ isFinite v.2.2 = true) : ∃ (tris : List Triangle) (oi' : Importer (Val b32)),
      Importer.pushFaceTri (ops lib) acos ((a :: b :: rest).map Corner.vertex) ((a :: b :: rest).map Corner.uv)
        ((a :: b :: rest).map Corner.normal) oi = .ok oi' ∧
      Pushed oi oi' tris ∧ tris.head? = some (a, a, b) ∧ ¬Covers (a :: b :: rest) tris := by
  obtain ⟨tris, ps, oi', h, hp, hc, hb⟩ := pushed_cutOff (ops lib) acos oi (a :: b :: rest) (by simp; omega) hv
  refine ⟨tris, oi', h, hp, ?_⟩
  have hlen : (a :: b :: rest).length = rest.length + 2 := rfl
  have hmod : (2 ^ 64 - 1) % (rest.length + 2) = 0 := Nat.mod_eq_zero_of_dvd hd
  -- the first ear
  have h0 : calcEarVal (ops lib) acos oi.vertices ((a :: b :: rest).map Corner.vertex) 0 = .ok .nan := by
    unfold calcEarVal
    have e0 : prevIndex 0 ((a :: b :: rest).map Corner.vertex).length = 0 := by
      rw [List.length_map, hlen, prevIndex, if_pos rfl, hmod]
    have e1 : nextIndex 0 ((a :: b :: rest).map Corner.vertex).length = 1 := by
      rw [List.length_map, hlen, nextIndex, Nat.mod_eq_of_lt (by omega)]
    rw [e0, e1]
    have hat : at? oi.vertices a.vertex = .ok v := by rw [at?, hva]
    obtain ⟨w, hw⟩ : ∃ w, at? oi.vertices b.vertex = .ok w := ⟨_, at?_ok _ (hv b (by simp))⟩
    show (do
      let x ← at? oi.vertices a.vertex
      let y ← at? oi.vertices a.vertex
      let z ← at? oi.vertices b.vertex
      Outcome.ok (computeAngle (ops lib) acos x y z)) = _
    rw [hat, hw]
    simp only [Outcome.bind_ok]
    rw [nan_angle lib acos hacos hf]
  obtain ⟨es, hes, hl⟩ := earVals_ok (ops lib) acos oi.vertices ((a :: b :: rest).map Corner.vertex)
    (by intro x hx; obtain ⟨c, hc, rfl⟩ := List.mem_map.mp hx; exact hv c hc)
    ((List.range (rest.length + 1)).map Nat.succ) (by intro i hi; obtain ⟨j, hj, rfl⟩ := List.mem_map.mp hi; rw [List.mem_range] at hj; simp; omega)
  have hes' : earVals (ops lib) acos oi.vertices ((a :: b :: rest).map Corner.vertex) (List.range (a :: b :: rest).length) = .ok (.nan :: es) := by
    rw [hlen, List.range_succ_eq_map, earVals, h0, Outcome.bind_ok, hes]
    rfl
  have hps := hb (by rw [hlen]; omega) _ hes' 0 (bestEar_first (ops lib) .nan es (fun x => by cases x <;> rfl) _
    (by intro i hi; rw [List.mem_range] at hi; simp only [List.length_cons, hl, List.length_map, List.length_range] at hi ⊢; exact hi))
  cases hc with
  | last => simp at hn
  | @corner _ i x y z ps l h4 hx hy hz hr =>
    cases hps
    rw [if_pos rfl, hlen, hmod] at hx
    rw [hlen, Nat.mod_eq_of_lt (by omega)] at hz
    cases hx
    cases hy
    cases hz
    refine ⟨rfl, fun hcov => ?_⟩
    obtain ⟨mid, e, rfl⟩ : ∃ mid e, rest = mid ++ [e] := by
      have : rest ≠ [] := by rintro rfl; simp at hn
      exact ⟨rest.dropLast, rest.getLast this, (List.dropLast_append_getLast this).symm⟩
    have hk := hcov e a
    have hfrom := cutOff_from hr
    rw [List.eraseIdx_zero, List.tail_cons] at hfrom
    have ha : a ∉ b :: (mid ++ [e]) := (List.nodup_cons.mp hne).1
    have hea : e ≠ a := by rintro rfl; exact ha (by simp)
    have hba : b ≠ a := by rintro rfl; exact ha (by simp)
    have hbe : b ≠ e := by rintro rfl; exact (List.nodup_cons.mp (List.nodup_cons.mp hne).2).1 (by simp)
    have hzero : netEdges (triangleEdges l) e a = 0 := by
      have hno : ∀ p ∈ triangleEdges l, p.1 ≠ a ∧ p.2 ≠ a := by
        intro p hp
        obtain ⟨t, ht, hp⟩ := List.mem_flatMap.mp hp
        obtain ⟨f1, f2, f3⟩ := hfrom t ht
        have g1 : t.1 ≠ a := fun h => ha (h ▸ f1)
        have g2 : t.2.1 ≠ a := fun h => ha (h ▸ f2)
        have g3 : t.2.2 ≠ a := fun h => ha (h ▸ f3)
        simp only [List.mem_cons, List.not_mem_nil, or_false] at hp
        rcases hp with rfl | rfl | rfl
        exacts [⟨g1, g2⟩, ⟨g2, g3⟩, ⟨g3, g1⟩]
      rw [netEdges, List.count_eq_zero_of_not_mem fun h => (hno _ h).2 rfl, List.count_eq_zero_of_not_mem fun h => (hno _ h).1 rfl]
      rfl
    rw [triangleEdges, List.flatMap_cons, netEdges_append] at hk
    rw [show netEdges (List.flatMap (fun t => [(t.1, t.2.1), (t.2.1, t.2.2), (t.2.2, t.1)]) l) e a = 0 from hzero] at hk
    rw [outline_path] at hk
    have hsp := pathNet_split e e a [a] (a :: b :: mid)
    simp only [List.cons_append, List.append_assoc, List.nil_append] at hsp hk
    rw [hsp] at hk
    have hpath : pathNet (a :: b :: (mid ++ [e])) e a = 0 := by
      rw [pathNet_two, pathNet, netEdges]
      have : ∀ p ∈ (b :: (mid ++ [e])).zip (b :: (mid ++ [e])).tail, p.1 ≠ a ∧ p.2 ≠ a := by
        intro p hp
        obtain ⟨h1, h2⟩ := List.of_mem_zip hp
        exact ⟨fun h => ha (h ▸ h1), fun h => ha (h ▸ List.mem_of_mem_tail h2)⟩
      rw [List.count_eq_zero_of_not_mem fun h => (this _ h).2 rfl, List.count_eq_zero_of_not_mem fun h => (this _ h).1 rfl]
      simp [oneEdge, hbe, hea.symm]
    rw [hpath] at hk
    simp [netEdges_cons, netEdges_nil, oneEdge, hea, hea.symm, hba, hbe, pathNet] at hk

/-- The pentagon of `Props/Triangulate.lean` is not covered, and the quad of its first four corners is. -/
example (acos : Val b32 → Val b32) (hacos : acos .nan = .nan) (lib : Libm) :
    (∃ tris oi', Importer.pushFaceTri (ops lib) acos (pentagonFace.map Corner.vertex) (pentagonFace.map Corner.uv)
        (pentagonFace.map Corner.normal) pentagon = .ok oi' ∧ Pushed pentagon oi' tris ∧ tris.head? = some (⟨0, 0, 0⟩, ⟨0, 0, 0⟩, ⟨1, 1, 1⟩) ∧
      ¬Covers pentagonFace tris) ∧
    ∃ tris oi', Importer.pushFaceTri (ops lib) acos ((pentagonFace.take 4).map Corner.vertex) ((pentagonFace.take 4).map Corner.uv)
        ((pentagonFace.take 4).map Corner.normal) pentagon = .ok oi' ∧ Pushed pentagon oi' tris ∧ tris.length = 2 ∧
      Covers (pentagonFace.take 4) tris :=
  ⟨C76_violated lib acos hacos pentagon ⟨0, 0, 0⟩ ⟨1, 1, 1⟩ [⟨2, 2, 2⟩, ⟨3, 3, 3⟩, ⟨4, 4, 4⟩] (by decide) (by decide) (by decide) (by decide) rfl
    ⟨rfl, rfl, rfl⟩, C76_quad (ops lib) acos pentagon (pentagonFace.take 4) (by decide) (by decide) (show ∀ c ∈ pentagonFace.take 4, c.vertex < 5 by decide)⟩

/-- Both ways to cut a quad cover it, and leaving out a triangle does not. -/
example : Covers [⟨0, 0, 0⟩, ⟨1, 1, 1⟩, ⟨2, 2, 2⟩, ⟨3, 3, 3⟩] [(⟨3, 3, 3⟩, ⟨0, 0, 0⟩, ⟨1, 1, 1⟩), (⟨1, 1, 1⟩, ⟨2, 2, 2⟩, ⟨3, 3, 3⟩)] ∧
    ¬Covers [⟨0, 0, 0⟩, ⟨1, 1, 1⟩, ⟨2, 2, 2⟩, ⟨3, 3, 3⟩] [(⟨3, 3, 3⟩, ⟨0, 0, 0⟩, ⟨1, 1, 1⟩)] := by
  refine ⟨cutOff_covers (ps := [0]) (CutOff.corner (by decide) rfl rfl rfl (.last _ _ _)) fun k hk => ?_,
    fun h => absurd (h ⟨1, 1, 1⟩ ⟨2, 2, 2⟩) (by decide)⟩
  cases k with
  | zero => decide
  | succ k => cases hk

end Tmf.Props
