import Verif.Lemmas.FileRoundTrip
import Verif.Lemmas.OptVertices
import Verif.Lemmas.TrisGain
import Verif.Spec.SegmentCount
/-
Lemmas about the number of segments written for a mesh.
-/

namespace Tmf
open Spec DecodedSegment
variable {fo : FloatOps} {fb : F64Bytes fo} {b : Build} {prec : PrecisionInfo fo.F}

/-- In either build, pieces of a vertex array are consecutive and none of them is empty. -/
theorem optVerticesFuel_cuts (laws : OrderLaws fo) : ∀ (fuel : Nat) (vs : List (Vec3 fo.F)) (ps : List (List (Vec3 fo.F))),
    optVerticesFuel fo b fuel vs = .ok ps → Cuts vs ps := by
  intro fuel
  induction fuel with
  | zero => intro vs ps h; cases h
  | succ fuel ih =>
    intro vs ps h
    rw [optVerticesFuel] at h
    obtain ⟨o, ho, h⟩ := Outcome.bind_eq_ok.mp h
    cases o with
    | none =>
      cases h
      exact ⟨by simp, by simp, fun h p hp => by simp at hp; subst hp; exact h⟩
    | some i =>
      obtain ⟨p1, e1, h⟩ := Outcome.bind_eq_ok.mp h
      obtain ⟨p2, e2, h⟩ := Outcome.bind_eq_ok.mp h
      cases h
      have hi : 0 < i ∧ i + 1 < vs.length := by
        unfold findBestVertexSplit at ho
        simp only at ho
        obtain ⟨total, ht, ho⟩ := Outcome.bind_eq_ok.mp ho
        obtain ⟨best, hb, ho⟩ := Outcome.bind_eq_ok.mp ho
        have hin := vertexScan_inner laws b (fo.lit 1 2) total vs ht vs [] 0 ⟨none, 0⟩ best rfl (by simp) (inner_start _) hb
        cases hsp : best.split with
        | none => rw [hsp] at ho; cases ho
        | some j =>
          rw [hsp] at ho
          dsimp only at ho
          split at ho
          · cases ho; exact hin.split hsp
          · cases ho
      obtain ⟨f1, n1, a1⟩ := ih _ _ e1
      obtain ⟨f2, n2, a2⟩ := ih _ _ e2
      refine ⟨by simp [f1, f2], by simp [n1], fun _ p hp => ?_⟩
      rcases List.mem_append.mp hp with hp | hp
      · apply a1 _ p hp
        intro h
        have := congrArg List.length h
        simp only [List.length_take, List.length_nil] at this
        omega
      · apply a2 _ p hp
        intro h
        have := congrArg List.length h
        simp only [List.length_drop, List.length_nil] at this
        omega

theorem length_le_flatten {α : Type} {ps : List (List α)} (h : ∀ p ∈ ps, p ≠ []) : ps.length ≤ ps.flatten.length := by
  induction ps with
  | nil => exact Nat.zero_le _
  | cons p ps ih =>
    have h1 := List.length_pos_iff.mpr (h p List.mem_cons_self)
    have h2 := ih fun q hq => h q (List.mem_cons_of_mem _ hq)
    rw [List.length_cons, List.flatten_cons, List.length_append]
    omega

/-- The most segments one merged segment is cut into. -/
def cutsOf {F : Type} : DecodedSegment F → Nat
  | triVertex l | triUv l | triNormal l | triTangent l | shared _ l => indexPieces (some l)
  | vertex l => l.length + 1
  | _ => 1

theorem optTris_count {l : List Nat} {ps : List (List Nat)} (hl : ∀ i ∈ l, i < 2 ^ 32) (h : optTris b l = .ok ps) :
    ps.length ≤ indexPieces (some l) := by
  have h1 := (optTrisFuel_gain b _ _ _ hl h).1
  have h2 := spread_le hl
  rw [indexPieces]
  generalize l.length * (Nat.log2 (l.foldr max 0) + 1) = n at *
  omega

theorem optVertices_count (laws : OrderLaws fo) {l : List (Vec3 fo.F)} {ps : List (List (Vec3 fo.F))}
    (h : optVertices fo b l = .ok ps) : ps.length ≤ l.length + 1 := by
  by_cases hn : l = []
  · subst hn
    simp only [optVertices, optVerticesFuel, List.length_nil, Outcome.bind_eq_ok] at h
    obtain ⟨o, ho, h⟩ := h
    cases o with
    | none => cases h; simp
    | some i =>
      simp only [Outcome.bind_eq_ok] at h
      obtain ⟨_, h, _⟩ := h
      cases h
  · obtain ⟨hf, _, ha⟩ := optVerticesFuel_cuts laws _ _ _ h
    have := length_le_flatten (ha hn)
    rw [hf] at this
    omega

theorem optimize_count (laws : OrderLaws fo) {s : DecodedSegment fo.F} (hs : SegFits prec s) {ps : List (DecodedSegment fo.F)}
    (h : optimize fo b s = .ok ps) : ps.length ≤ cutsOf s := by
  have key : ∀ {l : List Nat} {ps : List (DecodedSegment fo.F)} (f : List Nat → DecodedSegment fo.F),
      (l.length ≤ 2 ^ 31 ∧ ∀ i ∈ l, i < 2 ^ 31) →
      (do let ps ← optTris b l; .ok (ps.map f)) = Outcome.ok (ε := ExportError) ps → ps.length ≤ indexPieces (some l) := by
    intro l ps f hl h
    obtain ⟨qs, hq, h⟩ := Outcome.bind_eq_ok.mp h
    cases h
    rw [List.length_map]
    exact optTris_count (fun i hi => lt_trans (hl.2 i hi) (by decide)) hq
  cases s with
  | triVertex l => exact key _ hs h
  | triUv l => exact key _ hs h
  | triNormal l => exact key _ hs h
  | triTangent l => exact key _ hs h
  | shared m l => exact key _ hs.2 h
  | vertex l =>
    obtain ⟨qs, hq, h⟩ := Outcome.bind_eq_ok.mp h
    cases h
    rw [List.length_map]
    exact optVertices_count laws hq
  | normal l => cases h; exact Nat.le_refl 1
  | uv l => cases h; exact Nat.le_refl 1
  | tangent l => cases h; exact Nat.le_refl 1
  | custom l => cases h; exact Nat.le_refl 1
  | nothing => cases h; exact Nat.le_refl 1

def sumCuts {F : Type} (l : List (DecodedSegment F)) : Nat := (l.map cutsOf).sum

theorem optimizeAll_count (laws : OrderLaws fo) : ∀ {l : List (DecodedSegment fo.F)} {pieces : List (List (DecodedSegment fo.F))},
    (∀ s ∈ l, SegFits prec s) → Outcome.mapAll (optimize fo b) l = .ok pieces → pieces.flatten.length ≤ sumCuts l := by
  intro l
  induction l with
  | nil => intro pieces _ h; cases h; exact Nat.le_refl 0
  | cons s l ih =>
    intro pieces hs h
    obtain ⟨ps, h1, h⟩ := Outcome.bind_eq_ok.mp h
    obtain ⟨rest, h2, h⟩ := Outcome.bind_eq_ok.mp h
    cases h
    have e1 := optimize_count laws (hs s List.mem_cons_self) h1
    have e2 := ih (fun t ht => hs t (List.mem_cons_of_mem _ ht)) h2
    rw [List.flatten_cons, List.length_append, sumCuts, List.map_cons, List.sum_cons]
    unfold sumCuts at e2
    omega

theorem sumCuts_append {F : Type} (l l' : List (DecodedSegment F)) : sumCuts (l ++ l') = sumCuts l + sumCuts l' := by
  rw [sumCuts, List.map_append, List.sum_append]; rfl

theorem sumCuts_most {F α : Type} (f : List α → DecodedSegment F) (hf : ∀ l, cutsOf (f l) = l.length + 1)
    (o : Option (List α)) : sumCuts (o.map f).toList = mostPieces o := by
  cases o with
  | none => rfl
  | some l => simp [sumCuts, hf, mostPieces]

theorem sumCuts_index {F : Type} (f : List Nat → DecodedSegment F) (hf : ∀ l, cutsOf (f l) = indexPieces (some l))
    (o : Option (List Nat)) : sumCuts (o.map f).toList = indexPieces o := by
  cases o with
  | none => rfl
  | some l => simp [sumCuts, hf]

theorem sumCuts_one {F α : Type} (f : List α → DecodedSegment F) (hf : ∀ l, cutsOf (f l) = 1)
    (o : Option (List α)) : sumCuts (o.map f).toList = onePiece o := by
  cases o with
  | none => rfl
  | some l => simp [sumCuts, hf, onePiece]

theorem sumCuts_custom {F : Type} (l : List (CustomSeg F)) : sumCuts (l.map DecodedSegment.custom) = l.length := by
  induction l with
  | nil => rfl
  | cons c l ih =>
    rw [List.map_cons, sumCuts, List.map_cons, List.sum_cons, List.length_cons, ← ih]
    show 1 + _ = _ + 1
    rw [Nat.add_comm]; rfl

theorem sumCuts_tris {F : Type} (u n v : Option (List Nat)) :
    sumCuts (mergedTris (F := F) u n v) ≤ indexPieces u + indexPieces n + indexPieces v := by
  have h0 : indexPieces none = 0 := rfl
  cases u <;> cases n <;> cases v <;> simp only [mergedTris, Option.map_none, Option.map_some, Option.toList, h0] <;>
    (repeat' split) <;> simp_all [sumCuts, cutsOf] <;> omega

theorem mergedSegs_count {F : Type} (m : Mesh F) : sumCuts (mergedSegs m) ≤ segmentBound m := by
  have := sumCuts_tris (F := F) m.uvTriangles m.normalTriangles m.vertexTriangles
  simp only [mergedSegs, sumCuts_append, sumCuts_custom, List.length_reverse, sumCuts_index triTangent (fun _ => rfl),
    sumCuts_one tangent (fun _ => rfl), sumCuts_one uv (fun _ => rfl), sumCuts_one normal (fun _ => rfl),
    sumCuts_most vertex (fun _ => rfl), segmentBound]
  omega

theorem mapAll_ok_length {ε α β : Type} {f : α → Outcome ε β} : ∀ {l : List α} {vs : List β},
    Outcome.mapAll f l = .ok vs → vs.length = l.length := by
  intro l
  induction l with
  | nil => intro vs h; cases h; rfl
  | cons a l ih =>
    intro vs h
    obtain ⟨v, _, h⟩ := Outcome.bind_eq_ok.mp h
    obtain ⟨vs, h2, h⟩ := Outcome.bind_eq_ok.mp h
    cases h
    rw [List.length_cons, List.length_cons, ih h2]

/-- A mesh never takes more segments than `segmentBound`. -/
theorem encodeMesh_count (laws : OrderLaws fo) {m : Mesh fo.F} (hm : MeshFits prec m) {segs : List EncodedSegment}
    (h : encodeMesh fo fb b prec m = .ok segs) : segs.length ≤ segmentBound m := by
  unfold encodeMesh at h
  obtain ⟨edge, _, h⟩ := Outcome.bind_eq_ok.mp h
  rw [mergeSegments_eq, Outcome.bind_ok] at h
  obtain ⟨pieces, h1, h⟩ := Outcome.bind_eq_ok.mp h
  rw [mapAll_ok_length h]
  exact le_trans (optimizeAll_count laws (mergedSegs_fits hm) h1) (mergedSegs_count m)

end Tmf
