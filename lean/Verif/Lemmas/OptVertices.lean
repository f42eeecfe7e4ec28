import Verif.Spec.OptVertices
import Verif.Lemmas.OptTris
/-
Lemmas about splitting vertex arrays.
-/

namespace Tmf
open Spec
variable {fo : FloatOps}

theorem insideSpan_iff {span : Span fo.F} {p : Vec3 fo.F} : insideSpan fo span p = true ↔
    fo.lt span.1.1 p.1 = true ∧ fo.lt p.1 span.2.1 = true ∧ fo.lt span.1.2.1 p.2.1 = true ∧
      fo.lt p.2.1 span.2.2.1 = true ∧ fo.lt span.1.2.2 p.2.2 = true ∧ fo.lt p.2.2 span.2.2.2 = true := by
  simp [insideSpan, and_assoc]

/-- A vertex strictly inside does not change the span. -/
theorem expandSpan_inside (laws : OrderLaws fo) {span : Span fo.F} {p : Vec3 fo.F} (h : insideSpan fo span p = true) :
    expandSpan fo span p = span := by
  obtain ⟨h1, h2, h3, h4, h5, h6⟩ := insideSpan_iff.mp h
  unfold expandSpan
  rw [laws.min_left _ _ h1, laws.min_left _ _ h3, laws.min_left _ _ h5, laws.max_left _ _ h2, laws.max_left _ _ h4,
    laws.max_left _ _ h6]

/-- Nothing is strictly inside the empty span. -/
theorem insideSpan_zero (laws : OrderLaws fo) (p : Vec3 fo.F) : insideSpan fo (zeroSpan fo) p = false := by
  cases h : insideSpan fo (zeroSpan fo) p with
  | false => rfl
  | true =>
    obtain ⟨h1, h2, _⟩ := insideSpan_iff.mp h
    have := laws.asymm _ _ h1
    simp only [zeroSpan] at this h2
    rw [h2] at this
    cases this

theorem subU8_self (b : Build) (x : Nat) : subU8 b x x = .ok 0 := by
  simp [subU8]

/-- A split with a positive score is neither at the front nor at the last vertex. -/
def Best.Inner (best : Best) (n : Nat) : Prop :=
  ∀ s, best.score = some s → 0 < s → 0 < best.index ∧ best.index + 1 < n

theorem Best.Inner.update {best : Best} {n : Nat} (h : best.Inner n) {i : Nat} {s : Int}
    (hi : 0 < s → 0 < i ∧ i + 1 < n) : (best.update i s).Inner n := by
  have key : (⟨some s, i⟩ : Best).Inner n := by
    intro t ht h0
    simp only [Option.some.injEq] at ht
    subst ht
    exact hi h0
  unfold Best.update
  split
  · exact key
  · split
    · exact key
    · exact h

theorem Best.Inner.split {best : Best} {n i : Nat} (h : best.Inner n) (hs : best.split = some i) : 0 < i ∧ i + 1 < n := by
  unfold Best.split at hs
  split at hs
  · next s hsc =>
    split at hs
    · next hpos =>
      simp only [Option.some.injEq] at hs
      subst hs
      exact h s hsc hpos
    · cases hs
  · cases hs

/-- The invariant of the scan: the running span is that of the vertices read so far, and the bit
count belongs to it. -/
theorem vertexScan_inner (laws : OrderLaws fo) (b : Build) (edge : fo.F) (total : Nat) (all : List (Vec3 fo.F))
    (ht : rangeToVertexBitCount fo b (spanOf fo all) edge = .ok total) :
    ∀ (rest pre : List (Vec3 fo.F)) (bits : Nat) (best best' : Best), all = pre ++ rest →
      (pre ≠ [] → rangeToVertexBitCount fo b (spanOf fo pre) edge = .ok bits) → best.Inner all.length →
      vertexScan fo b edge total pre.length (spanOf fo pre) bits rest best = .ok best' → best'.Inner all.length := by
  intro rest
  induction rest with
  | nil => intro pre bits best best' _ _ hb h; cases h; exact hb
  | cons v rest ih =>
    intro pre bits best best' ha hbits hb h
    have hnext : spanOf fo (pre ++ [v]) = expandSpan fo (spanOf fo pre) v := by simp [spanOf]
    have hlen : (pre ++ [v]).length = pre.length + 1 := by simp
    rw [vertexScan] at h
    split at h
    · next hin =>
      have hpre : pre ≠ [] := by
        rintro rfl
        rw [show spanOf fo [] = zeroSpan fo from rfl, insideSpan_zero laws] at hin
        cases hin
      obtain ⟨gain, hg, h⟩ := Outcome.bind_eq_ok.mp h
      have hsp : spanOf fo (pre ++ [v]) = spanOf fo pre := by rw [hnext, expandSpan_inside laws hin]
      rw [← hsp, ← hlen] at h
      refine ih (pre ++ [v]) bits _ best' (by simp [ha]) (fun _ => by rw [hsp]; exact hbits hpre) ?_ h
      refine hb.update (fun h0 => ?_)
      have hp : 0 < pre.length := List.length_pos_iff.mpr hpre
      refine ⟨hp, ?_⟩
      cases rest with
      | nil =>
        have : total = bits := by
          have h2 := hbits hpre
          rw [← hsp, show pre ++ [v] = all from ha.symm, ht] at h2
          cases h2; rfl
        rw [this, subU8_self] at hg
        cases hg
        simp at h0
      | cons w rest => rw [ha]; simp
    · obtain ⟨bits', hb', h⟩ := Outcome.bind_eq_ok.mp h
      rw [← hnext, ← hlen] at h
      exact ih (pre ++ [v]) bits' best best' (by simp [ha]) (fun _ => by rw [hnext]; exact hb') hb h

theorem inner_start (n : Nat) : (⟨none, 0⟩ : Best).Inner n := by intro s hs; cases hs

/-- The scan ends when the arithmetic on bit counts does not overflow. -/
theorem vertexScan_ok (b : Build) (edge : fo.F) (total : Nat) (all : List (Vec3 fo.F))
    (hc : ∀ p, p <+: all → ∃ n, rangeToVertexBitCount fo b (spanOf fo p) edge = .ok n)
    (hs : ∀ p, p <+: all → ∀ n, rangeToVertexBitCount fo b (spanOf fo p) edge = .ok n → ∃ g, subU8 b total n = .ok g)
    (laws : OrderLaws fo) :
    ∀ (rest pre : List (Vec3 fo.F)) (bits : Nat) (best : Best), all = pre ++ rest →
      (pre ≠ [] → rangeToVertexBitCount fo b (spanOf fo pre) edge = .ok bits) →
      ∃ best', vertexScan fo b edge total pre.length (spanOf fo pre) bits rest best = .ok best' := by
  intro rest
  induction rest with
  | nil => intro pre bits best _ _; exact ⟨best, rfl⟩
  | cons v rest ih =>
    intro pre bits best ha hbits
    have hnext : spanOf fo (pre ++ [v]) = expandSpan fo (spanOf fo pre) v := by simp [spanOf]
    have hlen : (pre ++ [v]).length = pre.length + 1 := by simp
    have hprefix : pre <+: all := ⟨v :: rest, ha.symm⟩
    have hprefix' : pre ++ [v] <+: all := ⟨rest, by simp [ha]⟩
    rw [vertexScan]
    split
    · next hin =>
      have hpre : pre ≠ [] := by
        rintro rfl
        rw [show spanOf fo [] = zeroSpan fo from rfl, insideSpan_zero laws] at hin
        cases hin
      obtain ⟨g, hg⟩ := hs pre hprefix bits (hbits hpre)
      have hsp : spanOf fo (pre ++ [v]) = spanOf fo pre := by rw [hnext, expandSpan_inside laws hin]
      rw [hg, Outcome.bind_ok, ← hlen, ← hsp]
      exact ih (pre ++ [v]) bits _ (by simp [ha]) (fun _ => by rw [hsp]; exact hbits hpre)
    · obtain ⟨n, hn⟩ := hc _ hprefix'
      simp only
      rw [← hnext, hn, Outcome.bind_ok, ← hlen]
      exact ih (pre ++ [v]) n best (by simp [ha]) (fun _ => hn)

theorem findBestVertexSplit_ok (laws : OrderLaws fo) (b : Build) (vs : List (Vec3 fo.F)) (edge : fo.F)
    (hc : ∀ p, p <+: vs → ∃ n, rangeToVertexBitCount fo b (spanOf fo p) edge = .ok n)
    (hs : ∀ p, p <+: vs → ∀ total n, rangeToVertexBitCount fo b (spanOf fo vs) edge = .ok total →
      rangeToVertexBitCount fo b (spanOf fo p) edge = .ok n → ∃ g, subU8 b total n = .ok g) :
    ∃ o, findBestVertexSplit fo b vs edge = .ok o ∧ ∀ i, o = some i → 0 < i ∧ i + 1 < vs.length := by
  obtain ⟨total, ht⟩ := hc vs (List.prefix_refl vs)
  obtain ⟨best, hb⟩ := vertexScan_ok b edge total vs hc (fun p hp n hn => hs p hp total n ht hn) laws vs [] 0 ⟨none, 0⟩
    rfl (by simp)
  have hin := vertexScan_inner laws b edge total vs ht vs [] 0 ⟨none, 0⟩ best rfl (by simp) (inner_start _) hb
  unfold findBestVertexSplit
  simp only
  rw [show vs.foldl (expandSpan fo) (zeroSpan fo) = spanOf fo vs from rfl, ht, Outcome.bind_ok]
  rw [show vertexScan fo b edge total 0 (zeroSpan fo) 0 vs ⟨none, 0⟩ = .ok best from hb, Outcome.bind_ok]
  cases hsp : best.split with
  | none => exact ⟨none, rfl, by simp⟩
  | some i =>
    have := hin.split hsp
    refine ⟨some i, ?_, fun j hj => by cases hj; exact this⟩
    simp only
    rw [if_pos (by omega)]

theorem optVerticesFuel_ok (laws : OrderLaws fo) (b : Build) : ∀ (fuel : Nat) (vs : List (Vec3 fo.F)), vs.length < fuel →
    (∀ l, l <:+: vs → ∃ n, rangeToVertexBitCount fo b (spanOf fo l) (fo.lit 1 2) = .ok n) →
    (∀ l p, l <:+: vs → p <+: l → ∀ total n, rangeToVertexBitCount fo b (spanOf fo l) (fo.lit 1 2) = .ok total →
      rangeToVertexBitCount fo b (spanOf fo p) (fo.lit 1 2) = .ok n → ∃ g, subU8 b total n = .ok g) →
    ∃ ps, optVerticesFuel fo b fuel vs = .ok ps ∧ Cuts vs ps := by
  intro fuel
  induction fuel with
  | zero => intro vs h; omega
  | succ fuel ih =>
    intro vs hlen hc hs
    obtain ⟨o, e, ho⟩ := findBestVertexSplit_ok laws b vs (fo.lit 1 2) (fun p hp => hc p hp.isInfix)
      (fun p hp => hs vs p (List.infix_refl vs) hp)
    rw [optVerticesFuel, e]
    simp only [Outcome.bind_ok]
    cases o with
    | none => exact ⟨[vs], rfl, by simp, by simp, fun h p hp => by simp at hp; subst hp; exact h⟩
    | some i =>
      obtain ⟨h0, hn⟩ := ho i rfl
      have i1 : vs.take i <:+: vs := (List.take_prefix i vs).isInfix
      have i2 : vs.drop i <:+: vs := (List.drop_suffix i vs).isInfix
      obtain ⟨p1, e1, f1, n1, a1⟩ := ih (vs.take i) (by simp; omega) (fun l hl => hc l (hl.trans i1))
        (fun l p hl => hs l p (hl.trans i1))
      obtain ⟨p2, e2, f2, n2, a2⟩ := ih (vs.drop i) (by simp; omega) (fun l hl => hc l (hl.trans i2))
        (fun l p hl => hs l p (hl.trans i2))
      dsimp only
      rw [e1, e2]
      refine ⟨p1 ++ p2, rfl, by simp [f1, f2], by simp [n1], fun _ p hp => ?_⟩
      rcases List.mem_append.mp hp with hp | hp
      · apply a1 _ p hp
        intro h
        have := congrArg List.length h
        simp only [List.length_take, List.length_nil] at this
        omega
      · apply a2 _ p hp
        intro h
        have := congrArg List.length h
        simp only [List.length_drop, List.length_nil] at this
        omega

theorem bitCount_wrapping (span : Span fo.F) (edge : fo.F) : ∃ n, rangeToVertexBitCount fo .wrapping span edge = .ok n := by
  have add : ∀ x y, ∃ n, addU8 .wrapping x y = .ok n := by
    intro x y; unfold addU8; split <;> exact ⟨_, rfl⟩
  unfold rangeToVertexBitCount
  simp only
  obtain ⟨s, hs⟩ := add (fo.log2CeilU8 (fo.div fo.one (fo.div edge (fo.sub span.2.1 span.1.1))))
    (fo.log2CeilU8 (fo.div fo.one (fo.div edge (fo.sub span.2.2.1 span.1.2.1))))
  rw [hs, Outcome.bind_ok]
  exact add _ _

theorem subU8_wrapping (x y : Nat) : ∃ g, subU8 .wrapping x y = .ok g := by
  unfold subU8; split <;> exact ⟨_, rfl⟩

end Tmf
