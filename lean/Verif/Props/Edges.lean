import Verif.Lemmas.Distance
import Verif.Props.AccuracyRange
/-
C53: the shortest edge. C54: how much edges change.
-/

set_option exponentiation.threshold 2000

namespace Tmf.Props
open Spec Ieee

variable {lib : Libm}

theorem distance_ops (lib : Libm) (a c : Vec3 (Val b32)) : distance (ops lib) a c = distV a c := rfl

theorem isEdge_cons {a b c : Nat} {rest : List Nat} {i j : Nat} :
    IsEdge (a :: b :: c :: rest) i j ↔ (i = a ∧ j = b ∨ i = b ∧ j = c ∨ i = c ∧ j = a) ∨ IsEdge rest i j := by
  constructor
  · rintro ⟨k, x, y, z, h1, h2, h3, h⟩
    cases k with
    | zero =>
      simp only [Nat.mul_zero, Nat.zero_add, List.getElem?_cons_zero, List.getElem?_cons_succ, Option.some.injEq] at h1 h2 h3
      subst h1 h2 h3
      exact .inl h
    | succ k =>
      rw [Nat.mul_succ] at h1 h2 h3
      exact .inr ⟨k, x, y, z, h1, h2, h3, h⟩
  · rintro (h | ⟨k, x, y, z, h1, h2, h3, h⟩)
    · exact ⟨0, a, b, c, rfl, rfl, rfl, h⟩
    · exact ⟨k + 1, x, y, z, h1, h2, h3, h⟩

theorem not_isEdge_short {tris : List Nat} (h : tris.length < 3) {i j : Nat} : ¬ IsEdge tris i j := by
  rintro ⟨k, x, y, z, h1, h2, h3, _⟩
  have := (List.getElem?_eq_some_iff.mp h3).1
  omega

/-- `e` is the least of the computed lengths of the edges. -/
structure Least (vs : List (Vec3 (Val b32))) (tris : List Nat) (e : Val b32) : Prop where
  finite : isFinite e = true
  least : ∀ i j a c, IsEdge tris i j → vs[i]? = some a → vs[j]? = some c → valueOf e ≤ valueOf (distV a c)
  attained : ∃ i j a c, IsEdge tris i j ∧ vs[i]? = some a ∧ vs[j]? = some c ∧ e = distV a c

theorem index_ok {ε α : Type} {l : List α} {i : Nat} {a : α} (h : l[i]? = some a) : (index l i : Outcome ε α) = .ok a := by
  rw [index, h]
theorem index_panic {ε α : Type} {l : List α} {i : Nat} (h : l.length ≤ i) : (index l i : Outcome ε α) = .panic := by
  rw [index, List.getElem?_eq_none h]

theorem loop_cons {vs : List (Vec3 (Val b32))} {i j k : Nat} {rest : List Nat} {a b c : Vec3 (Val b32)} {acc : Val b32}
    (ha : vs[i]? = some a) (hb : vs[j]? = some b) (hc : vs[k]? = some c) :
    shortestEdgeLoop (ops lib) vs (i :: j :: k :: rest) acc =
      shortestEdgeLoop (ops lib) vs rest (Ieee.min acc (Ieee.min (distV a b) (Ieee.min (distV b c) (distV c a)))) := by
  rw [shortestEdgeLoop]
  rw [index_ok ha, index_ok hb, index_ok hc]
  rfl

theorem triangle_min {a b c : Vec3 (Val b32)} (ha : Bounded a) (hb : Bounded b) (hc : Bounded c) :
    isFinite (Ieee.min (distV a b) (Ieee.min (distV b c) (distV c a))) = true ∧
    valueOf (Ieee.min (distV a b) (Ieee.min (distV b c) (distV c a))) ≤ valueOf (distV a b) ∧
    valueOf (Ieee.min (distV a b) (Ieee.min (distV b c) (distV c a))) ≤ valueOf (distV b c) ∧
    valueOf (Ieee.min (distV a b) (Ieee.min (distV b c) (distV c a))) ≤ valueOf (distV c a) ∧
    (Ieee.min (distV a b) (Ieee.min (distV b c) (distV c a)) = distV a b ∨
     Ieee.min (distV a b) (Ieee.min (distV b c) (distV c a)) = distV b c ∨
     Ieee.min (distV a b) (Ieee.min (distV b c) (distV c a)) = distV c a) := by
  have d1 := (distV_near ha hb).1
  have d2 := (distV_near hb hc).1
  have d3 := (distV_near hc ha).1
  have m := min_value d2 d3
  have m' := min_value d1 m.1
  refine ⟨m'.1, ?_, ?_, ?_, ?_⟩
  · rw [m'.2]; exact min_le_left _ _
  · rw [m'.2, m.2]; exact le_trans (min_le_right _ _) (min_le_left _ _)
  · rw [m'.2, m.2]; exact le_trans (min_le_right _ _) (min_le_right _ _)
  · rcases min_cases d1 m.1 with ⟨h, _⟩ | ⟨h, _⟩
    · exact .inl h
    · rw [h]
      rcases min_cases d2 d3 with ⟨h, _⟩ | ⟨h, _⟩
      · exact .inr (.inl h)
      · exact .inr (.inr h)

theorem loop_spec {vs : List (Vec3 (Val b32))} (hv : ∀ v ∈ vs, Bounded v) : ∀ (n : Nat) (tris : List Nat), tris.length ≤ n →
    (∀ i j, IsEdge tris i j → i < vs.length) → ∀ acc : Val b32, isFinite acc = true →
    ∃ e, shortestEdgeLoop (ops lib) vs tris acc = .ok e ∧ isFinite e = true ∧ valueOf e ≤ valueOf acc ∧
      (∀ i j a c, IsEdge tris i j → vs[i]? = some a → vs[j]? = some c → valueOf e ≤ valueOf (distV a c)) ∧
      (e = acc ∨ ∃ i j a c, IsEdge tris i j ∧ vs[i]? = some a ∧ vs[j]? = some c ∧ e = distV a c)
  | 0, tris, hn, _, acc, ha => by
    obtain rfl : tris = [] := List.eq_nil_of_length_eq_zero (by omega)
    exact ⟨acc, rfl, ha, le_refl _, fun i j a c h => absurd h (not_isEdge_short (by decide)), .inl rfl⟩
  | n + 1, [], _, _, acc, ha => ⟨acc, rfl, ha, le_refl _, fun i j a c h => absurd h (not_isEdge_short (by decide)), .inl rfl⟩
  | n + 1, [x], _, _, acc, ha => ⟨acc, rfl, ha, le_refl _, fun i j a c h => absurd h (not_isEdge_short (by simp)), .inl rfl⟩
  | n + 1, [x, y], _, _, acc, ha => ⟨acc, rfl, ha, le_refl _, fun i j a c h => absurd h (not_isEdge_short (by simp)), .inl rfl⟩
  | n + 1, i :: j :: k :: rest, hn, hi, acc, hacc => by
    have hil := hi i j (isEdge_cons.mpr (.inl (.inl ⟨rfl, rfl⟩)))
    have hjl := hi j k (isEdge_cons.mpr (.inl (.inr (.inl ⟨rfl, rfl⟩))))
    have hkl := hi k i (isEdge_cons.mpr (.inl (.inr (.inr ⟨rfl, rfl⟩))))
    obtain ⟨a, ha⟩ : ∃ a, vs[i]? = some a := ⟨_, List.getElem?_eq_getElem hil⟩
    obtain ⟨b, hb⟩ : ∃ b, vs[j]? = some b := ⟨_, List.getElem?_eq_getElem hjl⟩
    obtain ⟨c, hc⟩ : ∃ c, vs[k]? = some c := ⟨_, List.getElem?_eq_getElem hkl⟩
    obtain ⟨t1, t2, t3, t4, t5⟩ := triangle_min (hv a (List.mem_of_getElem? ha)) (hv b (List.mem_of_getElem? hb))
      (hv c (List.mem_of_getElem? hc))
    have m := min_value hacc t1
    obtain ⟨e, h1, h2, h3, h4, h5⟩ := loop_spec hv n rest (by simp only [List.length_cons] at hn; omega)
      (fun i j h => hi i j (isEdge_cons.mpr (.inr h))) _ m.1
    rw [m.2] at h3
    have hle := le_trans h3 (min_le_right _ _)
    refine ⟨e, by rw [loop_cons ha hb hc]; exact h1, h2, le_trans h3 (min_le_left _ _), ?_, ?_⟩
    · intro i' j' a' c' h ha' hc'
      rcases isEdge_cons.mp h with (⟨rfl, rfl⟩ | ⟨rfl, rfl⟩ | ⟨rfl, rfl⟩) | h
      · rw [ha] at ha'; rw [hb] at hc'; cases ha'; cases hc'; exact le_trans hle t2
      · rw [hb] at ha'; rw [hc] at hc'; cases ha'; cases hc'; exact le_trans hle t3
      · rw [hc] at ha'; rw [ha] at hc'; cases ha'; cases hc'; exact le_trans hle t4
      · exact h4 i' j' a' c' h ha' hc'
    · rcases h5 with h5 | ⟨i', j', a', c', h, h'⟩
      · rcases min_cases hacc t1 with ⟨h, _⟩ | ⟨h, _⟩
        · exact .inl (by rw [h5, h])
        · rw [h] at h5
          rcases t5 with t | t | t
          · exact .inr ⟨i, j, a, b, isEdge_cons.mpr (.inl (.inl ⟨rfl, rfl⟩)), ha, hb, by rw [h5, t]⟩
          · exact .inr ⟨j, k, b, c, isEdge_cons.mpr (.inl (.inr (.inl ⟨rfl, rfl⟩))), hb, hc, by rw [h5, t]⟩
          · exact .inr ⟨k, i, c, a, isEdge_cons.mpr (.inl (.inr (.inr ⟨rfl, rfl⟩))), hc, ha, by rw [h5, t]⟩
      · exact .inr ⟨i', j', a', c', isEdge_cons.mpr (.inr h), h'⟩

theorem min_inf {x : Val b32} (h : isFinite x = true) : Ieee.min (.inf false) x = x := by
  obtain ⟨s, n, hn, rfl⟩ := finite_cases h
  rfl

theorem shortest_least {vs : List (Vec3 (Val b32))} (hv : ∀ v ∈ vs, Bounded v) {tris : List Nat} (h3 : 3 ≤ tris.length)
    (hi : ∀ i j, IsEdge tris i j → i < vs.length) :
    ∃ e, calcShortestEdge (ops lib) (some tris) (some vs) = .ok e ∧ Least vs tris e := by
  match tris, h3, hi with
  | i :: j :: k :: rest, _, hi =>
    have hil := hi i j (isEdge_cons.mpr (.inl (.inl ⟨rfl, rfl⟩)))
    have hjl := hi j k (isEdge_cons.mpr (.inl (.inr (.inl ⟨rfl, rfl⟩))))
    have hkl := hi k i (isEdge_cons.mpr (.inl (.inr (.inr ⟨rfl, rfl⟩))))
    obtain ⟨a, ha⟩ : ∃ a, vs[i]? = some a := ⟨_, List.getElem?_eq_getElem hil⟩
    obtain ⟨b, hb⟩ : ∃ b, vs[j]? = some b := ⟨_, List.getElem?_eq_getElem hjl⟩
    obtain ⟨c, hc⟩ : ∃ c, vs[k]? = some c := ⟨_, List.getElem?_eq_getElem hkl⟩
    obtain ⟨t1, t2, t3, t4, t5⟩ := triangle_min (hv a (List.mem_of_getElem? ha)) (hv b (List.mem_of_getElem? hb))
      (hv c (List.mem_of_getElem? hc))
    obtain ⟨e, h1, h2, h3, h4, h5⟩ := loop_spec (lib := lib) hv rest.length rest (le_refl _)
      (fun i j h => hi i j (isEdge_cons.mpr (.inr h))) _ t1
    refine ⟨e, ?_, h2, ?_, ?_⟩
    · rw [calcShortestEdge]
      · show (shortestEdgeLoop (ops lib) vs (i :: j :: k :: rest) (.inf false) >>= assertFinite (ops lib)) = _
        rw [loop_cons ha hb hc, min_inf t1, h1]
        show assertFinite (ops lib) e = _
        rw [assertFinite]
        exact if_pos h2
      · simp
    · intro i' j' a' c' h ha' hc'
      rcases isEdge_cons.mp h with (⟨rfl, rfl⟩ | ⟨rfl, rfl⟩ | ⟨rfl, rfl⟩) | h
      · rw [ha] at ha'; rw [hb] at hc'; cases ha'; cases hc'; exact le_trans h3 t2
      · rw [hb] at ha'; rw [hc] at hc'; cases ha'; cases hc'; exact le_trans h3 t3
      · rw [hc] at ha'; rw [ha] at hc'; cases ha'; cases hc'; exact le_trans h3 t4
      · exact h4 i' j' a' c' h ha' hc'
    · rcases h5 with h5 | ⟨i', j', a', c', h, h'⟩
      · rcases t5 with t | t | t
        · exact ⟨i, j, a, b, isEdge_cons.mpr (.inl (.inl ⟨rfl, rfl⟩)), ha, hb, by rw [h5, t]⟩
        · exact ⟨j, k, b, c, isEdge_cons.mpr (.inl (.inr (.inl ⟨rfl, rfl⟩))), hb, hc, by rw [h5, t]⟩
        · exact ⟨k, i, c, a, isEdge_cons.mpr (.inl (.inr (.inr ⟨rfl, rfl⟩))), hc, ha, by rw [h5, t]⟩
      · exact ⟨i', j', a', c', isEdge_cons.mpr (.inr h), h'⟩

/-- C53: finite vertices with coordinates up to `2^58`, at least one complete triangle, and every
corner of a complete triangle in range. The computed shortest edge is, up to rounding, the length of
some edge and at most the length of every edge. -/
theorem C53_shortest {vs : List (Vec3 (Val b32))} (hv : ∀ v ∈ vs, Bounded v) {tris : List Nat} (h3 : 3 ≤ tris.length)
    (hi : ∀ i j, IsEdge tris i j → i < vs.length) :
    ∃ e, calcShortestEdge (ops lib) (some tris) (some vs) = .ok e ∧ isFinite e = true ∧ 0 ≤ valueOf e ∧
      (∀ i j a c, IsEdge tris i j → vs[i]? = some a → vs[j]? = some c →
        realOf e ≤ chord a c + (1 / 2 ^ 20 * chord a c + 1 / 2 ^ 73)) ∧
      ∃ i j a c, IsEdge tris i j ∧ vs[i]? = some a ∧ vs[j]? = some c ∧
        |realOf e - chord a c| ≤ 1 / 2 ^ 20 * chord a c + 1 / 2 ^ 73 := by
  obtain ⟨e, he, hl⟩ := shortest_least (lib := lib) hv h3 hi
  obtain ⟨i, j, a, c, h, ha, hc, rfl⟩ := hl.attained
  obtain ⟨n1, n2, n3⟩ := distV_near (hv a (List.mem_of_getElem? ha)) (hv c (List.mem_of_getElem? hc))
  refine ⟨_, he, n1, n2, ?_, i, j, a, c, h, ha, hc, n3⟩
  intro i' j' a' c' h' ha' hc'
  obtain ⟨_, _, m3⟩ := distV_near (hv a' (List.mem_of_getElem? ha')) (hv c' (List.mem_of_getElem? hc'))
  have hle : realOf (distV a c) ≤ realOf (distV a' c') := by
    simp only [realOf]
    exact_mod_cast hl.least i' j' a' c' h' ha' hc'
  linarith [(abs_le.mp m3).2]

theorem loop_panic (fo : FloatOps) {vs : List (Vec3 fo.F)} : ∀ (n : Nat) (tris : List Nat), tris.length ≤ n →
    ∀ i j, IsEdge tris i j → vs.length ≤ i → ∀ acc, shortestEdgeLoop fo vs tris acc = .panic
  | 0, tris, hn, i, j, h, _, acc => absurd h (not_isEdge_short (by omega))
  | n + 1, [], _, i, j, h, _, acc => absurd h (not_isEdge_short (by decide))
  | n + 1, [x], _, i, j, h, _, acc => absurd h (not_isEdge_short (by simp))
  | n + 1, [x, y], _, i, j, h, _, acc => absurd h (not_isEdge_short (by simp))
  | n + 1, x :: y :: z :: rest, hn, i, j, h, hi, acc => by
    rw [shortestEdgeLoop]
    cases hx : (index vs x : Outcome ExportError _) with
    | err e => rw [index] at hx; split at hx <;> cases hx
    | panic => rfl
    | ok a =>
      cases hy : (index vs y : Outcome ExportError _) with
      | err e => rw [index] at hy; split at hy <;> cases hy
      | panic => rfl
      | ok b =>
        cases hz : (index vs z : Outcome ExportError _) with
        | err e => rw [index] at hz; split at hz <;> cases hz
        | panic => rfl
        | ok c =>
          rcases isEdge_cons.mp h with (⟨rfl, rfl⟩ | ⟨rfl, rfl⟩ | ⟨rfl, rfl⟩) | h
          · rw [index_panic hi] at hx; cases hx
          · rw [index_panic hi] at hy; cases hy
          · rw [index_panic hi] at hz; cases hz
          · exact loop_panic fo n rest (by simp only [List.length_cons] at hn; omega) i j h hi _

/-- C53: a corner of a complete triangle that is out of range is a panic, whatever the arithmetic. -/
theorem C53_range (fo : FloatOps) {vs : List (Vec3 fo.F)} {tris : List Nat} {i j : Nat} (h : IsEdge tris i j)
    (hi : vs.length ≤ i) : calcShortestEdge fo (some tris) (some vs) = .panic := by
  cases tris with
  | nil => exact absurd h (not_isEdge_short (by decide))
  | cons t tris =>
    rw [calcShortestEdge]
    · rw [loop_panic fo _ _ (le_refl _) i j h hi]
      rfl
    · simp

/-- C53: one or two corner indices, which make no triangle, are a panic. -/
theorem C53_incomplete {vs : List (Vec3 (Val b32))} {tris : List Nat} (h1 : tris ≠ []) (h2 : tris.length < 3) :
    calcShortestEdge (ops lib) (some tris) (some vs) = .panic := by
  match tris, h1, h2 with
  | [x], _, _ => rfl
  | [x, y], _, _ => rfl
  | x :: y :: z :: rest, _, h => simp only [List.length_cons] at h; omega

/-- C53: without triangles or without vertices, and also with an empty array of triangles, 0.1 is
used. -/
theorem C53_default : (∀ vs, calcShortestEdge (ops lib) none vs = .ok (lit 1 1)) ∧
    (∀ vs, calcShortestEdge (ops lib) (some []) vs = .ok (lit 1 1)) ∧
    ∀ tris, calcShortestEdge (ops lib) (some tris) none = .ok (lit 1 1) := by
  refine ⟨fun vs => ?_, fun vs => rfl, fun tris => ?_⟩
  · show assertFinite (ops lib) (lit 1 1) = _
    rw [assertFinite]
    exact if_pos (show isFinite (lit 1 1 : Val b32) = true by decide +kernel)
  · cases tris <;> rfl

/-! ### Examples -/

/-- The triangle `(0,0,0), (0,1,0), (5,0,0)`. -/
def thin : List (Vec3 (Val b32)) := [(vZero, vZero, vZero), (vZero, vOne, vZero), (vFive, vZero, vZero)]

theorem thin_bounded : ∀ v ∈ thin, Bounded v := by
  intro v hv
  simp only [thin, List.mem_cons, List.not_mem_nil, or_false] at hv
  rcases hv with rfl | rfl | rfl <;> refine ⟨⟨rfl, rfl, rfl⟩, ?_⟩ <;>
    simp only [valueOf_vZero, valueOf_vFive, valueOf_vOne] <;> norm_num

theorem thin_edges {i j : Nat} (h : IsEdge [0, 1, 2] i j) : i < thin.length := by
  rcases isEdge_cons.mp h with (⟨rfl, _⟩ | ⟨rfl, _⟩ | ⟨rfl, _⟩) | h
  · decide
  · decide
  · decide
  · exact absurd h (not_isEdge_short (by decide))

/-- A triangle meeting the hypotheses of `C53_shortest`. -/
example : ∃ e, calcShortestEdge (ops lib) (some [0, 1, 2]) (some thin) = .ok e ∧ isFinite e = true :=
  let ⟨e, h1, h2, _⟩ := C53_shortest thin_bounded (by decide) (fun _ _ h => thin_edges h)
  ⟨e, h1, h2⟩

theorem thin_min : Ieee.min (distV (vZero, vZero, vZero) (vZero, vOne, vZero))
    (Ieee.min (distV (vZero, vOne, vZero) (vFive, vZero, vZero)) (distV (vFive, vZero, vZero) (vZero, vZero, vZero))) = vOne := by
  decide +kernel

theorem thin_edge : calcShortestEdge (ops lib) (some [0, 1, 2]) (some thin) = .ok vOne := by
  rw [calcShortestEdge]
  · show (shortestEdgeLoop (ops lib) thin [0, 1, 2] (.inf false) >>= assertFinite (ops lib)) = _
    rw [loop_cons (a := (vZero, vZero, vZero)) (b := (vZero, vOne, vZero)) (c := (vFive, vZero, vZero)) rfl rfl rfl, thin_min,
      min_inf rfl]
    rfl
  · simp

example (fo : FloatOps) (v : Vec3 fo.F) : calcShortestEdge fo (some [0, 0, 1]) (some [v]) = .panic :=
  C53_range fo (i := 1) (j := 0) ⟨0, 0, 0, 1, rfl, rfl, rfl, .inr (.inr ⟨rfl, rfl⟩)⟩ (by simp)

/-! ### C54 -/

theorem box_thin : boxOf (vZero, vZero, vZero) [(vZero, vOne, vZero), (vFive, vZero, vZero)] =
    ⟨vZero, vOne, vZero, vFive, vZero, vZero⟩ := by decide +kernel
theorem coordQ_thin : coordQ 4 vZero vOne vZero = vZero ∧ coordQ 6 vZero vFive vZero = vZero ∧ coordQ 6 vZero vZero vZero = vZero ∧
    lt (coordQ 4 vZero vOne vFive) vZero = false := by
  decide +kernel

theorem chord_axis (x : Val b32) (y : Val b32) : chord (x, vZero, vZero) (y, vZero, vZero) = |realOf x - realOf y| := by
  rw [chord, length3]
  dsimp only
  rw [sub_self, zero_pow two_ne_zero, add_zero, add_zero, Real.sqrt_sq_eq_abs]

/-- C54 is false: with precision 0.1 the triangle `(0,0,0), (0,1,0), (5,0,0)`, whose shortest edge is
computed as 1, comes back with the edge of length 5 shorter than 1. -/
theorem C54_violated (hlog : AccurateLog2 lib) {fb : F64Bytes (ops lib)} {b : Build} :
    calcShortestEdge (ops lib) (some [0, 1, 2]) (some thin) = .ok vOne ∧
    chord (vFive, vZero, vZero) (vZero, vZero, vZero) = 5 ∧
    ∃ bytes u v w, saveVertices (ops lib) fb b thin (lit 1 1) vOne = .ok bytes ∧
      readVertices (ops lib) fb bytes = .ok [u, v, w] ∧ chord w u < 1 := by
  have r0 : realOf vZero = 0 := by rw [realOf, valueOf_vZero]; norm_num
  refine ⟨thin_edge, ?_, ?_⟩
  · rw [chord_axis, r0, realOf, valueOf_vFive]
    norm_num
  have hb : vertexBox (ops lib) thin = .ok ⟨vZero, vOne, vZero, vFive, vZero, vZero⟩ := by rw [thin, vertexBox_ops, box_thin]
  have hp : (⟨vZero, vOne, vZero, vFive, vZero, vZero⟩ : VBox (Val b32)).precs (ops lib) (lit 1 1) vOne = (4, 6, 6) := by
    rw [precs_ops lib, bits_flat lib hlog]
  obtain ⟨bytes, hw, hr⟩ := readVertices_saved (fo := ops lib) (fb := fb) (b := b) (precision := lit 1 1) (edge := vOne)
    hb (by rw [hp]; decide) (by rw [hp]; decide) (by rw [hp]; decide) (by show 3 ≤ 2 ^ 31; decide)
  have h := hr []
  rw [List.append_nil, quantVertices, hb] at h
  dsimp only at h
  rw [hp, thin, List.map_cons, List.map_cons, List.map_cons, List.map_nil, quantVertex_ops lib, quantVertex_ops lib,
    quantVertex_ops lib] at h
  obtain ⟨c1, c2, c3, c4⟩ := coordQ_thin
  refine ⟨bytes, _, _, _, hw, h, ?_⟩
  dsimp only
  rw [c1, c2, c3, chord_axis, r0, sub_zero]
  have h1 := (lt_value coordQ_flat.2 (show isFinite vOne = true from rfl)).mp coordQ_flat.1
  rw [valueOf_vOne] at h1
  have h0 : 0 ≤ valueOf (coordQ 4 vZero vOne vFive) := by
    rw [← valueOf_vZero]
    refine not_lt.mp (fun hc => ?_)
    rw [(lt_value coordQ_flat.2 (show isFinite vZero = true from rfl)).mpr hc] at c4
    cases c4
  rw [realOf, abs_of_nonneg (by exact_mod_cast h0)]
  exact_mod_cast h1

/-! #### How wide the code is -/

/-- A normal result has a small relative error. -/
theorem rnd32_rel {v : ℚ} (h : 1 / 2 ^ 126 ≤ v) : v * (1 - 1 / 2 ^ 23) ≤ rnd b32 v ∧ rnd b32 v ≤ v * (1 + 1 / 2 ^ 23) := by
  have he := rnd32_error v
  have h0 : 0 ≤ v := le_trans (by norm_num) h
  rw [abs_of_nonneg h0, abs_le] at he
  have ht : (1 : ℚ) / 2 ^ 150 ≤ 1 / 2 ^ 24 * v :=
    le_trans (show (1 : ℚ) / 2 ^ 150 = 1 / 2 ^ 24 * (1 / 2 ^ 126) by norm_num).le (mul_le_mul_of_nonneg_left h (by norm_num))
  constructor
  · have := he.1
    have e : v * (1 - 1 / 2 ^ 23) = v - (1 / 2 ^ 24 * v + 1 / 2 ^ 24 * v) := by ring
    linarith
  · have := he.2
    have e : v * (1 + 1 / 2 ^ 23) = v + (1 / 2 ^ 24 * v + 1 / 2 ^ 24 * v) := by ring
    linarith

/-- The number of bits is enough for steps of `precision * edge`. -/
theorem width_enough (hlog : AccurateLog2 lib) {edge pr size : Val b32} (he : isFinite edge = true) (hp : isFinite pr = true)
    (hs : isFinite size = true) (e1 : 1 / 2 ^ 40 ≤ valueOf edge) (e2 : valueOf edge ≤ 2 ^ 62) (p1 : 1 / 2 ^ 20 ≤ valueOf pr)
    (p2 : valueOf pr ≤ 2 ^ 20) (s1 : 1 / 2 ^ 20 ≤ valueOf size) (s2 : valueOf size ≤ 2 ^ 60) {p : Nat}
    (hw : bitsFor lib (div (lit 1 0) (mul (div edge size) pr)) ≤ p) (hp24 : p < 255) :
    valueOf size ≤ valueOf edge * valueOf pr * 2 ^ p * (1 + 1 / 2 ^ 16) := by
  have hP : 0 < b32.prec := by decide
  have hmax := maxV32
  have sp : 0 < valueOf size := lt_of_lt_of_le (by norm_num) s1
  have ep : 0 < valueOf edge := lt_of_lt_of_le (by norm_num) e1
  have pp : 0 < valueOf pr := lt_of_lt_of_le (by norm_num) p1
  -- edge / size
  have q1 : 1 / 2 ^ 100 ≤ valueOf edge / valueOf size := by
    rw [le_div_iff₀ sp]
    refine le_trans (mul_le_mul_of_nonneg_left s2 (by norm_num)) (le_trans (le_of_eq ?_) e1)
    norm_num
  have q2 : valueOf edge / valueOf size ≤ 2 ^ 82 := by
    rw [div_le_iff₀ sp]
    refine le_trans e2 (le_trans (le_of_eq ?_) (mul_le_mul_of_nonneg_left s1 (by norm_num)))
    norm_num
  have q0 : 0 < valueOf edge / valueOf size := div_pos ep sp
  obtain ⟨fd, vd⟩ := div_value (f := b32) hP he hs sp.ne' (by
    rw [abs_of_pos q0]; exact le_trans q2 (le_trans (by norm_num) hmax))
  obtain ⟨d1, d2⟩ := rnd32_rel (le_trans (by norm_num) q1)
  rw [← vd] at d1 d2
  have d3 : 1 / 2 ^ 101 ≤ valueOf (div edge size) := le_trans (by norm_num at q1 ⊢; linarith) d1
  have d4 : valueOf (div edge size) ≤ 2 ^ 83 := le_trans d2 (by norm_num at q2 ⊢; linarith)
  have d0 : 0 < valueOf (div edge size) := lt_of_lt_of_le (by norm_num) d3
  -- times precision
  have m3 : 1 / 2 ^ 121 ≤ valueOf (div edge size) * valueOf pr :=
    le_trans (show (1 : ℚ) / 2 ^ 121 = 1 / 2 ^ 101 * (1 / 2 ^ 20) by norm_num).le (mul_le_mul d3 p1 (by norm_num) d0.le)
  have m4 : valueOf (div edge size) * valueOf pr ≤ 2 ^ 103 :=
    le_trans (mul_le_mul d4 p2 pp.le (by norm_num)) (by norm_num)
  have m0 : 0 < valueOf (div edge size) * valueOf pr := mul_pos d0 pp
  obtain ⟨fm, vm⟩ := mul_value (f := b32) hP fd hp (by
    rw [abs_of_pos m0]; exact le_trans m4 (le_trans (by norm_num) hmax))
  obtain ⟨n1, n2⟩ := rnd32_rel (le_trans (by norm_num) m3)
  rw [← vm] at n1 n2
  have n3 : 1 / 2 ^ 122 ≤ valueOf (mul (div edge size) pr) := le_trans (by norm_num at m3 ⊢; linarith) n1
  have n4 : valueOf (mul (div edge size) pr) ≤ 2 ^ 104 := le_trans n2 (by norm_num at m4 ⊢; linarith)
  have n0 : 0 < valueOf (mul (div edge size) pr) := lt_of_lt_of_le (by norm_num) n3
  -- one divided by that
  have hone : isFinite (lit 1 0 : Val b32) = true ∧ valueOf (lit 1 0 : Val b32) = 1 := by
    rw [show (lit 1 0 : Val b32) = vOne by decide +kernel]
    exact ⟨rfl, valueOf_vOne⟩
  have r0 : 0 < 1 / valueOf (mul (div edge size) pr) := by positivity
  have r1 : 1 / 2 ^ 104 ≤ 1 / valueOf (mul (div edge size) pr) := one_div_le_one_div_of_le n0 n4
  have r2 : 1 / valueOf (mul (div edge size) pr) ≤ 2 ^ 122 := by
    rw [div_le_iff₀ n0]
    refine le_trans (le_of_eq ?_) (mul_le_mul_of_nonneg_left n3 (by norm_num))
    norm_num
  obtain ⟨fr, vr⟩ := div_value (f := b32) hP hone.1 fm n0.ne' (by
    rw [hone.2, abs_of_pos r0]; exact le_trans r2 (le_trans (by norm_num) hmax))
  rw [hone.2] at vr
  obtain ⟨t1, _⟩ := rnd32_rel (le_trans (by norm_num) r1)
  rw [← vr] at t1
  have hle := bits_le hlog (r := div (lit 1 0) (mul (div edge size) pr)) rfl (lt_of_le_of_lt hw hp24)
  have hpow : (2 : ℚ) ^ bitsFor lib (div (lit 1 0) (mul (div edge size) pr)) ≤ 2 ^ p := pow_le_pow_right₀ (by norm_num) hw
  have hle' : valueOf (div (lit 1 0) (mul (div edge size) pr)) ≤ 2 ^ p * (1 + 1 / 2 ^ 17) :=
    le_trans hle (mul_le_mul_of_nonneg_right hpow (by norm_num))
  -- put together
  have k1 : 1 * (1 - 1 / 2 ^ 23) ≤ 2 ^ p * (1 + 1 / 2 ^ 17) * valueOf (mul (div edge size) pr) := by
    have h := le_trans t1 hle'
    rw [div_mul_eq_mul_div, div_le_iff₀ n0] at h
    exact h
  have k2 : valueOf (mul (div edge size) pr) ≤ valueOf edge / valueOf size * valueOf pr * (1 + 1 / 2 ^ 23) ^ 2 := by
    refine le_trans n2 ?_
    have := mul_le_mul_of_nonneg_right (mul_le_mul_of_nonneg_right d2 pp.le) (show (0 : ℚ) ≤ 1 + 1 / 2 ^ 23 by norm_num)
    refine le_trans this (le_of_eq ?_)
    ring
  have hP0 : (0 : ℚ) ≤ 2 ^ p := by positivity
  generalize (2 : ℚ) ^ p = P at *
  have k3 : 1 * (1 - 1 / 2 ^ 23) ≤ P * (1 + 1 / 2 ^ 17) * (valueOf edge / valueOf size * valueOf pr * (1 + 1 / 2 ^ 23) ^ 2) :=
    le_trans k1 (mul_le_mul_of_nonneg_left k2 (by positivity))
  have k4 : valueOf size * (1 - 1 / 2 ^ 23) ≤ P * (1 + 1 / 2 ^ 17) * (valueOf edge * valueOf pr * (1 + 1 / 2 ^ 23) ^ 2) := by
    have h := mul_le_mul_of_nonneg_left k3 sp.le
    have e : valueOf size * (P * (1 + 1 / 2 ^ 17) * (valueOf edge / valueOf size * valueOf pr * (1 + 1 / 2 ^ 23) ^ 2)) =
        P * (1 + 1 / 2 ^ 17) * (valueOf edge * valueOf pr * (1 + 1 / 2 ^ 23) ^ 2) := by
      field_simp
    rw [e, one_mul] at h
    exact h
  have hE : 0 ≤ valueOf edge * valueOf pr * P := by positivity
  have e5 : P * (1 + 1 / 2 ^ 17) * (valueOf edge * valueOf pr * (1 + 1 / 2 ^ 23) ^ 2) =
      valueOf edge * valueOf pr * P * ((1 + 1 / 2 ^ 17) * (1 + 1 / 2 ^ 23) ^ 2) := by ring
  rw [e5] at k4
  generalize valueOf edge * valueOf pr * P = E at *
  norm_num at k4 ⊢
  linarith

theorem size_value {mn mx : Val b32} (hmn : isFinite mn = true) (hmx : isFinite mx = true) {M : ℚ} (h1 : |valueOf mn| ≤ M)
    (h2 : |valueOf mx| ≤ M) (hM : M ≤ 2 ^ 58) :
    isFinite (sizeOf mn mx) = true ∧ 1 / 2 ^ 20 ≤ valueOf (sizeOf mn mx) ∧ valueOf (sizeOf mn mx) ≤ 2 ^ 60 ∧
    (0 ≤ valueOf mx - valueOf mn → valueOf mx - valueOf mn ≤ valueOf (sizeOf mn mx) * (1 + 1 / 2 ^ 23)) := by
  have hd : |valueOf mx - valueOf mn| ≤ 2 ^ 59 := by
    refine le_trans (abs_sub _ _) ?_
    linarith [show (2 : ℚ) ^ 59 = 2 ^ 58 + 2 ^ 58 by norm_num]
  obtain ⟨hf, hv⟩ := sub_value (f := b32) (by decide) hmx hmn (le_trans hd (le_trans (by norm_num) maxV32))
  have he := rnd32_error_add mx (neg mn)
  rw [(neg_value mn).2, ← sub_eq_add_neg, ← hv] at he
  obtain ⟨e1, e2, e3⟩ := eps_value
  have m := max_value hf e1
  have e4 : 1 / 2 ^ 20 ≤ valueOf (lit 1 6 : Val b32) := by
    rw [show (lit 1 6 : Val b32) = .fin false (8796093 * 2 ^ 106) (by decide +kernel) by decide +kernel, valueOf_pos,
      show b32.scale = 149 from rfl]
    norm_num
  refine ⟨m.1, ?_, ?_, ?_⟩
  · rw [Ieee.sizeOf, m.2]; exact le_max_of_le_right e4
  · rw [Ieee.sizeOf, m.2]
    refine max_le ?_ (le_trans e3.le (by norm_num))
    have := (abs_le.mp he).2
    have := le_abs_self (valueOf mx - valueOf mn)
    norm_num at *
    linarith
  · intro h0
    have h3 : valueOf (sub mx mn) ≤ valueOf (sizeOf mn mx) := by rw [Ieee.sizeOf, m.2]; exact le_max_left _ _
    rw [abs_of_nonneg h0] at he
    have := (abs_le.mp he).1
    generalize valueOf mx - valueOf mn = D at *
    norm_num at *
    linarith

/-- How far a coordinate of a saved vertex may be off when steps of `E` were asked for. -/
def edgeStep (E M : ℚ) : ℚ := 2 * E * (1 + 1 / 2 ^ 15) + 1 / 999999 + M / 2 ^ 19 + 1 / 2 ^ 148

theorem coord_step (hlog : AccurateLog2 lib) {edge pr mn mx mn' mx' x : Val b32} {M : ℚ} {p : Nat} (he : isFinite edge = true)
    (hp : isFinite pr = true) (e1 : 1 / 2 ^ 40 ≤ valueOf edge) (e2 : valueOf edge ≤ 2 ^ 62) (p1 : 1 / 2 ^ 20 ≤ valueOf pr)
    (p2 : valueOf pr ≤ 2 ^ 20) (hx : isFinite x = true) (hmn : isFinite mn = true) (hmx : isFinite mx = true)
    (hmn' : isFinite mn' = true) (hmx' : isFinite mx' = true)
    (h0 : valueOf mn ≤ valueOf x) (h1 : valueOf x ≤ valueOf mx) (b1 : |valueOf mn| ≤ M) (b2 : |valueOf mx| ≤ M)
    (b1' : |valueOf mn'| ≤ M) (b2' : |valueOf mx'| ≤ M) (hM : M ≤ 2 ^ 58)
    (hle : valueOf mx - valueOf mn ≤ valueOf mx' - valueOf mn')
    (hw : p = Max.max (bitsFor lib (div (lit 1 0) (mul (div edge (sizeOf mn' mx')) pr))) 1) (hp31 : p ≤ 31)
    (hedge : 25 ≤ p → 1 / 1000001 < valueOf mx - valueOf mn →
      valueOf x - valueOf mn ≤ (1 - 1 / 2 ^ 21) * (valueOf mx - valueOf mn)) :
    isFinite (coordQ p mn mx x) = true ∧ |valueOf (coordQ p mn mx x) - valueOf x| ≤ edgeStep (valueOf edge * valueOf pr) M := by
  have hp1 : 1 ≤ p := by rw [hw]; exact le_max_right _ _
  obtain ⟨c1, c2⟩ := coordQ_near_any hp1 hp31 hx hmn hmx h0 h1 b1 b2 (le_trans hM (by norm_num)) hedge
  refine ⟨c1, le_trans c2 ?_⟩
  obtain ⟨z1, z2, z3, z4⟩ := size_value hmn' hmx' b1' b2' hM
  have z5 := z4 (by linarith)
  have hwid := width_enough hlog he hp z1 e1 e2 p1 p2 z2 z3 (p := p) (by rw [hw]; exact le_max_left _ _) (by omega)
  have ep : 0 < valueOf edge := lt_of_lt_of_le (by norm_num) e1
  have pp : 0 < valueOf pr := lt_of_lt_of_le (by norm_num) p1
  have hE : 0 < valueOf edge * valueOf pr := mul_pos ep pp
  have hP : (2 : ℚ) ≤ 2 ^ p := by
    calc (2 : ℚ) = 2 ^ 1 := by norm_num
      _ ≤ 2 ^ p := pow_le_pow_right₀ (by norm_num) hp1
  rw [edgeStep]
  generalize valueOf edge * valueOf pr = E at *
  generalize (2 : ℚ) ^ p = P at *
  have hD : valueOf mx - valueOf mn ≤ E * P * (1 + 1 / 2 ^ 15) := by
    refine le_trans hle (le_trans z5 (le_trans (mul_le_mul_of_nonneg_right hwid (by norm_num)) ?_))
    have : 0 ≤ E * P := mul_nonneg hE.le (by linarith)
    generalize E * P = Q at *
    norm_num
    linarith
  have hq : (valueOf mx - valueOf mn) / (P - 1) ≤ 2 * E * (1 + 1 / 2 ^ 15) := by
    rw [div_le_iff₀ (by linarith)]
    refine le_trans hD ?_
    have e : 2 * E * (1 + 1 / 2 ^ 15) * (P - 1) - E * P * (1 + 1 / 2 ^ 15) = E * (1 + 1 / 2 ^ 15) * (P - 2) := by ring
    have : 0 ≤ E * (1 + 1 / 2 ^ 15) * (P - 2) := mul_nonneg (by positivity) (by linarith)
    linarith
  have : Max.max ((valueOf mx - valueOf mn) / (P - 1)) (1 / 999999) ≤ 2 * E * (1 + 1 / 2 ^ 15) + 1 / 999999 :=
    max_le (by linarith) (by have : 0 ≤ 2 * E * (1 + 1 / 2 ^ 15) := by positivity
                             linarith)
  linarith

/-- The distance of two points moved by at most `d` per coordinate. -/
theorem chord_change {a c a' c' : Vec3 (Val b32)} {d : ℚ} (hd : 0 ≤ d) (a1 : |valueOf a'.1 - valueOf a.1| ≤ d)
    (a2 : |valueOf a'.2.1 - valueOf a.2.1| ≤ d) (a3 : |valueOf a'.2.2 - valueOf a.2.2| ≤ d) (c1 : |valueOf c'.1 - valueOf c.1| ≤ d)
    (c2 : |valueOf c'.2.1 - valueOf c.2.1| ≤ d) (c3 : |valueOf c'.2.2 - valueOf c.2.2| ≤ d) :
    |chord a' c' - chord a c| ≤ 3465 / 1000 * d := by
  have r : ∀ {x y x' y' : Val b32}, |valueOf x' - valueOf x| ≤ d → |valueOf y' - valueOf y| ≤ d →
      ((realOf x' - realOf y') - (realOf x - realOf y)) ^ 2 ≤ (2 * (d : ℝ)) ^ 2 := by
    intro x y x' y' h1 h2
    refine sq_le_sq' ?_ ?_
    · have h1' := (abs_le.mp h1).1
      have h2' := (abs_le.mp h2).2
      have : -(2 * d) ≤ (valueOf x' - valueOf y') - (valueOf x - valueOf y) := by linarith
      simp only [realOf]
      exact_mod_cast this
    · have h1' := (abs_le.mp h1).2
      have h2' := (abs_le.mp h2).1
      have : (valueOf x' - valueOf y') - (valueOf x - valueOf y) ≤ 2 * d := by linarith
      simp only [realOf]
      exact_mod_cast this
  have k1 := r a1 c1
  have k2 := r a2 c2
  have k3 := r a3 c3
  have hd' : (0 : ℝ) ≤ d := by exact_mod_cast hd
  rw [chord, chord]
  generalize realOf a'.1 - realOf c'.1 = x' at *
  generalize realOf a'.2.1 - realOf c'.2.1 = y' at *
  generalize realOf a'.2.2 - realOf c'.2.2 = z' at *
  generalize realOf a.1 - realOf c.1 = x at *
  generalize realOf a.2.1 - realOf c.2.1 = y at *
  generalize realOf a.2.2 - realOf c.2.2 = z at *
  have hl : length3 (x' - x) (y' - y) (z' - z) ≤ 3465 / 1000 * d := Geometry.length3_le (by positivity) (by nlinarith)
  have hl' : length3 (x - x') (y - y') (z - z') ≤ 3465 / 1000 * d := Geometry.length3_le (by positivity) (by nlinarith)
  have t1 := Geometry.length3_add x y z (x' - x) (y' - y) (z' - z)
  have t2 := Geometry.length3_add x' y' z' (x - x') (y - y') (z - z')
  rw [add_sub_cancel, add_sub_cancel, add_sub_cancel] at t1 t2
  rw [abs_le]
  constructor <;> linarith

theorem distV_upper {a c : Vec3 (Val b32)} (ha : Bounded a) (hc : Bounded c) : valueOf (distV a c) ≤ 2 ^ 62 := by
  obtain ⟨_, h0, h⟩ := distV_sq ha hc
  have b : ∀ {x y : Val b32}, |valueOf x| ≤ 2 ^ 58 → |valueOf y| ≤ 2 ^ 58 → (valueOf x - valueOf y) ^ 2 ≤ (2 ^ 59) ^ 2 := by
    intro x y hx hy
    rw [abs_le] at hx hy
    refine sq_le_sq' ?_ ?_ <;> norm_num at * <;> linarith
  have b1 := b ha.2.1 hc.2.1
  have b2 := b ha.2.2.1 hc.2.2.1
  have b3 := b ha.2.2.2 hc.2.2.2
  have h' := (abs_le.mp h).2
  refine le_of_sq_le_sq ?_ (by norm_num)
  norm_num at *
  linarith

/-- The three coordinates are within `d` of the original ones. -/
def Moved (d : ℚ) (v v' : Vec3 (Val b32)) : Prop :=
  |valueOf v'.1 - valueOf v.1| ≤ d ∧ |valueOf v'.2.1 - valueOf v.2.1| ≤ d ∧ |valueOf v'.2.2 - valueOf v.2.2| ≤ d

/-- Vertices inside the box of their array are stored in steps of `precision * edge`. -/
theorem vertex_step (hlog : AccurateLog2 lib) {l : List (Vec3 (Val b32))} {pr e : Val b32} {M : ℚ} {s : VBox (Val b32)}
    (hs : vertexBox (ops lib) l = .ok s)
    (hfin : ∀ v ∈ l, isFinite v.1 = true ∧ isFinite v.2.1 = true ∧ isFinite v.2.2 = true)
    (hM : ∀ v ∈ l, |valueOf v.1| ≤ M ∧ |valueOf v.2.1| ≤ M ∧ |valueOf v.2.2| ≤ M) (hM2 : M ≤ 2 ^ 58)
    (he : isFinite e = true) (he1 : 1 / 2 ^ 40 ≤ valueOf e) (he2 : valueOf e ≤ 2 ^ 62)
    (hp : isFinite pr = true) (p1 : 1 / 2 ^ 20 ≤ valueOf pr) (p2 : valueOf pr ≤ 2 ^ 20)
    (hyz : valueOf s.maxZ - valueOf s.minZ ≤ valueOf s.maxY - valueOf s.minY)
    (hx31 : (s.precs (ops lib) pr e).1 ≤ 31) (hy31 : (s.precs (ops lib) pr e).2.1 ≤ 31) :
    ∀ v ∈ l, Inside s v → BelowTop s (s.precs (ops lib) pr e) v →
      Moved (edgeStep (valueOf e * valueOf pr) M) v (quantVertex (ops lib) s (s.precs (ops lib) pr e) v) := by
  obtain ⟨bf, hin, hall, b1, b2, b3, b4⟩ := vertexBox_spec lib hs hfin
  have m1 : ∀ v ∈ l, -M ≤ valueOf v.1 ∧ valueOf v.1 ≤ M := fun v hv => abs_le.mp (hM v hv).1
  have m2 : ∀ v ∈ l, -M ≤ valueOf v.2.1 ∧ valueOf v.2.1 ≤ M := fun v hv => abs_le.mp (hM v hv).2.1
  have m3 : ∀ v ∈ l, -M ≤ valueOf v.2.2 ∧ valueOf v.2.2 ≤ M := fun v hv => abs_le.mp (hM v hv).2.2
  have bx1 := b1 (-M) (fun w hw => (m1 w hw).1)
  have bx2 := b2 M (fun w hw => ⟨(m1 w hw).2, (m2 w hw).2⟩)
  have by1 := b3 (-M) (fun w hw => ⟨(m2 w hw).1, (m3 w hw).1⟩)
  have bz2 := b4 M (fun w hw => (m3 w hw).2)
  have ax : ∀ {mn mx x : ℚ}, mn ≤ x → x ≤ mx → -M ≤ mn → mx ≤ M → |mn| ≤ M ∧ |mx| ≤ M := by
    intro mn mx x h1 h2 h3 h4
    exact ⟨abs_le.mpr ⟨h3, by linarith⟩, abs_le.mpr ⟨by linarith, h4⟩⟩
  intro v hv hi hbt
  obtain ⟨fx, fy, fz⟩ := hfin v hv
  rw [quantVertex_ops lib]
  obtain ⟨ax1, ax2⟩ := ax hi.minX hi.maxX bx1 bx2.1
  obtain ⟨ay1, ay2⟩ := ax hi.minY hi.maxY by1.1 bx2.2
  obtain ⟨az1, az2⟩ := ax hi.minZ hi.maxZ by1.2 bz2
  refine ⟨?_, ?_, ?_⟩
  · exact (coord_step hlog he hp he1 he2 p1 p2 fx bf.minX bf.maxX bf.minX bf.maxX hi.minX hi.maxX ax1 ax2 ax1 ax2 hM2
      (le_refl _) rfl hx31 hbt.x).2
  · exact (coord_step hlog he hp he1 he2 p1 p2 fy bf.minY bf.maxY bf.minY bf.maxY hi.minY hi.maxY ay1 ay2 ay1 ay2 hM2
      (le_refl _) rfl hy31 hbt.y).2
  · exact (coord_step hlog he hp he1 he2 p1 p2 fz bf.minZ bf.maxZ bf.minY bf.maxY hi.minZ hi.maxZ az1 az2 ay1 ay2 hM2
      hyz rfl hy31 hbt.z).2

theorem least_upper {vs : List (Vec3 (Val b32))} {tris : List Nat} {e : Val b32} (hbd : ∀ v ∈ vs, Bounded v)
    (h : Least vs tris e) : valueOf e ≤ 2 ^ 62 := by
  obtain ⟨_, _, a, c, _, ha, hc, rfl⟩ := h.attained
  exact distV_upper (hbd a (List.mem_of_getElem? ha)) (hbd c (List.mem_of_getElem? hc))

/-- An edge whose ends are stored in steps of `precision * shortest edge`. -/
theorem edge_change {vs : List (Vec3 (Val b32))} {tris : List Nat} {pr e : Val b32} {M : ℚ} (hbd : ∀ v ∈ vs, Bounded v)
    (hleast : Least vs tris e) (hemin : 1 / 2 ^ 40 ≤ valueOf e) (p1 : 1 / 2 ^ 20 ≤ valueOf pr) (p2 : valueOf pr ≤ 2 ^ 20)
    (hM0 : 0 ≤ M) {a a' c c' : Vec3 (Val b32)} (ka : Moved (edgeStep (valueOf e * valueOf pr) M) a a')
    (kc : Moved (edgeStep (valueOf e * valueOf pr) M) c c') {i₀ j₀ : Nat} {a₀ c₀ : Vec3 (Val b32)} (h₀ : IsEdge tris i₀ j₀)
    (ha₀ : vs[i₀]? = some a₀) (hc₀ : vs[j₀]? = some c₀) :
    |chord a' c' - chord a c| ≤ 7 * (realOf pr * chord a₀ c₀) + 4 / 999999 + M / 2 ^ 17 := by
  obtain ⟨k1, k2, k3⟩ := ka
  obtain ⟨k4, k5, k6⟩ := kc
  have ep : 0 < valueOf e := lt_of_lt_of_le (by norm_num) hemin
  have pp : 0 < valueOf pr := lt_of_lt_of_le (by norm_num) p1
  have hch := chord_change (by rw [edgeStep]; positivity) k1 k2 k3 k4 k5 k6
  refine le_trans hch ?_
  -- the computed edge against the true one
  obtain ⟨_, _, hn⟩ := distV_near (hbd a₀ (List.mem_of_getElem? ha₀)) (hbd c₀ (List.mem_of_getElem? hc₀))
  have hle : realOf e ≤ chord a₀ c₀ + (1 / 2 ^ 20 * chord a₀ c₀ + 1 / 2 ^ 73) := by
    have : realOf e ≤ realOf (distV a₀ c₀) := by
      simp only [realOf]
      exact_mod_cast hleast.least i₀ j₀ a₀ c₀ h₀ ha₀ hc₀
    linarith [(abs_le.mp hn).2]
  have hc0 : 0 ≤ chord a₀ c₀ := Real.sqrt_nonneg _
  generalize chord a₀ c₀ = L at *
  have pr0 : 0 < realOf pr := by rw [realOf]; exact_mod_cast pp
  have pr2 : realOf pr ≤ 2 ^ 20 := by rw [realOf]; exact_mod_cast p2
  have hE : realOf e * realOf pr ≤ realOf pr * L * (1 + 1 / 2 ^ 20) + 1 / 2 ^ 53 := by
    have h1 := mul_le_mul_of_nonneg_right hle pr0.le
    have e1 : (L + (1 / 2 ^ 20 * L + 1 / 2 ^ 73)) * realOf pr = realOf pr * L * (1 + 1 / 2 ^ 20) + 1 / 2 ^ 73 * realOf pr := by ring
    have h2 : 1 / 2 ^ 73 * realOf pr ≤ 1 / 2 ^ 53 :=
      le_trans (mul_le_mul_of_nonneg_left pr2 (by norm_num)) (le_of_eq (by norm_num))
    rw [e1] at h1
    linarith
  have hprL : 0 ≤ realOf pr * L := mul_nonneg pr0.le hc0
  have hcast : ((edgeStep (valueOf e * valueOf pr) M : ℚ) : ℝ) =
      2 * (realOf e * realOf pr) * (1 + 1 / 2 ^ 15) + 1 / 999999 + M / 2 ^ 19 + 1 / 2 ^ 148 := by
    rw [edgeStep, realOf, realOf]
    push_cast
    rfl
  rw [hcast]
  have hM0' : (0 : ℝ) ≤ M := by exact_mod_cast hM0
  generalize realOf e * realOf pr = X at *
  generalize realOf pr * L = Y at *
  generalize (M : ℝ) = m at *
  norm_num at *
  linarith

/-- C54 (the full claim, that no edge changes by more than the precision times the shortest edge, is
false, see `C54_violated`). Vertices with coordinates up to `M ≤ 2^58`, stored in up to 30 bits per
coordinate (31 without overflow checks); the box the code computes is not longer in z than in y. An edge whose ends are inside that
box (all vertices but the last are) and, with 25 bits or more, not at its upper end, changes by at most seven times the precision times the length of
any edge of the mesh, apart from rounding. -/
theorem C54_partial (hlog : AccurateLog2 lib) {fb : F64Bytes (ops lib)} {b : Build} {l : List (Vec3 (Val b32))} {tris : List Nat}
    {pr e : Val b32} {M : ℚ} {s : VBox (Val b32)} (hs : vertexBox (ops lib) l = .ok s) (hl : l.length ≤ 2 ^ 31)
    (hfin : ∀ v ∈ l, isFinite v.1 = true ∧ isFinite v.2.1 = true ∧ isFinite v.2.2 = true)
    (hM : ∀ v ∈ l, |valueOf v.1| ≤ M ∧ |valueOf v.2.1| ≤ M ∧ |valueOf v.2.2| ≤ M) (hM2 : M ≤ 2 ^ 58)
    (h3 : 3 ≤ tris.length) (hi : ∀ i j, IsEdge tris i j → i < l.length)
    (he : calcShortestEdge (ops lib) (some tris) (some l) = .ok e) (hemin : 1 / 2 ^ 40 ≤ valueOf e)
    (hp : isFinite pr = true) (p1 : 1 / 2 ^ 20 ≤ valueOf pr) (p2 : valueOf pr ≤ 2 ^ 20)
    (hyz : valueOf s.maxZ - valueOf s.minZ ≤ valueOf s.maxY - valueOf s.minY)
    (hx : Writable b (s.precs (ops lib) pr e).1) (hy : Writable b (s.precs (ops lib) pr e).2.1) :
    ∃ bytes l', saveVertices (ops lib) fb b l pr e = .ok bytes ∧ readVertices (ops lib) fb bytes = .ok l' ∧
      l'.length = l.length ∧ (∀ v ∈ l.dropLast, Inside s v) ∧
      ∀ (i j : Nat) a c a' c', l[i]? = some a → l[j]? = some c → l'[i]? = some a' → l'[j]? = some c' → Inside s a → Inside s c →
        BelowTop s (s.precs (ops lib) pr e) a → BelowTop s (s.precs (ops lib) pr e) c → ∀ (i₀ j₀ : Nat) a₀ c₀, IsEdge tris i₀ j₀ → l[i₀]? = some a₀ → l[j₀]? = some c₀ →
          |chord a' c' - chord a c| ≤ 7 * (realOf pr * chord a₀ c₀) + 4 / 999999 + M / 2 ^ 17 := by
  have hbd : ∀ v ∈ l, Bounded v := fun v hv =>
    ⟨hfin v hv, le_trans (hM v hv).1 hM2, le_trans (hM v hv).2.1 hM2, le_trans (hM v hv).2.2 hM2⟩
  obtain ⟨e', he', hleast⟩ := shortest_least (lib := lib) hbd h3 hi
  rw [he] at he'
  cases he'
  obtain ⟨bytes, hw, hr⟩ := readVertices_writable (fo := ops lib) (fb := fb) (b := b) (l := l) (precision := pr) (edge := e)
    hs hx hy hy hl
  have h := hr
  have hin := (vertexBox_spec lib hs hfin).2.1
  refine ⟨bytes, _, hw, h, by rw [List.length_map], hin, ?_⟩
  have key := vertex_step hlog hs hfin hM hM2 hleast.finite hemin (least_upper hbd hleast) hp p1 p2 hyz hx.le hy.le
  intro i j a c a' c' ha hc ha' hc' ia ic ta tc i₀ j₀ a₀ c₀ h₀ ha₀ hc₀
  rw [List.getElem?_map, ha, Option.map_some, Option.some.injEq] at ha'
  rw [List.getElem?_map, hc, Option.map_some, Option.some.injEq] at hc'
  subst ha' hc'
  exact edge_change hbd hleast hemin p1 p2 (le_trans (abs_nonneg _) (hM a (List.mem_of_getElem? ha)).1)
    (key a (List.mem_of_getElem? ha) ia ta) (key c (List.mem_of_getElem? hc) ic tc) h₀ ha₀ hc₀

/-- The same triangle, started at another corner. -/
def turned : List (Vec3 (Val b32)) := [(vFive, vZero, vZero), (vZero, vOne, vZero), (vZero, vZero, vZero)]

theorem box_turned : boxOf (vFive, vZero, vZero) [(vZero, vOne, vZero), (vZero, vZero, vZero)] =
    ⟨vZero, vFive, vZero, vFive, vZero, vZero⟩ := by decide +kernel
theorem bits_turned (hlog : AccurateLog2 lib) : vertexBits lib ⟨vZero, vFive, vZero, vFive, vZero, vZero⟩ (lit 1 1) vOne = (6, 6, 6) := by
  rw [vertexBits, bits_clear hlog] <;> decide +kernel
theorem turned_min : Ieee.min (distV (vFive, vZero, vZero) (vZero, vOne, vZero))
    (Ieee.min (distV (vZero, vOne, vZero) (vZero, vZero, vZero)) (distV (vZero, vZero, vZero) (vFive, vZero, vZero))) = vOne := by
  decide +kernel
theorem turned_edge : calcShortestEdge (ops lib) (some [0, 1, 2]) (some turned) = .ok vOne := by
  rw [calcShortestEdge]
  · show (shortestEdgeLoop (ops lib) turned [0, 1, 2] (.inf false) >>= assertFinite (ops lib)) = _
    rw [loop_cons (a := (vFive, vZero, vZero)) (b := (vZero, vOne, vZero)) (c := (vZero, vZero, vZero)) rfl rfl rfl, turned_min,
      min_inf rfl]
    rfl
  · simp

theorem tenth_value : isFinite (lit 1 1 : Val b32) = true ∧ 1 / 11 ≤ valueOf (lit 1 1 : Val b32) ∧ valueOf (lit 1 1 : Val b32) ≤ 1 / 9 := by
  rw [show (lit 1 1 : Val b32) = .fin false (13421773 * 2 ^ 122) (by decide +kernel) by decide +kernel, valueOf_pos,
    show b32.scale = 149 from rfl]
  exact ⟨rfl, by norm_num, by norm_num⟩

/-- A triangle meeting the hypotheses of `C54_partial`: its edge of length 5 comes back with a length
between 4 and 6. -/
example (hlog : AccurateLog2 lib) (fb : F64Bytes (ops lib)) (b : Build) : ∃ bytes u v w,
    saveVertices (ops lib) fb b turned (lit 1 1) vOne = .ok bytes ∧ readVertices (ops lib) fb bytes = .ok [u, v, w] ∧
    |chord u w - 5| ≤ 1 := by
  have hb : vertexBox (ops lib) turned = .ok ⟨vZero, vFive, vZero, vFive, vZero, vZero⟩ := by rw [turned, vertexBox_ops, box_turned]
  have hp : (⟨vZero, vFive, vZero, vFive, vZero, vZero⟩ : VBox (Val b32)).precs (ops lib) (lit 1 1) vOne = (6, 6, 6) := by
    rw [precs_ops lib, bits_turned hlog]
  have hmem : ∀ v ∈ turned, v = (vFive, vZero, vZero) ∨ v = (vZero, vOne, vZero) ∨ v = (vZero, vZero, vZero) := by
    intro v hv
    simpa [turned] using hv
  obtain ⟨t1, t2, t3⟩ := tenth_value
  obtain ⟨bytes, l', h1, h2, h3, _, h4⟩ := C54_partial hlog (fb := fb) (b := b) (M := 5) (pr := lit 1 1) (tris := [0, 1, 2]) hb
    (by show 3 ≤ 2 ^ 31; decide)
    (fun v hv => by rcases hmem v hv with rfl | rfl | rfl <;> exact ⟨rfl, rfl, rfl⟩)
    (fun v hv => by
      rcases hmem v hv with rfl | rfl | rfl <;> simp only [valueOf_vZero, valueOf_vFive, valueOf_vOne] <;> norm_num)
    (by norm_num) (by decide) (fun i j h => thin_edges h) turned_edge (by rw [valueOf_vOne]; norm_num) t1
    (le_trans (by norm_num) t2) (le_trans t3 (by norm_num)) (by simp only [valueOf_vZero, valueOf_vFive]; norm_num)
    (.inl (by rw [hp]; decide)) (.inl (by rw [hp]; decide))
  match l', h3 with
  | [u, v, w], _ =>
    refine ⟨bytes, u, v, w, h1, h2, ?_⟩
    have h := h4 0 2 (vFive, vZero, vZero) (vZero, vZero, vZero) u w rfl rfl rfl rfl
      (by constructor <;> simp only [valueOf_vZero, valueOf_vFive] <;> norm_num)
      (by constructor <;> simp only [valueOf_vZero, valueOf_vFive] <;> norm_num)
      (by rw [hp]; exact .narrow (by decide) (by decide) (by decide) _) (by rw [hp]; exact .narrow (by decide) (by decide) (by decide) _)
      1 2 (vZero, vOne, vZero) (vZero, vZero, vZero) ⟨0, 0, 1, 2, rfl, rfl, rfl, .inr (.inl ⟨rfl, rfl⟩)⟩ rfl rfl
    have r0 : realOf vZero = 0 := by rw [realOf, valueOf_vZero]; norm_num
    have r1 : realOf vOne = 1 := by rw [realOf, valueOf_vOne]; norm_num
    have r5 : realOf vFive = 5 := by rw [realOf, valueOf_vFive]; norm_num
    have c1 : chord (vZero, vOne, vZero) (vZero, vZero, vZero) = 1 := by
      rw [chord, length3]
      dsimp only
      rw [r0, r1]
      norm_num
    have c5 : chord (vFive, vZero, vZero) (vZero, vZero, vZero) = 5 := by rw [chord_axis, r0, r5]; norm_num
    rw [c1, c5] at h
    refine le_trans h ?_
    have : realOf (lit 1 1 : Val b32) ≤ 1 / 9 := by
      have := (Rat.cast_le (K := ℝ)).mpr t3
      rw [realOf]
      push_cast at this
      exact this
    norm_num at *
    linarith

end Tmf.Props
