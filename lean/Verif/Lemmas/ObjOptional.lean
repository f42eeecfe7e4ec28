import Verif.Lemmas.ObjFace
import Verif.Spec.ObjOptional
/-
Reading .obj files where corners may leave out the uv.
-/

namespace Tmf
open Spec

variable {fo : FloatOps}

/-- The words of a corner. -/
def cornerTexts (v : Nat) (u : Option Nat) (n : Nat) : List (List UInt8) :=
  [decimal (v + 1), (u.map fun k => decimal (k + 1)).getD [], decimal (n + 1)]

theorem corner_words {v n : Nat} {u : Option Nat} {rest : List UInt8} {c : UInt8} (hc : c = 32 ∨ c = 47) :
    splitBytes isObjSep ((ObjCorner.mk (v + 1) (u.map (· + 1)) (some (n + 1))).render ++ c :: rest) =
      cornerTexts v u n ++ splitBytes isObjSep rest := by
  cases u with
  | none =>
    rw [show (ObjCorner.mk (v + 1) (none.map (· + 1)) (some (n + 1))).render ++ c :: rest =
      decimal (v + 1) ++ 47 :: ([] ++ 47 :: (decimal (n + 1) ++ c :: rest)) by simp [ObjCorner.render],
      splitBytes_sep (decimal_clean _).seps (.inr rfl), splitBytes_sep (by simp) (.inr rfl), splitBytes_sep (decimal_clean _).seps hc]
    rfl
  | some u =>
    rw [show (ObjCorner.mk (v + 1) ((some u).map (· + 1)) (some (n + 1))).render ++ c :: rest =
      decimal (v + 1) ++ 47 :: (decimal (u + 1) ++ 47 :: (decimal (n + 1) ++ c :: rest)) by simp [ObjCorner.render],
      splitBytes_sep (decimal_clean _).seps (.inr rfl), splitBytes_sep (decimal_clean _).seps (.inr rfl),
      splitBytes_sep (decimal_clean _).seps hc]
    rfl

theorem corner_words_last {v n : Nat} {u : Option Nat} :
    splitBytes isObjSep (ObjCorner.mk (v + 1) (u.map (· + 1)) (some (n + 1))).render = cornerTexts v u n := by
  cases u with
  | none =>
    rw [show (ObjCorner.mk (v + 1) (none.map (· + 1)) (some (n + 1))).render =
      decimal (v + 1) ++ 47 :: ([] ++ 47 :: decimal (n + 1)) by simp [ObjCorner.render],
      splitBytes_sep (decimal_clean _).seps (.inr rfl), splitBytes_sep (by simp) (.inr rfl), splitBytes_clean (decimal_clean _).seps]
    rfl
  | some u =>
    rw [show (ObjCorner.mk (v + 1) ((some u).map (· + 1)) (some (n + 1))).render =
      decimal (v + 1) ++ 47 :: (decimal (u + 1) ++ 47 :: decimal (n + 1)) by simp [ObjCorner.render],
      splitBytes_sep (decimal_clean _).seps (.inr rfl), splitBytes_sep (decimal_clean _).seps (.inr rfl),
      splitBytes_clean (decimal_clean _).seps]
    rfl

theorem loadIndices_corner {v n : Nat} {u : Option Nat} (hv : v + 1 < 2 ^ 32) (hu : ∀ k, u = some k → k + 1 < 2 ^ 32) (hn : n + 1 < 2 ^ 32)
    (ws : List (List UInt8)) : loadIndices (cornerTexts v u n ++ ws) = .ok ((v, u.getD 0, n), ws) := by
  cases u with
  | none =>
    show loadIndices (decimal (v + 1) :: [] :: decimal (n + 1) :: ws) = _
    simp only [loadIndices, nextWord, bind, Outcome.bind]
    rw [parseIndex_decimal hv, parseIndex_notNumber (Or.inl rfl), parseIndex_decimal hn, if_neg (by omega)]
    rfl
  | some u => exact loadIndices_cons hv (hu u rfl) hn ws

/-- A corner of a face line: vertex, perhaps uv, normal, counted from zero. -/
structure Pick where
  v : Nat
  u : Option Nat
  n : Nat

def Pick.corner (p : Pick) : ObjCorner := ⟨p.v + 1, p.u.map (· + 1), some (p.n + 1)⟩

def Pick.Small (p : Pick) : Prop := p.v + 1 < 2 ^ 32 ∧ (∀ k, p.u = some k → k + 1 < 2 ^ 32) ∧ p.n + 1 < 2 ^ 32

theorem parseLine_pick_face (ft : FloatText fo) (face : PushFace fo.F) (b : Build) (x y z : Pick) {rest : List UInt8} (oi : Importer fo.F)
    (hx : x.Small) (hy : y.Small) (hz : z.Small) (hrest : rest = [] ∨ rest = [32])
    (hv : validUtf8 (ascii "f " ++ x.corner.render ++ [32] ++ y.corner.render ++ [32] ++ z.corner.render ++ rest) = true) :
    parseLine ft face b (ascii "f " ++ x.corner.render ++ [32] ++ y.corner.render ++ [32] ++ z.corner.render ++ rest) oi =
      (do
        let oi ← face [x.v, y.v, z.v] [x.u.getD 0, y.u.getD 0, z.u.getD 0] [x.n, y.n, z.n] oi
        Outcome.ok (none, oi)) := by
  have e1 : ascii "f" ≠ ascii "v" := by decide
  have e2 : ascii "f" ≠ ascii "vn" := by decide
  have e3 : ascii "f" ≠ ascii "vt" := by decide
  obtain ⟨ws, hw, hws⟩ : ∃ ws, splitBytes isObjSep (z.corner.render ++ rest) = cornerTexts z.v z.u z.n ++ ws ∧ ws.length < 3 := by
    rcases hrest with rfl | rfl
    · exact ⟨[], by rw [List.append_nil, List.append_nil]; exact corner_words_last, by decide⟩
    · exact ⟨_, corner_words (.inl rfl), by decide⟩
  rw [parseLine, if_pos hv]
  rw [show ascii "f " ++ x.corner.render ++ [32] ++ y.corner.render ++ [32] ++ z.corner.render ++ rest =
      ascii "f" ++ 32 :: (x.corner.render ++ 32 :: (y.corner.render ++ 32 :: (z.corner.render ++ rest))) by
    rw [show ascii "f " = ascii "f" ++ [32] by decide]; simp]
  rw [splitBytes_sep cleanWord_f.seps (.inl rfl)]
  have ex : splitBytes isObjSep (x.corner.render ++ 32 :: (y.corner.render ++ 32 :: (z.corner.render ++ rest))) =
      cornerTexts x.v x.u x.n ++ (cornerTexts y.v y.u y.n ++ (cornerTexts z.v z.u z.n ++ ws)) := by
    rw [← hw]
    exact (corner_words (.inl rfl)).trans (congrArg _ (corner_words (.inl rfl)))
  rw [ex]
  simp only [nextWord, bind, Outcome.bind, parseWords, if_neg e1, if_neg e2, if_neg e3, if_true, loadFace]
  rw [show (cornerTexts x.v x.u x.n ++ (cornerTexts y.v y.u y.n ++ (cornerTexts z.v z.u z.n ++ ws))).length + 1 = ws.length + 6 + 4 by
    simp only [List.length_append, cornerTexts, List.length_cons, List.length_nil]; omega]
  simp only [loadFaceLoop]
  rw [loadIndices_corner hx.1 hx.2.1 hx.2.2]
  simp only
  rw [loadIndices_corner hy.1 hy.2.1 hy.2.2]
  simp only
  rw [loadIndices_corner hz.1 hz.2.1 hz.2.2]
  simp only
  rw [loadIndices_short hws]
  rfl

/-! ### The state of the importer and the scene -/

/-- The uv of a corner is what its index stands for, if it has one. -/
def UvAs {F : Type} (uvs : List (Vec2 F)) (c : CornerData F) (i : Nat) : Prop :=
  ∀ u, c.uv = some u → i < uvs.length ∧ u = uvs[i]?

theorem UvAs.grow {F : Type} {uvs : List (Vec2 F)} {c : CornerData F} {i : Nat} (h : UvAs uvs c i) (x : List (Vec2 F)) : UvAs (uvs ++ x) c i := by
  intro u hu
  obtain ⟨h1, h2⟩ := h u hu
  exact ⟨by rw [List.length_append]; omega, h2.trans (List.getElem?_append_left h1).symm⟩

/-- The faces of the current object are what the index arrays select. -/
structure Follows {F : Type} (oi : Importer F) (s : Scene F) (done : List (List UInt8 × List (List (CornerData F))))
    (cur : List (List (CornerData F))) : Prop where
  vertices : oi.vertices = s.vertices
  normals : oi.normals = s.normals
  uvs : oi.uvs = s.uvs
  objects : s.objects = done ++ [(oi.name, cur)]
  three : ∀ f ∈ cur, f.length = 3
  vertexOf : cur.flatten.map CornerData.vertex = lookups oi.vertices oi.vertexTriangles
  uvOf : List.Forall₂ (UvAs oi.uvs) cur.flatten oi.uvTriangles
  normalOf : cur.flatten.map CornerData.normal = (lookups oi.normals oi.normalTriangles).map some
  vertexIn : InRange oi.vertices.length oi.vertexTriangles
  normalIn : InRange oi.normals.length oi.normalTriangles

/-- Lists of three are related if their elements are. -/
theorem chunks_rel {α : Type} {R : α → α → Prop} (g : Nat → α) : ∀ (l : List (List α)) (k : Nat), (∀ f ∈ l, f.length = 3) →
    (∀ i c, l.flatten[i]? = some c → R (g (3 * k + i)) c) →
    List.Forall₂ (List.Forall₂ R) ((List.range' k l.length).map (fun t => [g (3 * t), g (3 * t + 1), g (3 * t + 2)])) l
  | [], _, _, _ => .nil
  | f :: l, k, h, hg => by
    have hf := h f List.mem_cons_self
    match f, hf with
    | [x, y, z], _ =>
      rw [List.length_cons, List.range'_succ, List.map_cons]
      refine .cons (.cons (hg 0 x rfl) (.cons (hg 1 y rfl) (.cons (hg 2 z rfl) .nil))) ?_
      refine chunks_rel g l (k + 1) (fun g hg => h g (List.mem_cons_of_mem _ hg)) fun i c hi => ?_
      have := hg (i + 3) c (by simpa using hi)
      rwa [show 3 * (k + 1) + i = 3 * k + (i + 3) by omega]

theorem Follows.build {F : Type} {oi : Importer F} {s : Scene F} {done : List (List UInt8 × List (List (CornerData F)))}
    {cur : List (List (CornerData F))} (h : Follows oi s done cur) (b : Build) :
    ∃ m, oi.build b = .ok m ∧ ReadWithout (m, oi.name) (oi.name, cur) := by
  obtain ⟨v, vt, hv, lv, ev, rv, -, -⟩ := fastPrune_spec b oi.vertices oi.vertexTriangles h.vertexIn
  obtain ⟨n, nt, hn, ln, en, rn, -, -⟩ := fastPrune_spec b oi.normals oi.normalTriangles h.normalIn
  obtain ⟨u, ut, hu, lu, eu, -⟩ := Props.C32_prune b oi.uvs oi.uvTriangles
  have hlen := flatten_three cur h.three
  have l1 : oi.vertexTriangles.length = 3 * cur.length := by
    have := congrArg List.length h.vertexOf
    simp only [List.length_map, lookups] at this
    omega
  have l2 : oi.uvTriangles.length = 3 * cur.length := by
    have := h.uvOf.length_eq
    omega
  have l3 : oi.normalTriangles.length = 3 * cur.length := by
    have := congrArg List.length h.normalOf
    simp only [List.length_map, lookups] at this
    omega
  refine ⟨_, by rw [Importer.build, hv, hn, hu]; rfl, ?_⟩
  refine ⟨rfl, ?_, ⟨vt, ut, nt, rfl, rfl, rfl, by omega, by omega, ⟨cur.length, by omega⟩⟩, rv, rn⟩
  simp only [meshFaces, Mesh.setVertices, Mesh.setNormals, Mesh.setUvs, Mesh.setVertexTriangles, Mesh.setNormalTriangles,
    Mesh.setUvTriangles, Option.getD_some]
  rw [show vt.length / 3 = cur.length by omega, List.range_eq_range']
  refine chunks_rel _ cur 0 h.three fun i c hc => ?_
  rw [Nat.mul_zero, Nat.zero_add]
  have hi : i < cur.flatten.length := (List.getElem?_eq_some_iff.mp hc).1
  have key : ∀ {α : Type} (d : List α) (t : List Nat) (i : Nat), (lookups d t)[i]? = (t[i]?).map fun k => d[k]? := by
    intro α d t i
    rw [lookups, List.getElem?_map]
  have a1 := congrArg (·[i]?) h.vertexOf
  have a3 := congrArg (·[i]?) h.normalOf
  simp only [← ev, ← en] at a1 a3
  simp only [List.getElem?_map, hc, key, Option.map_some, Option.map_map] at a1 a3
  have b1 : i < vt.length := by omega
  have b2 : i < ut.length := by omega
  have b3 : i < nt.length := by omega
  have b4 : i < oi.uvTriangles.length := by omega
  simp only [List.getElem?_eq_getElem b1, List.getElem?_eq_getElem b3, Option.map_some, Option.some.injEq, Function.comp] at a1 a3
  have a2 := congrArg (·[i]?) eu
  simp only [key, List.getElem?_eq_getElem b2, List.getElem?_eq_getElem b4, Option.map_some, Option.some.injEq] at a2
  have a4 : UvAs oi.uvs c oi.uvTriangles[i] := by
    have := (List.forall₂_iff_get.mp h.uvOf).2 i hi b4
    rw [List.get_eq_getElem, List.get_eq_getElem, (List.getElem?_eq_some_iff.mp hc).2] at this
    exact this
  refine ⟨?_, ?_, fun w hw => ?_⟩
  · simp only [meshCorner, Option.getD_some, List.getElem?_eq_getElem b1, Option.bind_some]
    exact a1.symm
  · simp only [meshCorner, Option.getD_some, Option.map_some, List.getElem?_eq_getElem b3, Option.bind_some]
    exact a3.symm
  · simp only [meshCorner, Option.getD_some, Option.map_some, List.getElem?_eq_getElem b2, Option.bind_some, Option.some.injEq]
    rw [a2, (a4 w hw).2]

theorem Follows.step {ft : FloatText fo} {face : PushFace fo.F} (hp : PushesTriangles face) (b : Build) {oi : Importer fo.F}
    {s : Scene fo.F} {done : List (List UInt8 × List (List (CornerData fo.F)))} {cur : List (List (CornerData fo.F))}
    (h : Follows oi s done cur) {text : List UInt8} {l : ObjLine fo.F} (hv : validUtf8 text = true) (hm : LineMeans ft text l)
    (hd : ∀ a b c, l = .face a b c → s.DefinesSome a ∧ s.DefinesSome b ∧ s.DefinesSome c) :
    ∃ m oi' more cur', parseLine ft face b text oi = .ok (m, oi') ∧ Follows oi' (s.step l) (done ++ more) cur' ∧
      List.Forall₂ ReadWithout m.toList (more.filter fun o => !o.2.isEmpty) := by
  cases hm with
  | @vertex p q r rest x h1 h2 h3 h4 =>
    refine ⟨_, _, [], cur, parseLine_means_vertex ft face b oi h1 h2 h3 h4 hv, ?_, .nil⟩
    rw [List.append_nil]
    exact { h with
      vertices := by simp [Scene.step, h.vertices]
      vertexOf := h.vertexOf.trans (lookups_grow h.vertexIn _).symm
      vertexIn := by rw [List.length_append]; exact inRange_grow h.vertexIn }
  | @normal p q r rest x h1 h2 h3 h4 =>
    refine ⟨_, _, [], cur, parseLine_means_normal ft face b oi h1 h2 h3 h4 hv, ?_, .nil⟩
    rw [List.append_nil]
    exact { h with
      normals := by simp [Scene.step, h.normals]
      normalOf := h.normalOf.trans (congrArg (List.map some) (lookups_grow h.normalIn _).symm)
      normalIn := by rw [List.length_append]; exact inRange_grow h.normalIn }
  | @uv p q rest x h1 h2 h4 =>
    refine ⟨_, _, [], cur, parseLine_means_uv ft face b oi h1 h2 h4 hv, ?_, .nil⟩
    rw [List.append_nil]
    exact { h with
      uvs := by simp [Scene.step, h.uvs]
      uvOf := h.uvOf.imp fun _ _ h => h.grow _ }
  | @face x y z rest hrest =>
    obtain ⟨hx, hy, hz⟩ := hd x y z rfl
    have norm : ∀ k : ObjCorner, s.DefinesSome k → ∃ p : Pick, k = p.corner ∧ p.Small ∧ p.v < s.vertices.length ∧
        (∀ j, p.u = some j → j < s.uvs.length) ∧ p.n < s.normals.length := by
      rintro ⟨v, u, n⟩ ⟨⟨a1, a2, a3⟩, hu, ⟨n', rfl, c1, c2, c3⟩⟩
      dsimp only at a1 a2 a3 hu
      cases u with
      | none =>
        exact ⟨⟨v - 1, none, n' - 1⟩, by rw [Pick.corner]; simp only [Option.map_none]; rw [Nat.sub_add_cancel a1, Nat.sub_add_cancel c1],
          ⟨by show v - 1 + 1 < _; omega, nofun, by show n' - 1 + 1 < _; omega⟩, by show v - 1 < _; omega, nofun, by show n' - 1 < _; omega⟩
      | some u =>
        obtain ⟨b1, b2, b3⟩ := hu u rfl
        refine ⟨⟨v - 1, some (u - 1), n' - 1⟩, ?_, ⟨by show v - 1 + 1 < _; omega, ?_, by show n' - 1 + 1 < _; omega⟩,
          by show v - 1 < _; omega, ?_, by show n' - 1 < _; omega⟩
        · rw [Pick.corner]
          simp only [Option.map_some]
          rw [Nat.sub_add_cancel a1, Nat.sub_add_cancel c1, Nat.sub_add_cancel b1]
        · intro k hk; cases hk; omega
        · intro k hk; cases hk; omega
    obtain ⟨x, rfl, sx, x1, x2, x3⟩ := norm x hx
    obtain ⟨y, rfl, sy, y1, y2, y3⟩ := norm y hy
    obtain ⟨z, rfl, sz, z1, z2, z3⟩ := norm z hz
    have uvs : ∀ p : Pick, (∀ j, p.u = some j → j < s.uvs.length) → UvAs s.uvs (s.corner p.corner) (p.u.getD 0) := by
      intro p hp w hw
      cases hu : p.u with
      | none => rw [Scene.corner, Pick.corner, hu] at hw; cases hw
      | some j =>
        rw [Scene.corner, Pick.corner, hu] at hw
        cases hw
        refine ⟨hp j hu, ?_⟩
        show numbered s.uvs (j + 1) = _
        rw [numbered_lt (by omega)]
        rfl
    refine ⟨none, oi.pushIndices [x.v, y.v, z.v] [x.u.getD 0, y.u.getD 0, z.u.getD 0] [x.n, y.n, z.n], [],
      cur ++ [[s.corner x.corner, s.corner y.corner, s.corner z.corner]], ?_, ?_, .nil⟩
    · refine (parseLine_pick_face ft face b x y z oi sx sy sz hrest hv).trans ?_
      rw [hp _ _ _ oi rfl rfl rfl]
      rfl
    · rw [List.append_nil]
      refine ⟨h.vertices, h.normals, h.uvs, ?_, ?_, ?_, ?_, ?_, ?_, ?_⟩
      · show addFace _ s.objects = _
        rw [h.objects, addFace_last]
        rfl
      · intro f hf
        rcases List.mem_append.mp hf with hf | hf
        · exact h.three f hf
        · rw [List.mem_singleton] at hf
          subst hf
          rfl
      · show _ = lookups oi.vertices (oi.vertexTriangles ++ [x.v, y.v, z.v])
        rw [lookups_append, ← h.vertexOf, List.flatten_append, List.map_append, h.vertices]
        rfl
      · show List.Forall₂ (UvAs oi.uvs) _ (oi.uvTriangles ++ [x.u.getD 0, y.u.getD 0, z.u.getD 0])
        rw [List.flatten_append]
        refine List.rel_append (R := UvAs oi.uvs) h.uvOf ?_
        rw [h.uvs]
        exact .cons (uvs x x2) (.cons (uvs y y2) (.cons (uvs z z2) .nil))
      · show _ = (lookups oi.normals (oi.normalTriangles ++ [x.n, y.n, z.n])).map some
        rw [lookups_append, List.map_append, ← h.normalOf, List.flatten_append, List.map_append, h.normals]
        rfl
      · refine inRange_append h.vertexIn ?_
        intro i hi
        simp only [List.mem_cons, List.not_mem_nil, or_false] at hi
        have := sx.1
        have := sy.1
        have := sz.1
        show i < oi.vertices.length ∧ _
        rw [h.vertices]
        omega
      · refine inRange_append h.normalIn ?_
        intro i hi
        simp only [List.mem_cons, List.not_mem_nil, or_false] at hi
        have := sx.2.2
        have := sy.2.2
        have := sz.2.2
        show i < oi.normals.length ∧ _
        rw [h.normals]
        omega
  | @object name rest h1 h2 =>
    have hpl := parseLine_means_object ft face b oi h1 h2 hv
    have hlen := flatten_three cur h.three
    have l1 : oi.vertexTriangles.length = 3 * cur.length := by
      have := congrArg List.length h.vertexOf
      simp only [List.length_map, lookups] at this
      omega
    by_cases hc : oi.vertexTriangles = []
    · have hcur : cur = [] := by
        apply List.length_eq_zero_iff.mp
        rw [hc, List.length_nil] at l1
        omega
      subst hcur
      refine ⟨none, { oi with name := name }, [(oi.name, [])], [], ?_, ?_, .nil⟩
      · rw [hpl, Importer.nextMesh, if_pos hc]
        rfl
      · refine { h with objects := ?_ }
        show s.objects ++ [(name, [])] = _
        rw [h.objects]
    · obtain ⟨m, hb, hr⟩ := h.build b
      refine ⟨some (m, oi.name), { oi with name := name, vertexTriangles := [], normalTriangles := [], uvTriangles := [] },
        [(oi.name, cur)], [], ?_, ?_, ?_⟩
      · rw [hpl, Importer.nextMesh, if_neg hc, hb]
        rfl
      · refine ⟨h.vertices, h.normals, h.uvs, ?_, ?_, rfl, .nil, rfl, ?_, ?_⟩
        · show s.objects ++ [(name, [])] = _
          rw [h.objects]
        · intro f hf; cases hf
        · intro i hi; cases hi
        · intro i hi; cases hi
      · have : cur.isEmpty = false := by
          rw [Bool.eq_false_iff]
          intro he
          rw [List.isEmpty_iff.mp he, List.length_nil] at l1
          exact hc (List.length_eq_zero_iff.mp (by omega))
        simp only [List.filter_cons, this, Bool.not_false, if_true, List.filter_nil, Option.toList]
        exact .cons hr .nil
  | nothing h1 =>
    exact ⟨none, oi, [], cur, parseLine_means_nothing ft face b oi h1 hv, by rw [List.append_nil]; exact h, .nil⟩

theorem readObjLoop_without {ft : FloatText fo} {face : PushFace fo.F} (hp : PushesTriangles face) (b : Build) :
    ∀ (lines : List (TextLine fo.F)) (oi : Importer fo.F) (s : Scene fo.F)
      (done : List (List UInt8 × List (List (CornerData fo.F)))) (cur : List (List (CornerData fo.F))), Follows oi s done cur →
      (∀ l ∈ lines, validUtf8 l.text = true ∧ LineMeans ft l.text l.means) → DefinedSome s (lines.map TextLine.means) →
      ∃ res rest, readObjLoop ft face b (lines.map TextLine.text) oi = .ok res ∧
        ((lines.map TextLine.means).foldl Scene.step s).objects = done ++ rest ∧ rest ≠ [] ∧
        List.Forall₂ ReadWithout res (delivered rest)
  | [], oi, s, done, cur, ht, _, _ => by
    obtain ⟨m, hb, hr⟩ := ht.build b
    refine ⟨[(m, oi.name)], [(oi.name, cur)], ?_, ht.objects, by simp, .cons hr .nil⟩
    rw [List.map_nil, readObjLoop, Importer.finish, hb]
    rfl
  | l :: lines, oi, s, done, cur, ht, hl, hd => by
    obtain ⟨h1, h2⟩ := hl l List.mem_cons_self
    obtain ⟨m, oi', more, cur', e, ht', hf⟩ := ht.step hp b h1 h2 hd.1
    obtain ⟨res, rest, hr, ho, hne, hres⟩ := readObjLoop_without hp b lines oi' _ _ _ ht' (fun x hx => hl x (List.mem_cons_of_mem _ hx)) hd.2
    refine ⟨m.toList ++ res, more ++ rest, ?_, ?_, by simp [hne], ?_⟩
    · rw [List.map_cons, readObjLoop, e]
      simp only [bind, Outcome.bind]
      rw [hr]
    · rw [List.map_cons, List.foldl_cons, ho, List.append_assoc]
    · rw [delivered_append _ hne]
      exact List.rel_append (R := ReadWithout) hf hres

end Tmf
