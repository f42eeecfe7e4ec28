import Verif.Lemmas.ObjFace
import Verif.Props.Cover
import Verif.Spec.Polygon
/-
Lemmas for faces with any number of corners.
-/

namespace Tmf
open Spec

variable {fo : FloatOps}

/-- The words of corners. -/
def cornerWords (cs : List Corner) : List (List UInt8) :=
  cs.flatMap fun c => [decimal (c.vertex + 1), decimal (c.uv + 1), decimal (c.normal + 1)]

theorem splitBytes_corners (blank : Bool) : ∀ (cs : List Corner) (w : List UInt8), IsWord w →
    splitBytes isObjSep (w ++ (cs.flatMap (fun c => 32 :: c.number.render) ++ if blank then [32] else [])) =
      w :: (cornerWords cs ++ if blank then [[]] else [])
  | [], w, hw => by
    rw [List.flatMap_nil, List.nil_append, cornerWords, List.flatMap_nil, List.nil_append]
    cases blank
    · rw [if_neg (by simp), if_neg (by simp), List.append_nil]
      exact splitBytes_clean hw
    · rw [if_pos rfl, if_pos rfl]
      exact splitBytes_sep hw (.inl rfl)
  | c :: cs, w, hw => by
    have ih := splitBytes_corners blank cs (decimal (c.normal + 1)) (decimal_clean _).seps
    rw [List.flatMap_cons]
    simp only [Corner.number, ObjCorner.render, List.append_assoc, List.cons_append, List.nil_append] at ih ⊢
    rw [splitBytes_sep hw (.inl rfl), splitBytes_sep (decimal_clean _).seps (.inr rfl), splitBytes_sep (decimal_clean _).seps (.inr rfl), ih]
    rfl

/-- The numbers of a corner fit. -/
def NumbersFit (c : Corner) : Prop := c.vertex + 1 < 2 ^ 32 ∧ c.uv + 1 < 2 ^ 32 ∧ c.normal + 1 < 2 ^ 32

theorem loadFaceLoop_corners : ∀ (cs : List Corner) (fuel : Nat) (rest : List (List UInt8)) (v u n : List Nat), (∀ c ∈ cs, NumbersFit c) →
    rest.length < 3 → cs.length < fuel →
    loadFaceLoop fuel (cornerWords cs ++ rest) v u n = .ok (v ++ cs.map Corner.vertex, u ++ cs.map Corner.uv, n ++ cs.map Corner.normal)
  | [], 0, _, _, _, _, _, _, hf => absurd hf (Nat.not_lt_zero _)
  | [], fuel + 1, rest, v, u, n, _, hr, _ => by
    rw [loadFaceLoop]
    simp only [cornerWords, List.flatMap_nil, List.nil_append, loadIndices_short hr, List.map_nil, List.append_nil]
  | c :: cs, 0, _, _, _, _, _, _, hf => absurd hf (Nat.not_lt_zero _)
  | c :: cs, fuel + 1, rest, v, u, n, hc, hr, hf => by
    have h := hc c List.mem_cons_self
    have ih := loadFaceLoop_corners cs fuel rest (v ++ [c.vertex]) (u ++ [c.uv]) (n ++ [c.normal]) (fun c h => hc c (List.mem_cons_of_mem _ h)) hr
      (by rw [List.length_cons] at hf; omega)
    rw [loadFaceLoop]
    simp only [cornerWords, List.flatMap_cons, List.cons_append, List.nil_append] at ih ⊢
    rw [loadIndices_cons h.1 h.2.1 h.2.2]
    simp only [List.map_cons]
    rw [ih]
    simp

theorem polygonText_chars (cs : List Corner) (blank : Bool) : ∀ c ∈ polygonText cs blank, c.toNat < 128 ∧ c ≠ 10 ∧ c ≠ 13 := by
  intro c hc
  rw [polygonText, List.mem_cons, List.mem_append, List.mem_flatMap] at hc
  rcases hc with rfl | ⟨k, hk, hc⟩ | hc
  · decide
  · simp only [Corner.number, ObjCorner.render, List.mem_cons, List.mem_append, List.not_mem_nil, or_false] at hc
    have key : ∀ n, c ∈ decimal n → c.toNat < 128 ∧ c ≠ 10 ∧ c ≠ 13 := fun n h => by
      obtain ⟨h1, -, -, h2, h3⟩ := decimal_clean n c h
      exact ⟨h1, h2, h3⟩
    rcases hc with rfl | (((hc | rfl) | hc) | rfl) | hc
    · decide
    · exact key _ hc
    · decide
    · exact key _ hc
    · decide
    · exact key _ hc
  · cases blank
    · cases hc
    · rw [if_pos rfl, List.mem_singleton] at hc
      subst hc
      decide

theorem lineChars_of_ascii {t : List UInt8} (h : ∀ c ∈ t, c.toNat < 128 ∧ c ≠ 10 ∧ c ≠ 13) : LineChars t :=
  ⟨validUtf8_iff.mp (validUtf8_ascii fun c hc => (h c hc).1), fun c hc => (h c hc).2.1, fun hl => (h 13 (List.mem_of_getLast? hl)).2.2 rfl⟩

theorem triangleLine_text {F : Type} (cr : Bool) (t : Triangle) : (triangleLine cr t : TextLine F).text = polygonText [t.1, t.2.1, t.2.2] false := by
  rw [triangleLine, polygonText, show ascii "f " = [102, 32] by decide]
  simp

theorem parseLine_polygon (ft : FloatText fo) (face : PushFace fo.F) (b : Build) {cs : List Corner} (h : ∀ c ∈ cs, NumbersFit c) (blank : Bool)
    (oi : Importer fo.F) : parseLine ft face b (polygonText cs blank) oi =
      (face (cs.map Corner.vertex) (cs.map Corner.uv) (cs.map Corner.normal) oi >>= fun oi => .ok (none, oi)) := by
  have hs : splitBytes isObjSep (polygonText cs blank) = ascii "f" :: (cornerWords cs ++ if blank then [[]] else []) :=
    splitBytes_corners blank cs [102] (by unfold IsWord; decide)
  have e1 : ascii "f" ≠ ascii "v" := by decide
  have e2 : ascii "f" ≠ ascii "vn" := by decide
  have e3 : ascii "f" ≠ ascii "vt" := by decide
  have hl : cs.length ≤ (cornerWords cs).length := by
    rw [cornerWords, List.length_flatMap]
    clear hs h
    induction cs with
    | nil => simp
    | cons c cs ih => simp only [List.map_cons, List.sum_cons, List.length_cons, List.length_nil] at ih ⊢; omega
  have hload : loadFace face (cornerWords cs ++ if blank then [[]] else []) oi =
      face (cs.map Corner.vertex) (cs.map Corner.uv) (cs.map Corner.normal) oi := by
    rw [loadFace, loadFaceLoop_corners cs _ _ [] [] [] h (by cases blank <;> simp) (by rw [List.length_append]; omega), Outcome.bind_ok]
    rfl
  rw [parseLine, if_pos (validUtf8_ascii fun c hc => (polygonText_chars cs blank c hc).1), hs]
  simp only [nextWord, bind, Outcome.bind, parseWords, if_neg e1, if_neg e2, if_neg e3, if_true] at hload ⊢
  rw [hload]

theorem corner_defines {F : Type} {s : Scene F} {c : Corner} (h : s.Defines c.number) : NumbersFit c ∧ c.vertex < s.vertices.length := by
  obtain ⟨⟨-, h1, h2⟩, ⟨u, hu, -, -, h3⟩, n, hn, -, -, h4⟩ := h
  cases hu
  cases hn
  exact ⟨⟨h2, h3, h4⟩, h1⟩

/-- What `push_face` with triangulation makes of a face. -/
theorem pushed_triangles (acos : fo.F → fo.F) (oi : Importer fo.F) (face : List Corner) (hn : 3 ≤ face.length)
    (hv : ∀ c ∈ face, c.vertex < oi.vertices.length) : ∃ (tris : List Triangle) (ps : List Nat),
      Importer.pushFaceTri fo acos (face.map Corner.vertex) (face.map Corner.uv) (face.map Corner.normal) oi =
        .ok (oi.pushIndices (triangleIndices Corner.vertex tris) (triangleIndices Corner.uv tris) (triangleIndices Corner.normal tris)) ∧
      tris.length + 2 = face.length ∧ CutOff face ps tris ∧ CornersFrom face tris ∧ (face.length ≤ 4 → Covers face tris) := by
  obtain ⟨tris, ps, oi', h, ⟨p1, p2, p3⟩, hc, -⟩ := Props.pushed_cutOff fo acos oi face hn hv
  obtain ⟨tris', oi'', h', -, -, -, -, -, q1, q2, q3, q4⟩ := Props.C47_triangulate fo acos oi face hn hv
  rw [h] at h'
  cases h'
  refine ⟨tris, ps, ?_, ?_, hc, Props.cutOff_from hc, fun h4 => ?_⟩
  · rw [h]
    cases oi'
    simp only [Importer.pushIndices] at p1 p2 p3 q1 q2 q3 q4 ⊢
    subst p1 p2 p3 q1 q2 q3 q4
    rfl
  · clear h hv p1 p2 p3 q1 q2 q3 q4
    induction hc with
    | last => rfl
    | @corner face i x y z ps l h hx hy hz hr ih =>
      have hi := (List.getElem?_eq_some_iff.mp hy).1
      have ih := ih (by rw [List.length_eraseIdx_of_lt hi]; omega)
      rw [List.length_eraseIdx_of_lt hi] at ih
      rw [List.length_cons]
      omega
  · refine cutOff_covers hc fun k hk => ?_
    have := Props.cutOff_positions hc
    have hk := (List.getElem?_eq_some_iff.mp hk).1
    rw [show face.length - k = 4 by omega]
    decide

theorem pushIndices_append {F : Type} (oi : Importer F) (a b c a' b' c' : List Nat) :
    (oi.pushIndices a b c).pushIndices a' b' c' = oi.pushIndices (a ++ a') (b ++ b') (c ++ c') := by
  simp [Importer.pushIndices]

/-- Lines of triangles, one after the other. -/
theorem readObjLoop_triangles (ft : FloatText fo) {face : PushFace fo.F} (hp : PushesTriangles face) (b : Build) (cr : Bool) (rest : List (List UInt8)) :
    ∀ (tris : List Triangle) (oi : Importer fo.F), (∀ t ∈ tris, NumbersFit t.1 ∧ NumbersFit t.2.1 ∧ NumbersFit t.2.2) →
      readObjLoop ft face b (tris.map (fun t => (triangleLine cr t : TextLine fo.F).text) ++ rest) oi = readObjLoop ft face b rest
        (oi.pushIndices (triangleIndices Corner.vertex tris) (triangleIndices Corner.uv tris) (triangleIndices Corner.normal tris))
  | [], oi, _ => by simp [triangleIndices, Importer.pushIndices]
  | t :: tris, oi, h => by
    have ht := h t List.mem_cons_self
    have hpar := parseLine_polygon ft face b (cs := [t.1, t.2.1, t.2.2]) (by
      intro c hc
      simp only [List.mem_cons, List.not_mem_nil, or_false] at hc
      rcases hc with rfl | rfl | rfl
      exacts [ht.1, ht.2.1, ht.2.2]) false oi
    rw [hp _ _ _ oi rfl rfl rfl, Outcome.bind_ok] at hpar
    rw [List.map_cons, List.cons_append, readObjLoop, triangleLine_text, hpar, Outcome.bind_ok]
    dsimp only
    rw [readObjLoop_triangles ft hp b cr rest tris _ fun t h' => h t (List.mem_cons_of_mem _ h'), pushIndices_append]
    simp only [triangleIndices, List.flatMap_cons, List.map_cons, List.map_nil, Option.toList, List.nil_append]
    cases readObjLoop ft face b rest _ <;> rfl

/-- Lines with triangles are read alike by every way to push faces that pushes triangles. -/
theorem parseLine_same {ft : FloatText fo} {face face' : PushFace fo.F} (hp : PushesTriangles face) (hp' : PushesTriangles face') (b : Build)
    (oi : Importer fo.F) {s : Scene fo.F} {text : List UInt8} {l : ObjLine fo.F} (hv : validUtf8 text = true) (hm : LineMeans ft text l)
    (hd : ∀ a b c, l = .face a b c → s.Defines a ∧ s.Defines b ∧ s.Defines c) : parseLine ft face b text oi = parseLine ft face' b text oi := by
  cases hm with
  | vertex h1 h2 h3 h4 => rw [parseLine_means_vertex ft face b oi h1 h2 h3 h4 hv, parseLine_means_vertex ft face' b oi h1 h2 h3 h4 hv]
  | normal h1 h2 h3 h4 => rw [parseLine_means_normal ft face b oi h1 h2 h3 h4 hv, parseLine_means_normal ft face' b oi h1 h2 h3 h4 hv]
  | uv h1 h2 h4 => rw [parseLine_means_uv ft face b oi h1 h2 h4 hv, parseLine_means_uv ft face' b oi h1 h2 h4 hv]
  | object h1 h2 => rw [parseLine_means_object ft face b oi h1 h2 hv, parseLine_means_object ft face' b oi h1 h2 hv]
  | nothing h1 => rw [parseLine_means_nothing ft face b oi h1 hv, parseLine_means_nothing ft face' b oi h1 hv]
  | @face x y z rest hrest =>
    obtain ⟨hx, hy, hz⟩ := hd x y z rfl
    have norm : ∀ k : ObjCorner, s.Defines k → ∃ i j l, k = ⟨i + 1, some (j + 1), some (l + 1)⟩ ∧ i + 1 < 2 ^ 32 ∧ j + 1 < 2 ^ 32 ∧ l + 1 < 2 ^ 32 := by
      rintro ⟨v, u, n⟩ ⟨⟨a1, a2, a3⟩, ⟨u', rfl, b1, b2, b3⟩, ⟨n', rfl, c1, c2, c3⟩⟩
      dsimp only at a1 a2 a3
      refine ⟨v - 1, u' - 1, n' - 1, ?_, by omega, by omega, by omega⟩
      rw [Nat.sub_add_cancel a1, Nat.sub_add_cancel b1, Nat.sub_add_cancel c1]
    obtain ⟨x1, x2, x3, rfl, fx⟩ := norm x hx
    obtain ⟨y1, y2, y3, rfl, fy⟩ := norm y hy
    obtain ⟨z1, z2, z3, rfl, fz⟩ := norm z hz
    refine (parseLine_means_face ft face b (x1, x2, x3) (y1, y2, y3) (z1, z2, z3) oi fx fy fz hrest hv).trans ?_
    refine Eq.trans ?_ (parseLine_means_face ft face' b (x1, x2, x3) (y1, y2, y3) (z1, z2, z3) oi fx fy fz hrest hv).symm
    rw [hp _ _ _ oi rfl rfl rfl, hp' _ _ _ oi rfl rfl rfl]

theorem triangleLine_means {ft : FloatText fo} (cr : Bool) (t : Triangle) : LineMeans ft (triangleLine cr t : TextLine fo.F).text (triangleLine cr t : TextLine fo.F).means :=
  .face (.inl rfl)

theorem triangleLine_chars {F : Type} (cr : Bool) (t : Triangle) : LineChars (triangleLine cr t : TextLine F).text := by
  rw [triangleLine_text]
  exact lineChars_of_ascii (polygonText_chars _ _)

/-- The corners of triangles are defined. -/
def TrianglesDefined {F : Type} (s : Scene F) (tris : List Triangle) : Prop :=
  ∀ t ∈ tris, s.Defines t.1.number ∧ s.Defines t.2.1.number ∧ s.Defines t.2.2.number

/-- Triangles keep importer and scene together. -/
theorem Tracks.triangles (ft : FloatText fo) (cr : Bool) : ∀ (tris : List Triangle) (oi : Importer fo.F) (s : Scene fo.F)
    (done : List (List UInt8 × List (List (CornerData fo.F)))) (cur : List (List (CornerData fo.F))), Tracks oi s done cur → TrianglesDefined s tris →
    ∃ s' done' cur', (tris.map fun t => (triangleLine cr t : TextLine fo.F).means).foldl Scene.step s = s' ∧
      Tracks (oi.pushIndices (triangleIndices Corner.vertex tris) (triangleIndices Corner.uv tris) (triangleIndices Corner.normal tris)) s' done' cur' ∧
      s'.vertices = s.vertices ∧ s'.uvs = s.uvs ∧ s'.normals = s.normals ∧ Defined s (tris.map fun t => (triangleLine cr t : TextLine fo.F).means)
  | [], oi, s, done, cur, ht, _ => by
    refine ⟨s, done, cur, rfl, ?_, rfl, rfl, rfl, trivial⟩
    simpa [triangleIndices, Importer.pushIndices] using ht
  | t :: tris, oi, s, done, cur, ht, hd => by
    have h := hd t List.mem_cons_self
    have hdef : ∀ a b c, (triangleLine cr t : TextLine fo.F).means = .face a b c → s.Defines a ∧ s.Defines b ∧ s.Defines c := by
      intro a b c e
      cases e
      exact h
    have hpar := parseLine_polygon ft Importer.pushFace .checked (cs := [t.1, t.2.1, t.2.2]) (by
      intro c hc
      simp only [List.mem_cons, List.not_mem_nil, or_false] at hc
      rcases hc with rfl | rfl | rfl
      exacts [(corner_defines h.1).1, (corner_defines h.2.1).1, (corner_defines h.2.2).1]) false oi
    have hps : PushesTriangles (Importer.pushFace : PushFace fo.F) := pushFaceWith_triangles _
    rw [hps _ _ _ oi rfl rfl rfl, Outcome.bind_ok, ← triangleLine_text (F := fo.F) cr] at hpar
    obtain ⟨m, oi', more, cur', hp, ht', -⟩ := ht.step (face := Importer.pushFace) (pushFaceWith_triangles _) .checked
      (validUtf8_of_isText (triangleLine_chars cr t).1) (triangleLine_means (ft := ft) cr t) hdef
    rw [hpar] at hp
    cases hp
    obtain ⟨s', done'', cur'', e, ht'', e1, e2, e3, hd'⟩ := Tracks.triangles ft cr tris _ _ _ _ ht' fun t h => hd t (List.mem_cons_of_mem _ h)
    refine ⟨s', done'', cur'', e, ?_, e1, e2, e3, hdef, hd'⟩
    rw [pushIndices_append] at ht''
    exact ht''

theorem defines_of_same {F : Type} {s p : Scene F} (h1 : p.vertices = s.vertices) (h2 : p.uvs = s.uvs) (h3 : p.normals = s.normals) {c : ObjCorner}
    (h : p.Defines c) : s.Defines c := by
  rw [Scene.Defines, h1, h2, h3] at h
  exact h

theorem step_same {F : Type} {s p : Scene F} (h1 : p.vertices = s.vertices) (h2 : p.uvs = s.uvs) (h3 : p.normals = s.normals) (l : ObjLine F) :
    (p.step l).vertices = (s.step l).vertices ∧ (p.step l).uvs = (s.step l).uvs ∧ (p.step l).normals = (s.step l).normals := by
  cases l <;> simp [Scene.step, h1, h2, h3]

theorem defined_append {F : Type} : ∀ (a b : List (ObjLine F)) (s : Scene F), Defined s a → Defined (a.foldl Scene.step s) b → Defined s (a ++ b)
  | [], _, _, _, h => h
  | _ :: a, b, _, ha, h => ⟨ha.1, defined_append a b _ ha.2 h⟩

/-- A file with polygons is read like one with triangles. -/
theorem readObjLoop_polygons (ft : FloatText fo) (acos : fo.F → fo.F) (b : Build) : ∀ (lines : List (PolyLine fo.F)) (oi : Importer fo.F) (p s : Scene fo.F)
    (done : List (List UInt8 × List (List (CornerData fo.F)))) (cur : List (List (CornerData fo.F))), Tracks oi s done cur →
    p.vertices = s.vertices → p.uvs = s.uvs → p.normals = s.normals → PolyDefined ft p lines →
    ∃ tls, List.Forall₂ Rewritten lines tls ∧
      (∀ face, PushesTriangles face → readObjLoop ft (Importer.pushFaceTri fo acos) b (lines.map fun l => l.line.text) oi =
        readObjLoop ft face b (tls.flatten.map TextLine.text) oi) ∧
      Defined s (tls.flatten.map TextLine.means) ∧ ∀ l ∈ tls.flatten, LineChars l.text ∧ LineMeans ft l.text l.means
  | [], oi, p, s, done, cur, ht, _, _, _, _ => ⟨[], .nil, fun _ _ => rfl, trivial, fun _ h => nomatch h⟩
  | .plain l :: lines, oi, p, s, done, cur, ht, h1, h2, h3, hd => by
    obtain ⟨hc, hm, hdef, hd⟩ := hd
    have hv := validUtf8_of_isText hc.1
    have hdef' : ∀ a b c, l.means = .face a b c → s.Defines a ∧ s.Defines b ∧ s.Defines c := fun a b c e =>
      ⟨defines_of_same h1 h2 h3 (hdef a b c e).1, defines_of_same h1 h2 h3 (hdef a b c e).2.1, defines_of_same h1 h2 h3 (hdef a b c e).2.2⟩
    obtain ⟨m, oi', more, cur', hp, ht', -⟩ := ht.step (face := Importer.pushFaceTri fo acos) (pushFaceWith_triangles _) b hv hm hdef'
    obtain ⟨g1, g2, g3⟩ := step_same h1 h2 h3 l.means
    obtain ⟨tls, hr, he, hd', hall⟩ := readObjLoop_polygons ft acos b lines oi' _ _ _ _ ht' g1 g2 g3 hd
    refine ⟨[l] :: tls, .cons (.plain l) hr, fun face hf => ?_, ⟨hdef', hd'⟩, fun k hk => ?_⟩
    · have hp' := hp
      rw [parseLine_same (face := Importer.pushFaceTri fo acos) (pushFaceWith_triangles _) hf b oi hv hm hdef'] at hp'
      rw [List.map_cons, List.flatten_cons, List.cons_append, List.nil_append, List.map_cons, readObjLoop, readObjLoop,
        show (PolyLine.plain l).line.text = l.text from rfl, hp, hp', Outcome.bind_ok, Outcome.bind_ok]
      dsimp only
      rw [he face hf]
    · rw [List.flatten_cons, List.mem_append, List.mem_singleton] at hk
      exact hk.elim (fun h => h ▸ ⟨hc, hm⟩) (hall k)
  | .face cs blank cr :: lines, oi, p, s, done, cur, ht, h1, h2, h3, hd => by
    obtain ⟨hn, hdef, hd⟩ := hd
    have hdef' : ∀ c ∈ cs, s.Defines c.number := fun c hc => defines_of_same h1 h2 h3 (hdef c hc)
    obtain ⟨tris, ps, hpush, hcount, hcut, hin, hcov⟩ := pushed_triangles acos oi cs hn fun c hc => ht.vertices ▸ (corner_defines (hdef' c hc)).2
    have htd : TrianglesDefined s tris := fun t h => ⟨hdef' _ (hin t h).1, hdef' _ (hin t h).2.1, hdef' _ (hin t h).2.2⟩
    obtain ⟨s', done', cur', es, ht', e1, e2, e3, hdt⟩ := Tracks.triangles ft cr tris oi s done cur ht htd
    obtain ⟨tls, hr, he, hd', hall⟩ := readObjLoop_polygons ft acos b lines _ p s' _ _ ht' (h1.trans e1.symm) (h2.trans e2.symm) (h3.trans e3.symm) hd
    refine ⟨tris.map (triangleLine cr) :: tls, .cons (.face blank cr hcount hcut hin hcov) hr, fun face hf => ?_, ?_, fun k hk => ?_⟩
    · have hfit : ∀ c ∈ cs, NumbersFit c := fun c hc => (corner_defines (hdef' c hc)).1
      rw [List.flatten_cons, List.map_append, List.map_map,
        show TextLine.text ∘ triangleLine cr = fun t => (triangleLine cr t : TextLine fo.F).text from rfl,
        readObjLoop_triangles ft hf b cr _ tris oi fun t h => ⟨(corner_defines (htd t h).1).1, (corner_defines (htd t h).2.1).1, (corner_defines (htd t h).2.2).1⟩,
        ← he face hf, List.map_cons, readObjLoop]
      rw [show (PolyLine.face cs blank cr : PolyLine fo.F).line.text = polygonText cs blank from rfl, parseLine_polygon ft _ b hfit, hpush, Outcome.bind_ok, Outcome.bind_ok]
      dsimp only
      cases readObjLoop ft (Importer.pushFaceTri fo acos) b _ _ <;> rfl
    · rw [List.flatten_cons, List.map_append, List.map_map]
      exact defined_append _ _ _ hdt (by rw [show TextLine.means ∘ triangleLine cr = fun t => (triangleLine cr t : TextLine fo.F).means from rfl, es]; exact hd')
    · rw [List.flatten_cons, List.mem_append, List.mem_map] at hk
      exact hk.elim (fun ⟨t, _, e⟩ => e ▸ ⟨triangleLine_chars cr t, triangleLine_means cr t⟩) (hall k)

theorem polyDefined_chars {ft : FloatText fo} : ∀ (lines : List (PolyLine fo.F)) (s : Scene fo.F), PolyDefined ft s lines → ∀ l ∈ lines, LineChars l.line.text
  | [], _, _ => fun _ h => nomatch h
  | .plain l :: lines, _, h => List.forall_mem_cons.mpr ⟨h.1, polyDefined_chars lines _ h.2.2.2⟩
  | .face cs blank _ :: lines, _, h => List.forall_mem_cons.mpr ⟨lineChars_of_ascii (polygonText_chars cs blank), polyDefined_chars lines _ h.2.2⟩

end Tmf
