import Verif.Spec.PolyConvert
import Verif.Lemmas.Polygon
import Verif.Lemmas.Convert
import Verif.Lemmas.Export
/-
Lemmas for C108.
-/

namespace Tmf
open Spec Ieee

/-- In the triangles cut from a face with three or four corners, what holds of any two corners holds of neighbours. -/
theorem cutOff_pairs {R : Corner → Corner → Prop} (hs : ∀ x y, R x y → R y x) : ∀ {face : List Corner} {ps : List Nat} {tris : List Triangle},
    CutOff face ps tris → face.length ≤ 4 → face.Pairwise R → ∀ t ∈ tris, R t.1 t.2.1 ∧ R t.2.1 t.2.2 ∧ R t.2.2 t.1
  | _, _, _, .last a b c, _, hp, t, ht => by
    rw [List.mem_singleton] at ht
    subst ht
    simp only [List.pairwise_cons, List.mem_cons, List.not_mem_nil, or_false, forall_eq_or_imp, forall_eq] at hp
    exact ⟨hp.1.1, hp.2.1, hs _ _ hp.1.2⟩
  | face, _, _, .corner (i := i) (x := x) (y := y) (z := z) h4 hx hy hz hr, hl, hp, t, ht => by
    have hlen : face.length = 4 := by omega
    have two : ∀ (i j : Nat) (u v : Corner), face[i]? = some u → face[j]? = some v → i ≠ j → R u v := by
      intro i j u v hu hv hij
      obtain ⟨i1, rfl⟩ := List.getElem?_eq_some_iff.mp hu
      obtain ⟨j1, rfl⟩ := List.getElem?_eq_some_iff.mp hv
      rcases Nat.lt_or_gt_of_ne hij with h | h
      · exact List.pairwise_iff_getElem.mp hp i j i1 j1 h
      · exact hs _ _ (List.pairwise_iff_getElem.mp hp j i j1 i1 h)
    rcases List.mem_cons.mp ht with rfl | ht
    · have hi : i < 4 := hlen ▸ (List.getElem?_eq_some_iff.mp hy).1
      rw [hlen] at hx hz
      refine ⟨two _ _ _ _ hx hy ?_, two _ _ _ _ hy hz ?_, two _ _ _ _ hz hx ?_⟩ <;> clear hx hy hz two ht hr <;>
        obtain rfl | rfl | rfl | rfl : i = 0 ∨ i = 1 ∨ i = 2 ∨ i = 3 := (by omega) <;> decide
    · exact cutOff_pairs hs hr (by rw [List.length_eraseIdx]; split <;> omega) (hp.sublist (List.eraseIdx_sublist _ _)) t ht

/-- An object with polygons, and the same with triangles. -/
structure CutUp (δ : ℚ) (o o' : List UInt8 × List (List (CornerData (Val b32)))) : Prop where
  name : o'.1 = o.1
  count : o'.2.length = triangleCount o
  empty : o'.2.isEmpty = o.2.isEmpty
  edges : (∀ f ∈ o.2, f.length ≤ 4 ∧ f.Pairwise (Apart δ)) → ∀ f ∈ o'.2, ∀ a c, FaceEdge f a c → (δ : ℝ) ≤ chord a c

/-- A scene with polygons, and the same with triangles. -/
structure CutScene (δ : ℚ) (s s' : Scene (Val b32)) : Prop where
  vertices : s'.vertices = s.vertices
  normals : s'.normals = s.normals
  uvs : s'.uvs = s.uvs
  objects : List.Forall₂ (CutUp δ) s.objects s'.objects

theorem addFaces_cons {F : Type} (o : List UInt8 × List (List (CornerData F))) : ∀ (fs : List (List (CornerData F)))
    (rest : List (List UInt8 × List (List (CornerData F)))), rest ≠ [] →
    fs.foldl (fun os f => addFace f os) (o :: rest) = o :: fs.foldl (fun os f => addFace f os) rest
  | [], _, _ => rfl
  | f :: fs, p :: rest, _ => by
    rw [List.foldl_cons, List.foldl_cons, addFace, addFaces_cons o fs _ (addFace_ne _ (by simp))]
    exact fun _ _ _ h => nomatch h

theorem addFaces_one {F : Type} (name : List UInt8) : ∀ (fs cur : List (List (CornerData F))),
    fs.foldl (fun os f => addFace f os) [(name, cur)] = [(name, cur ++ fs)]
  | [], cur => by simp
  | f :: fs, cur => by
    rw [List.foldl_cons, addFace, addFaces_one name fs, List.append_assoc]
    rfl

theorem addFaces_forall {F : Type} {R : List UInt8 × List (List (CornerData F)) → List UInt8 × List (List (CornerData F)) → Prop}
    (f : List (CornerData F)) (fs : List (List (CornerData F)))
    (hR : ∀ n a n' a', R (n, a) (n', a') → R (n, a ++ [f]) (n', a' ++ fs)) : ∀ {os os' : List (List UInt8 × List (List (CornerData F)))},
    List.Forall₂ R os os' → List.Forall₂ R (addFace f os) (fs.foldl (fun os f => addFace f os) os')
  | _, _, .nil => by
    have : ∀ fs : List (List (CornerData F)), fs.foldl (fun os f => addFace f os) [] = [] := by
      intro fs
      induction fs with
      | nil => rfl
      | cons g gs ih => exact ih
    rw [this]
    exact .nil
  | [(n, a)], _, .cons (b := (n', a')) h .nil => by
    rw [addFaces_one]
    exact .cons (hR _ _ _ _ h) .nil
  | o :: p :: rest, _, .cons h (.cons h2 h3) => by
    rw [addFaces_cons _ _ _ (by simp), addFace]
    · exact .cons h (addFaces_forall f fs hR (.cons h2 h3))
    · exact fun _ _ _ h => nomatch h

theorem apart_symm {δ : ℚ} {x y : CornerData (Val b32)} (h : Apart δ x y) : Apart δ y x := fun a c ha hc => by
  have e : chord a c = chord c a := by
    rw [chord, chord, length3, length3]
    congr 1
    ring
  rw [e]
  exact h c a hc ha

theorem triangles_step {F : Type} (cr : Bool) : ∀ (tris : List Triangle) (s : Scene F),
    (tris.map fun t => (triangleLine cr t : TextLine F).means).foldl Scene.step s =
      { s with objects := (tris.map fun t => [s.corner t.1.number, s.corner t.2.1.number, s.corner t.2.2.number]).foldl (fun os f => addFace f os) s.objects }
  | [], _ => rfl
  | t :: tris, s => by
    rw [List.map_cons, List.foldl_cons, triangles_step cr tris]
    rfl

/-- A face with the corners of three, and triangles of it. -/
theorem cutUp_add {δ : ℚ} {n n' : List UInt8} {a a' fs : List (List (CornerData (Val b32)))} {f : List (CornerData (Val b32))} (h : CutUp δ (n, a) (n', a'))
    (hlen : fs.length + 2 = f.length) (hthree : 3 ≤ f.length)
    (he : f.length ≤ 4 → f.Pairwise (Apart δ) → ∀ g ∈ fs, ∀ a c, FaceEdge g a c → (δ : ℝ) ≤ chord a c) : CutUp δ (n, a ++ [f]) (n', a' ++ fs) where
  name := h.name
  count := by
    have := h.count
    simp only [triangleCount, List.length_append, List.map_append, List.sum_append, List.map_cons, List.map_nil, List.sum_cons, List.sum_nil] at this ⊢
    omega
  empty := by
    cases fs with
    | nil => simp at hlen; omega
    | cons g gs => cases a' <;> cases a <;> rfl
  edges := by
    intro hf g hg
    rcases List.mem_append.mp hg with hg | hg
    · exact h.edges (fun f hf' => hf f (List.mem_append_left _ hf')) g hg
    · obtain ⟨h1, h2⟩ := hf f (List.mem_append_right _ (List.mem_singleton.mpr rfl))
      exact he h1 h2 g hg

theorem corner_same {F : Type} {s s' : Scene F} (h1 : s'.vertices = s.vertices) (h2 : s'.normals = s.normals) (h3 : s'.uvs = s.uvs) (c : ObjCorner) :
    s'.corner c = s.corner c := by
  rw [Scene.corner, Scene.corner, h1, h2, h3]

theorem faceEdge_three {δ : ℚ} {x y z : CornerData (Val b32)} (h1 : Apart δ x y) (h2 : Apart δ y z) (h3 : Apart δ z x) (a c : Vec3 (Val b32))
    (h : FaceEdge [x, y, z] a c) : (δ : ℝ) ≤ chord a c := by
  obtain ⟨x', y', z', e, h⟩ := h
  cases e
  rcases h with ⟨p, q⟩ | ⟨p, q⟩ | ⟨p, q⟩
  exacts [h1 _ _ p q, h2 _ _ p q, h3 _ _ p q]

/-- One line keeps both scenes together. -/
theorem CutScene.step {δ : ℚ} {s s' : Scene (Val b32)} (h : CutScene δ s s') {l : PolyLine (Val b32)} {ls : List (TextLine (Val b32))}
    (hr : Rewritten l ls) (h3 : ∀ cs bl cr, l = .face cs bl cr → 3 ≤ cs.length) : CutScene δ (s.polyStep l) ((ls.map TextLine.means).foldl Scene.step s') := by
  cases hr with
  | plain l =>
    show CutScene δ (s.step l.means) (s'.step l.means)
    cases l.means with
    | smooth => exact h
    | object name =>
      refine { h with objects := ?_ }
      exact List.rel_append h.objects (.cons ⟨rfl, rfl, rfl, fun _ f hf => nomatch hf⟩ .nil)
    | vertex x => exact { h with vertices := by simp [Scene.step, h.vertices] }
    | normal x => exact { h with normals := by simp [Scene.step, h.normals] }
    | uv x => exact { h with uvs := by simp [Scene.step, h.uvs] }
    | face a b c =>
      refine { h with objects := ?_ }
      have hc := corner_same h.vertices h.normals h.uvs
      show List.Forall₂ _ (addFace _ s.objects) (addFace [s'.corner a, s'.corner b, s'.corner c] s'.objects)
      rw [hc, hc, hc]
      refine addFaces_forall [s.corner a, s.corner b, s.corner c] [[s.corner a, s.corner b, s.corner c]]
        (fun n a n' a' h => cutUp_add h rfl (show 3 ≤ 3 from le_rfl) ?_) h.objects
      intro _ hp g hg x y he
      rw [List.mem_singleton] at hg
      subst hg
      simp only [List.pairwise_cons, List.mem_cons, List.not_mem_nil, or_false, forall_eq_or_imp, forall_eq] at hp
      exact faceEdge_three hp.1.1 hp.2.1 (apart_symm hp.1.2) x y he
  | @face corners blank cr ps tris count cut inside cover =>
    rw [List.map_map, show TextLine.means ∘ triangleLine cr = fun t => (triangleLine cr t : TextLine (Val b32)).means from rfl, triangles_step]
    refine { h with objects := ?_ }
    have hc := corner_same h.vertices h.normals h.uvs
    simp only [hc]
    refine addFaces_forall _ _ (fun n a n' a' h => cutUp_add h (by simpa using count) (by simpa using h3 _ _ _ rfl) ?_) h.objects
    intro h4 hp g hg x y he
    obtain ⟨t, ht, rfl⟩ := List.mem_map.mp hg
    rw [List.pairwise_map] at hp
    obtain ⟨r1, r2, r3⟩ := cutOff_pairs (R := fun c c' => Apart δ (s.corner c.number) (s.corner c'.number)) (fun _ _ => apart_symm) cut
      (by simpa using h4) hp t ht
    exact faceEdge_three r1 r2 r3 x y he

/-- Files keep both scenes together. -/
theorem CutScene.file {δ : ℚ} : ∀ {lines : List (PolyLine (Val b32))} {tls : List (List (TextLine (Val b32)))}, List.Forall₂ Rewritten lines tls →
    (∀ l ∈ lines, ∀ cs bl cr, l = .face cs bl cr → 3 ≤ cs.length) → ∀ {s s' : Scene (Val b32)}, CutScene δ s s' →
    CutScene δ (lines.foldl Scene.polyStep s) ((tls.flatten.map TextLine.means).foldl Scene.step s')
  | _, _, .nil, _, _, _, h => h
  | _, _, .cons h1 h2, h3, _, _, h => by
    rw [List.foldl_cons, List.flatten_cons, List.map_append, List.foldl_append]
    exact CutScene.file h2 (fun l hl => h3 l (List.mem_cons_of_mem _ hl)) (h.step h1 (h3 _ List.mem_cons_self))

theorem polyDefined_three {fo : FloatOps} {ft : FloatText fo} : ∀ (lines : List (PolyLine fo.F)) (s : Scene fo.F), PolyDefined ft s lines →
    ∀ l ∈ lines, ∀ cs bl cr, l = .face cs bl cr → 3 ≤ cs.length
  | [], _, _ => fun _ h => nomatch h
  | .plain l :: lines, _, h => List.forall_mem_cons.mpr ⟨(fun _ _ _ e => nomatch e), polyDefined_three lines _ h.2.2.2⟩
  | .face cs blank _ :: lines, _, h => List.forall_mem_cons.mpr ⟨fun _ _ _ e => by cases e; exact h.1, polyDefined_three lines _ h.2.2⟩

theorem cutUp_delivered {δ : ℚ} {os os' : List (List UInt8 × List (List (CornerData (Val b32))))} (h : List.Forall₂ (CutUp δ) os os') :
    List.Forall₂ (CutUp δ) (delivered os) (delivered os') := by
  induction h with
  | nil => exact .nil
  | @cons o o' os os' h1 h2 ih =>
    cases h2 with
    | nil => exact .cons h1 .nil
    | @cons p p' ps ps' h3 h4 =>
      have e : ∀ (o p : List UInt8 × List (List (CornerData (Val b32)))) ps, delivered (o :: p :: ps) = [o].filter (fun o => !o.2.isEmpty) ++ delivered (p :: ps) :=
        fun o p ps => delivered_append [o] (r := p :: ps) (by simp)
      rw [e, e]
      refine List.rel_append ?_ ih
      rw [List.filter_cons, List.filter_cons, h1.empty]
      split
      · exact .cons h1 .nil
      · exact .nil

/-- With triangles, the scene can be stored. -/
theorem storable_cut {k : Nat} {P M δ : ℚ} {s s' : Scene (Val b32)} (hs : StorablePolygons k P M δ s) (hq : QuadsAtMost s) (h : CutScene δ s s') :
    StorableScene k P M δ s' := by
  have seg : ∀ {o o'}, CutUp δ o o' → objectSegments s' o' = objectSegments s (cutUp o) := fun ho => by
    simp only [objectSegments, cutUp, h.vertices, h.normals, h.uvs, ho.count, List.length_replicate]
  have siz : ∀ {o o'}, CutUp δ o o' → objectSizeBound s' o' = objectSizeBound s (cutUp o) := fun ho => by
    simp only [objectSizeBound, seg ho, h.vertices, h.normals, h.uvs, ho.count, ho.name, cutUp, List.length_replicate]
  have back : ∀ o' ∈ s'.objects, ∃ o ∈ s.objects, CutUp δ o o' := fun o' ho' => by
    obtain ⟨o, ho, hr⟩ := exists_of_forall₂ h.objects.flip o' ho'
    exact ⟨o, ho, hr⟩
  refine ⟨h.vertices ▸ hs.some, hs.range, h.vertices ▸ hs.inner, hs.least, hs.most, ?_, hs.bits, ?_, ?_, ?_⟩
  · intro o' ho'
    obtain ⟨o, ho, hr⟩ := back o' ho'
    exact hr.edges fun f hf => ⟨hq o ho f hf, hs.apart o ho f hf⟩
  · intro o' ho'
    obtain ⟨o, ho, hr⟩ := back o' ho'
    exact hr.name ▸ hs.names o ho
  · intro o' ho'
    obtain ⟨o, ho, hr⟩ := back o' ho'
    exact seg hr ▸ hs.segments o ho
  · have e : (delivered s'.objects).map (objectSizeBound s') = (delivered s.objects).map fun o => objectSizeBound s (cutUp o) := by
      have hd := cutUp_delivered h.objects
      generalize delivered s'.objects = os' at hd
      generalize delivered s.objects = os at hd
      induction hd with
      | nil => rfl
      | cons h1 _ ih => rw [List.map_cons, List.map_cons, siz h1, ih]
    rw [e]
    exact hs.size

end Tmf
