import Verif.Lemmas.ObjRead
import Verif.Spec.ObjFile
/-
Reading .obj files as other programs write them.
-/

namespace Tmf
open Spec

variable {fo : FloatOps}

/-! ### Lines -/

theorem stripCr_append (l : List UInt8) : stripCr (l ++ [13]) = l := by
  rw [stripCr, if_pos (by simp), List.dropLast_concat]

theorem stripCr_clean {l : List UInt8} (h : l.getLast? ≠ some 13) : stripCr l = l := by
  rw [stripCr, if_neg h]

theorem textLinesAux_last : ∀ (l cur : List UInt8), (∀ c ∈ l, c ≠ 10) → cur ++ l ≠ [] → textLinesAux cur l = [cur ++ l]
  | [], cur, _, h => by
    rw [List.append_nil] at h ⊢
    rw [textLinesAux, if_neg h]
  | c :: l, cur, h, _ => by
    rw [textLinesAux, if_neg (h c List.mem_cons_self),
      textLinesAux_last l (cur ++ [c]) (fun x hx => h x (List.mem_cons_of_mem _ hx)) (by simp)]
    simp

theorem textLines_fileText {F : Type} (last : Option (TextLine F)) (hlast : ∀ l ∈ last, LineChars l.text ∧ l.text ≠ []) :
    ∀ (lines : List (TextLine F)), (∀ l ∈ lines, LineChars l.text) →
      textLines (fileText lines last) = (lines ++ last.toList).map TextLine.text
  | [], _ => by
    cases last with
    | none => rfl
    | some l =>
      obtain ⟨h1, h2⟩ := hlast l rfl
      exact textLinesAux_last l.text [] h1.2.1 (by simpa using h2)
  | l :: lines, h => by
    have hl := h l List.mem_cons_self
    have ih := textLines_fileText last hlast lines (fun x hx => h x (List.mem_cons_of_mem _ hx))
    cases hc : l.cr with
    | false =>
      have e : fileText (l :: lines) last = l.text ++ 10 :: fileText lines last := by simp [fileText, hc]
      rw [textLines, e, textLinesAux_line _ _ _ hl.2.1, List.nil_append, stripCr_clean hl.2.2, List.cons_append, List.map_cons, ← ih]
      rfl
    | true =>
      have e : fileText (l :: lines) last = (l.text ++ [13]) ++ 10 :: fileText lines last := by simp [fileText, hc]
      have h13 : ∀ c ∈ l.text ++ [13], c ≠ 10 := by
        intro c hm
        rcases List.mem_append.mp hm with hm | hm
        · exact hl.2.1 c hm
        · rw [List.mem_singleton] at hm
          subst hm
          decide
      rw [textLines, e, textLinesAux_line _ _ _ h13, List.nil_append, stripCr_append, List.cons_append, List.map_cons, ← ih]
      rfl

theorem splitBytes_first : ∀ (text : List UInt8), ∃ ws, splitBytes isObjSep text = firstWord text :: ws
  | [] => ⟨[], rfl⟩
  | c :: rest => by
    obtain ⟨ws, h⟩ := splitBytes_first rest
    rw [splitBytes]
    by_cases hc : c = 32 ∨ c = 47
    · rw [if_pos (by rcases hc with rfl | rfl <;> decide)]
      refine ⟨splitBytes isObjSep rest, ?_⟩
      rw [firstWord, List.takeWhile_cons_of_neg]
      simp only [decide_eq_true_eq]
      tauto
    · push Not at hc
      rw [if_neg (by simp [isObjSep, hc]), h]
      refine ⟨ws, ?_⟩
      rw [firstWord, firstWord, List.takeWhile_cons_of_pos (by simpa using hc)]

theorem splitBytes_further {w rest : List UInt8} (h : IsWord w) (hr : Further rest) :
    ∃ ws, splitBytes isObjSep (w ++ rest) = w :: ws := by
  rcases hr with rfl | ⟨t, rfl⟩
  · exact ⟨[], by rw [List.append_nil]; exact splitBytes_clean h⟩
  · exact ⟨_, splitBytes_sep h (.inl rfl)⟩

theorem ascii_blank (s : List UInt8) (k : List UInt8) (e : s = k ++ [32]) (rest : List UInt8) : s ++ rest = k ++ 32 :: rest := by
  subst e
  simp

section
variable (ft : FloatText fo) (face : PushFace fo.F) (b : Build)

theorem parseLine_vec3 (k : List UInt8) (hk : CleanWord k) {p q r rest : List UInt8} {x : Vec3 fo.F}
    (hp : Spells ft p x.1) (hq : Spells ft q x.2.1) (hr : Spells ft r x.2.2) (hrest : Further rest) :
    ∃ ws, splitBytes isObjSep (k ++ [32] ++ p ++ [32] ++ q ++ [32] ++ r ++ rest) = k :: ws ∧ loadVec3 ft ws = .ok x := by
  obtain ⟨ws, h⟩ := splitBytes_further hr.1 hrest
  refine ⟨p :: q :: r :: ws, ?_, ?_⟩
  · rw [show k ++ [32] ++ p ++ [32] ++ q ++ [32] ++ r ++ rest = k ++ 32 :: (p ++ 32 :: (q ++ 32 :: (r ++ rest))) by simp,
      splitBytes_sep hk.seps (.inl rfl), splitBytes_sep hp.1 (.inl rfl), splitBytes_sep hq.1 (.inl rfl), h]
  · simp [loadVec3, nextWord, bind, Outcome.bind, parseFloat, hp.2, hq.2, hr.2]

theorem parseLine_means_vertex {p q r rest : List UInt8} {x : Vec3 fo.F} (oi : Importer fo.F)
    (hp : Spells ft p x.1) (hq : Spells ft q x.2.1) (hr : Spells ft r x.2.2) (hrest : Further rest)
    (hv : validUtf8 (ascii "v " ++ p ++ [32] ++ q ++ [32] ++ r ++ rest) = true) :
    parseLine ft face b (ascii "v " ++ p ++ [32] ++ q ++ [32] ++ r ++ rest) oi =
      .ok (none, { oi with vertices := oi.vertices ++ [x] }) := by
  obtain ⟨ws, h1, h2⟩ := parseLine_vec3 ft (ascii "v") cleanWord_v hp hq hr hrest
  rw [parseLine, if_pos hv, show ascii "v " = ascii "v" ++ [32] by decide, h1]
  simp [nextWord, bind, Outcome.bind, parseWords, h2]

theorem parseLine_means_normal {p q r rest : List UInt8} {x : Vec3 fo.F} (oi : Importer fo.F)
    (hp : Spells ft p x.1) (hq : Spells ft q x.2.1) (hr : Spells ft r x.2.2) (hrest : Further rest)
    (hv : validUtf8 (ascii "vn " ++ p ++ [32] ++ q ++ [32] ++ r ++ rest) = true) :
    parseLine ft face b (ascii "vn " ++ p ++ [32] ++ q ++ [32] ++ r ++ rest) oi =
      .ok (none, { oi with normals := oi.normals ++ [x] }) := by
  obtain ⟨ws, h1, h2⟩ := parseLine_vec3 ft (ascii "vn") cleanWord_vn hp hq hr hrest
  rw [parseLine, if_pos hv, show ascii "vn " = ascii "vn" ++ [32] by decide, h1]
  have e1 : ascii "vn" ≠ ascii "v" := by decide
  simp [nextWord, bind, Outcome.bind, parseWords, h2, e1]

theorem parseLine_means_uv {p q rest : List UInt8} {x : Vec2 fo.F} (oi : Importer fo.F)
    (hp : Spells ft p x.1) (hq : Spells ft q x.2) (hrest : Further rest)
    (hv : validUtf8 (ascii "vt " ++ p ++ [32] ++ q ++ rest) = true) :
    parseLine ft face b (ascii "vt " ++ p ++ [32] ++ q ++ rest) oi =
      .ok (none, { oi with uvs := oi.uvs ++ [x] }) := by
  obtain ⟨ws, h⟩ := splitBytes_further hq.1 hrest
  rw [parseLine, if_pos hv, show ascii "vt " ++ p ++ [32] ++ q ++ rest = ascii "vt" ++ 32 :: (p ++ 32 :: (q ++ rest)) by
      rw [show ascii "vt " = ascii "vt" ++ [32] by decide]; simp,
    splitBytes_sep cleanWord_vt.seps (.inl rfl), splitBytes_sep hp.1 (.inl rfl), h]
  have e1 : ascii "vt" ≠ ascii "v" := by decide
  have e2 : ascii "vt" ≠ ascii "vn" := by decide
  simp [nextWord, bind, Outcome.bind, parseWords, loadVec2, parseFloat, hp.2, hq.2, e1, e2]

theorem parseLine_means_object {name rest : List UInt8} (oi : Importer fo.F) (hn : IsWord name) (hrest : Further rest)
    (hv : validUtf8 (ascii "o " ++ name ++ rest) = true) :
    parseLine ft face b (ascii "o " ++ name ++ rest) oi = (oi.nextMesh b name).widen := by
  obtain ⟨ws, h⟩ := splitBytes_further hn hrest
  rw [parseLine, if_pos hv, show ascii "o " ++ name ++ rest = ascii "o" ++ 32 :: (name ++ rest) by
      rw [show ascii "o " = ascii "o" ++ [32] by decide]; simp,
    splitBytes_sep cleanWord_o.seps (.inl rfl), h]
  have e1 : ascii "o" ≠ ascii "v" := by decide
  have e2 : ascii "o" ≠ ascii "vn" := by decide
  have e3 : ascii "o" ≠ ascii "vt" := by decide
  have e4 : ascii "o" ≠ ascii "f" := by decide
  simp [nextWord, bind, Outcome.bind, parseWords, e1, e2, e3, e4]

theorem parseLine_means_nothing {text : List UInt8} (oi : Importer fo.F)
    (h : firstWord text ∉ [ascii "v", ascii "vn", ascii "vt", ascii "f", ascii "o"]) (hv : validUtf8 text = true) :
    parseLine ft face b text oi = .ok (none, oi) := by
  obtain ⟨ws, hw⟩ := splitBytes_first text
  simp only [List.mem_cons, List.not_mem_nil, or_false, not_or] at h
  obtain ⟨h1, h2, h3, h4, h5⟩ := h
  rw [parseLine, if_pos hv, hw]
  simp [nextWord, bind, Outcome.bind, parseWords, h1, h2, h3, h4, h5]

theorem loadIndices_short {ws : List (List UInt8)} (h : ws.length < 3) : loadIndices ws = .err .other := by
  match ws, h with
  | [], _ => rfl
  | [_], _ => rfl
  | [_, _], _ => rfl

/-- A face line with complete corners, perhaps with a blank at its end. -/
theorem parseLine_means_face (x y z : Nat × Nat × Nat) {rest : List UInt8} (oi : Importer fo.F)
    (hx : x.1 + 1 < 2 ^ 32 ∧ x.2.1 + 1 < 2 ^ 32 ∧ x.2.2 + 1 < 2 ^ 32)
    (hy : y.1 + 1 < 2 ^ 32 ∧ y.2.1 + 1 < 2 ^ 32 ∧ y.2.2 + 1 < 2 ^ 32)
    (hz : z.1 + 1 < 2 ^ 32 ∧ z.2.1 + 1 < 2 ^ 32 ∧ z.2.2 + 1 < 2 ^ 32) (hrest : rest = [] ∨ rest = [32])
    (hv : validUtf8 (ascii "f " ++ (ObjCorner.mk (x.1 + 1) (some (x.2.1 + 1)) (some (x.2.2 + 1))).render ++ [32] ++
      (ObjCorner.mk (y.1 + 1) (some (y.2.1 + 1)) (some (y.2.2 + 1))).render ++ [32] ++
      (ObjCorner.mk (z.1 + 1) (some (z.2.1 + 1)) (some (z.2.2 + 1))).render ++ rest) = true) :
    parseLine ft face b (ascii "f " ++ (ObjCorner.mk (x.1 + 1) (some (x.2.1 + 1)) (some (x.2.2 + 1))).render ++ [32] ++
      (ObjCorner.mk (y.1 + 1) (some (y.2.1 + 1)) (some (y.2.2 + 1))).render ++ [32] ++
      (ObjCorner.mk (z.1 + 1) (some (z.2.1 + 1)) (some (z.2.2 + 1))).render ++ rest) oi =
      (do
        let oi ← face [x.1, y.1, z.1] [x.2.1, y.2.1, z.2.1] [x.2.2, y.2.2, z.2.2] oi
        Outcome.ok (none, oi)) := by
  have e1 : ascii "f" ≠ ascii "v" := by decide
  have e2 : ascii "f" ≠ ascii "vn" := by decide
  have e3 : ascii "f" ≠ ascii "vt" := by decide
  obtain ⟨ws, hw, hws⟩ : ∃ ws, splitBytes isObjSep (decimal (z.2.2 + 1) ++ rest) = decimal (z.2.2 + 1) :: ws ∧ ws.length < 3 := by
    rcases hrest with rfl | rfl
    · exact ⟨[], by rw [List.append_nil]; exact splitBytes_clean (decimal_clean _).seps, by decide⟩
    · exact ⟨_, splitBytes_sep (decimal_clean _).seps (.inl rfl), by decide⟩
  rw [parseLine, if_pos hv]
  simp only [ObjCorner.render]
  rw [show ascii "f " ++ (decimal (x.1 + 1) ++ [47] ++ decimal (x.2.1 + 1) ++ [47] ++ decimal (x.2.2 + 1)) ++ [32] ++
      (decimal (y.1 + 1) ++ [47] ++ decimal (y.2.1 + 1) ++ [47] ++ decimal (y.2.2 + 1)) ++ [32] ++
      (decimal (z.1 + 1) ++ [47] ++ decimal (z.2.1 + 1) ++ [47] ++ decimal (z.2.2 + 1)) ++ rest =
      ascii "f" ++ 32 :: (decimal (x.1 + 1) ++ 47 :: (decimal (x.2.1 + 1) ++ 47 :: (decimal (x.2.2 + 1) ++ 32 ::
      (decimal (y.1 + 1) ++ 47 :: (decimal (y.2.1 + 1) ++ 47 :: (decimal (y.2.2 + 1) ++ 32 ::
      (decimal (z.1 + 1) ++ 47 :: (decimal (z.2.1 + 1) ++ 47 :: (decimal (z.2.2 + 1) ++ rest))))))))) by
    rw [show ascii "f " = ascii "f" ++ [32] by decide]; simp]
  rw [splitBytes_sep cleanWord_f.seps (.inl rfl)]
  rw [splitBytes_sep (decimal_clean _).seps (.inr rfl), splitBytes_sep (decimal_clean _).seps (.inr rfl),
    splitBytes_sep (decimal_clean _).seps (.inl rfl),
    splitBytes_sep (decimal_clean _).seps (.inr rfl), splitBytes_sep (decimal_clean _).seps (.inr rfl),
    splitBytes_sep (decimal_clean _).seps (.inl rfl),
    splitBytes_sep (decimal_clean _).seps (.inr rfl), splitBytes_sep (decimal_clean _).seps (.inr rfl), hw]
  simp only [nextWord, bind, Outcome.bind, parseWords, if_neg e1, if_neg e2, if_neg e3, if_true, loadFace,
    List.length_cons, loadFaceLoop]
  rw [loadIndices_cons hx.1 hx.2.1 hx.2.2]
  simp only
  rw [loadIndices_cons hy.1 hy.2.1 hy.2.2]
  simp only
  rw [loadIndices_cons hz.1 hz.2.1 hz.2.2]
  simp only
  rw [loadIndices_short hws]
  rfl

end

/-! ### The state of the importer and the scene -/

theorem lookups_append {α : Type} (d : List α) (s t : List Nat) : lookups d (s ++ t) = lookups d s ++ lookups d t :=
  List.map_append

theorem lookups_grow {α : Type} {d : List α} {t : List Nat} (h : InRange d.length t) (x : List α) :
    lookups (d ++ x) t = lookups d t := by
  apply List.map_congr_left
  intro i hi
  exact List.getElem?_append_left (h i hi).1

theorem inRange_grow {n k : Nat} {t : List Nat} (h : InRange n t) : InRange (n + k) t :=
  fun i hi => ⟨Nat.lt_add_right _ (h i hi).1, (h i hi).2⟩

theorem inRange_append {n : Nat} {s t : List Nat} (hs : InRange n s) (ht : InRange n t) : InRange n (s ++ t) :=
  fun i hi => (List.mem_append.mp hi).elim (hs i) (ht i)

/-- The faces of the current object are what the index arrays select. -/
structure Tracks {F : Type} (oi : Importer F) (s : Scene F) (done : List (List UInt8 × List (List (CornerData F))))
    (cur : List (List (CornerData F))) : Prop where
  vertices : oi.vertices = s.vertices
  normals : oi.normals = s.normals
  uvs : oi.uvs = s.uvs
  objects : s.objects = done ++ [(oi.name, cur)]
  three : ∀ f ∈ cur, f.length = 3
  vertexOf : cur.flatten.map CornerData.vertex = lookups oi.vertices oi.vertexTriangles
  uvOf : cur.flatten.map CornerData.uv = (lookups oi.uvs oi.uvTriangles).map some
  normalOf : cur.flatten.map CornerData.normal = (lookups oi.normals oi.normalTriangles).map some
  vertexIn : InRange oi.vertices.length oi.vertexTriangles
  uvIn : InRange oi.uvs.length oi.uvTriangles
  normalIn : InRange oi.normals.length oi.normalTriangles

/-- A mesh read from a file, whose arrays are parts of those of the scene so far. -/
structure ReadFrom {F : Type} (s : Scene F) (m : Mesh F × List UInt8) (o : List UInt8 × List (List (CornerData F))) : Prop where
  read : ReadAs m o
  vertices : ∃ l, m.1.vertices = some l ∧ l.Sublist s.vertices
  normals : ∃ l, m.1.normals = some l ∧ l.Sublist s.normals
  uvs : ∃ l, m.1.uvs = some l ∧ l.Sublist s.uvs
  tangents : m.1.tangents = none
  tangentTriangles : m.1.tangentTriangles = none
  custom : m.1.customData = []
  firstVertex : s.vertices.length < 2 ^ 32 → ∀ t, m.1.vertexTriangles = some t → t ≠ [] → 0 ∈ t
  firstNormal : s.normals.length < 2 ^ 32 → ∀ t, m.1.normalTriangles = some t → t ≠ [] → 0 ∈ t
  firstUv : s.uvs.length < 2 ^ 32 → ∀ t, m.1.uvTriangles = some t → t ≠ [] → 0 ∈ t

/-- Everything in one scene is in the other. -/
structure Spec.Scene.Grows {F : Type} (s s' : Scene F) : Prop where
  vertices : s.vertices.Sublist s'.vertices
  normals : s.normals.Sublist s'.normals
  uvs : s.uvs.Sublist s'.uvs

theorem Spec.Scene.grows_step {F : Type} (s : Scene F) (l : ObjLine F) : s.Grows (s.step l) := by
  cases l <;> constructor <;> first | exact List.Sublist.refl _ | exact List.sublist_append_left _ _

theorem Spec.Scene.grows_steps {F : Type} : ∀ (l : List (ObjLine F)) (s : Scene F), s.Grows (l.foldl Scene.step s)
  | [], s => ⟨.refl _, .refl _, .refl _⟩
  | x :: l, s => by
    obtain ⟨a1, a2, a3⟩ := s.grows_step x
    obtain ⟨b1, b2, b3⟩ := Scene.grows_steps l (s.step x)
    exact ⟨a1.trans b1, a2.trans b2, a3.trans b3⟩

theorem ReadFrom.grow {F : Type} {s s' : Scene F} (h : s.Grows s') {m : Mesh F × List UInt8}
    {o : List UInt8 × List (List (CornerData F))} (hr : ReadFrom s m o) : ReadFrom s' m o :=
  { hr with
    vertices := hr.vertices.imp fun _ h' => ⟨h'.1, h'.2.trans h.vertices⟩
    normals := hr.normals.imp fun _ h' => ⟨h'.1, h'.2.trans h.normals⟩
    uvs := hr.uvs.imp fun _ h' => ⟨h'.1, h'.2.trans h.uvs⟩
    firstVertex := fun hl => hr.firstVertex (h.vertices.length_le.trans_lt hl)
    firstNormal := fun hl => hr.firstNormal (h.normals.length_le.trans_lt hl)
    firstUv := fun hl => hr.firstUv (h.uvs.length_le.trans_lt hl) }

theorem flatten_three {α : Type} : ∀ (l : List (List α)), (∀ f ∈ l, f.length = 3) → l.flatten.length = 3 * l.length
  | [], _ => rfl
  | f :: l, h => by
    rw [List.flatten_cons, List.length_append, h f List.mem_cons_self,
      flatten_three l fun g hg => h g (List.mem_cons_of_mem _ hg), List.length_cons]
    omega

/-- Lists of three are determined by their elements. -/
theorem chunks_eq {α : Type} (g : Nat → α) : ∀ (l : List (List α)) (k : Nat), (∀ f ∈ l, f.length = 3) →
    (∀ i, i < l.flatten.length → l.flatten[i]? = some (g (3 * k + i))) →
    (List.range' k l.length).map (fun t => [g (3 * t), g (3 * t + 1), g (3 * t + 2)]) = l
  | [], _, _, _ => rfl
  | f :: l, k, h, hg => by
    have hf := h f List.mem_cons_self
    match f, hf with
    | [x, y, z], _ =>
      have hl := flatten_three l fun g hg => h g (List.mem_cons_of_mem _ hg)
      simp only [List.flatten_cons, List.cons_append, List.nil_append, List.length_cons] at hg
      have h0 := hg 0 (by omega)
      have h1 := hg 1 (by omega)
      have h2 := hg 2 (by omega)
      simp only [List.getElem?_cons_zero, List.getElem?_cons_succ, Option.some.injEq, Nat.add_zero] at h0 h1 h2
      rw [List.length_cons, List.range'_succ, List.map_cons, ← h0, ← h1, ← h2,
        chunks_eq g l (k + 1) (fun g hg => h g (List.mem_cons_of_mem _ hg)) ?_]
      intro i hi
      have := hg (i + 3) (by omega)
      simp only [List.getElem?_cons_succ] at this
      rw [this]
      congr 2
      ring

theorem fastPrune_spec {α : Type} (b : Build) (data : List α) (indices : List Nat) (hr : InRange data.length indices) :
    ∃ data' indices', fastPrune b data indices = .ok (data', indices') ∧ indices'.length = indices.length ∧
      lookups data' indices' = lookups data indices ∧ InRange data'.length indices' ∧ data'.Sublist data ∧ (data' = [] → data = []) := by
  obtain ⟨d, t, h1, h2, h3, dr, h4, h5⟩ := Props.C32_prune b data indices
  refine ⟨d, t, h1, h2, h3, ?_, h4 ▸ List.sublist_append_right _ _, ?_⟩
  rotate_left
  · rintro rfl
    rw [List.append_nil] at h4
    subst h4
    cases indices with
    | nil =>
      unfold fastPrune at h1
      rw [if_pos rfl] at h1
      cases h1
      rfl
    | cons i l => exact absurd List.mem_cons_self (h5 i (hr i List.mem_cons_self).1)
  have hle : ∀ i ∈ t, ∃ j ∈ indices, i ≤ j := by
    unfold fastPrune at h1
    cases hp : pruneMin indices (if indices = [] then 0 else data.length % 2 ^ 32) with
    | none =>
      rw [hp] at h1
      cases h1
      exact fun i hi => ⟨i, hi, le_rfl⟩
    | some m =>
      rw [hp] at h1
      obtain ⟨hm, hge⟩ := pruneMin_spec _ hp
      have hsub : ∀ i ∈ indices, subU32 b i m = .ok (i - m) := by
        intro i h
        rw [subU32.eq_def, if_pos (hge i h)]
      have hle : m ≤ data.length := by
        split_ifs at hm with he
        · omega
        · exact hm.trans (Nat.mod_le _ _)
      simp only [if_pos hle, mapAll_of_ok hsub, Outcome.bind_ok] at h1
      cases h1
      intro i hi
      obtain ⟨j, hj, rfl⟩ := List.mem_map.mp hi
      exact ⟨j, hj, Nat.sub_le _ _⟩
  intro i hi
  constructor
  · have : d[i]? ∈ lookups data indices := h3 ▸ List.mem_map.mpr ⟨i, hi, rfl⟩
    obtain ⟨j, hj, e⟩ := List.mem_map.mp this
    have hd : d[i]?.isSome := by
      rw [← e, List.getElem?_eq_getElem (hr j hj).1]
      rfl
    simpa using hd
  · obtain ⟨j, hj, hij⟩ := hle i hi
    exact hij.trans_lt (hr j hj).2

/-- The mesh built has the faces of the current object. -/
theorem Tracks.build {F : Type} {oi : Importer F} {s : Scene F} {done : List (List UInt8 × List (List (CornerData F)))}
    {cur : List (List (CornerData F))} (h : Tracks oi s done cur) (b : Build) :
    ∃ m, oi.build b = .ok m ∧ ReadFrom s (m, oi.name) (oi.name, cur) ∧ (m.vertices = some [] → s.vertices = []) := by
  obtain ⟨v, vt, hv, lv, ev, rv, sv, tv⟩ := fastPrune_spec b oi.vertices oi.vertexTriangles h.vertexIn
  obtain ⟨n, nt, hn, ln, en, rn, sn, -⟩ := fastPrune_spec b oi.normals oi.normalTriangles h.normalIn
  obtain ⟨u, ut, hu, lu, eu, ru, su, -⟩ := fastPrune_spec b oi.uvs oi.uvTriangles h.uvIn
  have hlen := flatten_three cur h.three
  have l1 : oi.vertexTriangles.length = 3 * cur.length := by
    have := congrArg List.length h.vertexOf
    simp only [List.length_map, lookups] at this
    omega
  have l2 : oi.uvTriangles.length = 3 * cur.length := by
    have := congrArg List.length h.uvOf
    simp only [List.length_map, lookups] at this
    omega
  have l3 : oi.normalTriangles.length = 3 * cur.length := by
    have := congrArg List.length h.normalOf
    simp only [List.length_map, lookups] at this
    omega
  have first : ∀ {α : Type} {d d' : List α} {t t' t'' : List Nat}, InRange d.length t → d.length < 2 ^ 32 →
      fastPrune b d t = .ok (d', t') → t'.length = t.length → t' ≠ [] → t'' = t' → 0 ∈ t'' := by
    intro α d d' t t' t'' hr hs hp hl hne he
    subst he
    refine Props.C32_prune_first b d t ?_ hr hs hp
    rintro rfl
    exact hne (List.length_eq_zero_iff.mp hl)
  refine ⟨_, by rw [Importer.build, hv, hn, hu]; rfl, ⟨⟨rfl, ?_, ⟨?_, ?_, ?_⟩, rfl, rfl⟩, ⟨v, rfl, h.vertices ▸ sv⟩,
    ⟨n, rfl, h.normals ▸ sn⟩, ⟨u, rfl, h.uvs ▸ su⟩, rfl, rfl, rfl,
    fun hs t ht hne => first h.vertexIn (h.vertices ▸ hs) hv lv (by cases ht; exact hne) (by cases ht; rfl),
    fun hs t ht hne => first h.normalIn (h.normals ▸ hs) hn ln (by cases ht; exact hne) (by cases ht; rfl),
    fun hs t ht hne => first h.uvIn (h.uvs ▸ hs) hu lu (by cases ht; exact hne) (by cases ht; rfl)⟩, fun e => h.vertices ▸ tv (Option.some.inj e)⟩
  · simp only [meshFaces, Mesh.setVertices, Mesh.setNormals, Mesh.setUvs, Mesh.setVertexTriangles, Mesh.setNormalTriangles,
      Mesh.setUvTriangles, Option.getD_some]
    rw [show vt.length / 3 = cur.length by omega, List.range_eq_range']
    refine chunks_eq _ cur 0 h.three fun i hi => ?_
    rw [Nat.mul_zero, Nat.zero_add, List.getElem?_eq_getElem hi]
    have key : ∀ {α : Type} (d : List α) (t : List Nat) (i : Nat), (lookups d t)[i]? = (t[i]?).map fun k => d[k]? := by
      intro α d t i
      rw [lookups, List.getElem?_map]
    have a1 := congrArg (·[i]?) h.vertexOf
    have a2 := congrArg (·[i]?) h.uvOf
    have a3 := congrArg (·[i]?) h.normalOf
    simp only [← ev, ← eu, ← en] at a1 a2 a3
    simp only [List.getElem?_map, List.getElem?_eq_getElem hi, key, Option.map_some, Option.map_map] at a1 a2 a3
    have b1 : i < vt.length := by omega
    have b2 : i < ut.length := by omega
    have b3 : i < nt.length := by omega
    simp only [List.getElem?_eq_getElem b1, List.getElem?_eq_getElem b2, List.getElem?_eq_getElem b3, Option.map_some, Option.some.injEq,
      Function.comp] at a1 a2 a3
    simp only [meshCorner, Option.getD_some, Option.map_some, List.getElem?_eq_getElem b1, List.getElem?_eq_getElem b2,
      List.getElem?_eq_getElem b3, Option.bind_some, Option.some.injEq]
    rw [← a1, ← a2, ← a3]
  · exact ⟨vt, rfl, ⟨cur.length, by omega⟩, rv⟩
  · intro t ht
    cases ht
    exact ⟨by show nt.length = vt.length; omega, rn⟩
  · intro t ht
    cases ht
    exact ⟨by show ut.length = vt.length; omega, ru⟩

theorem addFace_last {F : Type} (f : List (CornerData F)) (name : List UInt8) (cur : List (List (CornerData F))) :
    ∀ (done : List (List UInt8 × List (List (CornerData F)))),
      addFace f (done ++ [(name, cur)]) = done ++ [(name, cur ++ [f])]
  | [] => rfl
  | [o] => rfl
  | o :: p :: rest => by
    have := addFace_last f name cur (p :: rest)
    rw [List.cons_append] at this ⊢
    rw [List.cons_append] at this ⊢
    rw [addFace.eq_def]
    simp only
    rw [this]
    simp

theorem numbered_lt {α : Type} {l : List α} {k : Nat} (h1 : 1 ≤ k) : numbered l k = l[k - 1]? := by
  rw [numbered, if_neg (by omega)]

/-- One line keeps importer and scene together. -/
theorem Tracks.step {ft : FloatText fo} {face : PushFace fo.F} (hp : PushesTriangles face) (b : Build) {oi : Importer fo.F}
    {s : Scene fo.F} {done : List (List UInt8 × List (List (CornerData fo.F)))} {cur : List (List (CornerData fo.F))}
    (h : Tracks oi s done cur) {text : List UInt8} {l : ObjLine fo.F} (hv : validUtf8 text = true) (hm : LineMeans ft text l)
    (hd : ∀ a b c, l = .face a b c → s.Defines a ∧ s.Defines b ∧ s.Defines c) :
    ∃ m oi' more cur', parseLine ft face b text oi = .ok (m, oi') ∧ Tracks oi' (s.step l) (done ++ more) cur' ∧
      List.Forall₂ (ReadFrom s) m.toList (more.filter fun o => !o.2.isEmpty) := by
  cases hm with
  | @vertex p q r rest x h1 h2 h3 h4 =>
    refine ⟨_, _, [], cur, parseLine_means_vertex ft face b oi h1 h2 h3 h4 hv, ?_, .nil⟩
    rw [List.append_nil]
    exact { h with
      vertices := by simp [Scene.step, h.vertices]
      vertexOf := h.vertexOf.trans (lookups_grow h.vertexIn _).symm
      vertexIn := by rw [List.length_append]; exact inRange_grow h.vertexIn }
  | @normal p q r rest x h1 h2 h3 h4 =>
    refine ⟨_, _, [], cur, parseLine_means_normal ft face b oi h1 h2 h3 h4 hv, ?_, .nil⟩
    rw [List.append_nil]
    exact { h with
      normals := by simp [Scene.step, h.normals]
      normalOf := h.normalOf.trans (congrArg (List.map some) (lookups_grow h.normalIn _).symm)
      normalIn := by rw [List.length_append]; exact inRange_grow h.normalIn }
  | @uv p q rest x h1 h2 h4 =>
    refine ⟨_, _, [], cur, parseLine_means_uv ft face b oi h1 h2 h4 hv, ?_, .nil⟩
    rw [List.append_nil]
    exact { h with
      uvs := by simp [Scene.step, h.uvs]
      uvOf := h.uvOf.trans (congrArg (List.map some) (lookups_grow h.uvIn _).symm)
      uvIn := by rw [List.length_append]; exact inRange_grow h.uvIn }
  | @face x y z rest hrest =>
    obtain ⟨hx, hy, hz⟩ := hd x y z rfl
    have norm : ∀ k : ObjCorner, s.Defines k → ∃ i j l, k = ⟨i + 1, some (j + 1), some (l + 1)⟩ ∧
        (i < s.vertices.length ∧ i + 1 < 2 ^ 32) ∧ (j < s.uvs.length ∧ j + 1 < 2 ^ 32) ∧ (l < s.normals.length ∧ l + 1 < 2 ^ 32) := by
      rintro ⟨v, u, n⟩ ⟨⟨a1, a2, a3⟩, ⟨u', rfl, b1, b2, b3⟩, ⟨n', rfl, c1, c2, c3⟩⟩
      dsimp only at a1 a2 a3
      refine ⟨v - 1, u' - 1, n' - 1, ?_, ⟨by omega, by omega⟩, ⟨by omega, by omega⟩, ⟨by omega, by omega⟩⟩
      rw [Nat.sub_add_cancel a1, Nat.sub_add_cancel b1, Nat.sub_add_cancel c1]
    obtain ⟨x1, x2, x3, rfl, hx1, hx2, hx3⟩ := norm x hx
    obtain ⟨y1, y2, y3, rfl, hy1, hy2, hy3⟩ := norm y hy
    obtain ⟨z1, z2, z3, rfl, hz1, hz2, hz3⟩ := norm z hz
    refine ⟨none, oi.pushIndices [x1, y1, z1] [x2, y2, z2] [x3, y3, z3], [],
      cur ++ [[s.corner ⟨x1 + 1, some (x2 + 1), some (x3 + 1)⟩, s.corner ⟨y1 + 1, some (y2 + 1), some (y3 + 1)⟩,
        s.corner ⟨z1 + 1, some (z2 + 1), some (z3 + 1)⟩]], ?_, ?_, .nil⟩
    · refine (parseLine_means_face ft face b (x1, x2, x3) (y1, y2, y3) (z1, z2, z3) oi ⟨hx1.2, hx2.2, hx3.2⟩
        ⟨hy1.2, hy2.2, hy3.2⟩ ⟨hz1.2, hz2.2, hz3.2⟩ hrest hv).trans ?_
      rw [hp _ _ _ oi rfl rfl rfl]
      rfl
    · rw [List.append_nil]
      refine ⟨h.vertices, h.normals, h.uvs, ?_, ?_, ?_, ?_, ?_, ?_, ?_, ?_⟩
      · show addFace _ s.objects = _
        rw [h.objects, addFace_last]
        rfl
      · intro f hf
        rcases List.mem_append.mp hf with hf | hf
        · exact h.three f hf
        · rw [List.mem_singleton] at hf
          subst hf
          rfl
      · show _ = lookups oi.vertices (oi.vertexTriangles ++ [x1, y1, z1])
        rw [lookups_append, ← h.vertexOf, List.flatten_append, List.map_append, h.vertices]
        rfl
      · show _ = (lookups oi.uvs (oi.uvTriangles ++ [x2, y2, z2])).map some
        rw [lookups_append, List.map_append, ← h.uvOf, List.flatten_append, List.map_append, h.uvs]
        rfl
      · show _ = (lookups oi.normals (oi.normalTriangles ++ [x3, y3, z3])).map some
        rw [lookups_append, List.map_append, ← h.normalOf, List.flatten_append, List.map_append, h.normals]
        rfl
      · refine inRange_append h.vertexIn ?_
        intro i hi
        simp only [List.mem_cons, List.not_mem_nil, or_false] at hi
        show i < oi.vertices.length ∧ _
        rw [h.vertices]
        omega
      · refine inRange_append h.uvIn ?_
        intro i hi
        simp only [List.mem_cons, List.not_mem_nil, or_false] at hi
        show i < oi.uvs.length ∧ _
        rw [h.uvs]
        omega
      · refine inRange_append h.normalIn ?_
        intro i hi
        simp only [List.mem_cons, List.not_mem_nil, or_false] at hi
        show i < oi.normals.length ∧ _
        rw [h.normals]
        omega
  | @object name rest h1 h2 =>
    have hpl := parseLine_means_object ft face b oi h1 h2 hv
    have hlen := flatten_three cur h.three
    have l1 : oi.vertexTriangles.length = 3 * cur.length := by
      have := congrArg List.length h.vertexOf
      simp only [List.length_map, lookups] at this
      omega
    by_cases hc : oi.vertexTriangles = []
    · have hcur : cur = [] := by
        apply List.length_eq_zero_iff.mp
        rw [hc, List.length_nil] at l1
        omega
      subst hcur
      refine ⟨none, { oi with name := name }, [(oi.name, [])], [], ?_, ?_, .nil⟩
      · rw [hpl, Importer.nextMesh, if_pos hc]
        rfl
      · refine { h with objects := ?_ }
        show s.objects ++ [(name, [])] = _
        rw [h.objects]
    · obtain ⟨m, hb, hr, -⟩ := h.build b
      refine ⟨some (m, oi.name), { oi with name := name, vertexTriangles := [], normalTriangles := [], uvTriangles := [] },
        [(oi.name, cur)], [], ?_, ?_, ?_⟩
      · rw [hpl, Importer.nextMesh, if_neg hc, hb]
        rfl
      · refine ⟨h.vertices, h.normals, h.uvs, ?_, ?_, rfl, rfl, rfl, ?_, ?_, ?_⟩
        · show s.objects ++ [(name, [])] = _
          rw [h.objects]
        · intro f hf; cases hf
        · intro i hi; cases hi
        · intro i hi; cases hi
        · intro i hi; cases hi
      · have : cur.isEmpty = false := by
          rw [Bool.eq_false_iff]
          intro he
          rw [List.isEmpty_iff.mp he, List.length_nil] at l1
          exact hc (List.length_eq_zero_iff.mp (by omega))
        simp only [List.filter_cons, this, Bool.not_false, if_true, List.filter_nil, Option.toList]
        exact .cons hr .nil
  | nothing h1 =>
    exact ⟨none, oi, [], cur, parseLine_means_nothing ft face b oi h1 hv, by rw [List.append_nil]; exact h, .nil⟩

theorem delivered_append {F : Type} (a : List (List UInt8 × List (List (CornerData F))))
    {r : List (List UInt8 × List (List (CornerData F)))} (hr : r ≠ []) :
    delivered (a ++ r) = (a.filter fun o => !o.2.isEmpty) ++ delivered r := by
  rw [delivered, delivered, List.dropLast_append_of_ne_nil hr, List.filter_append, List.getLast?_append_of_ne_nil _ hr, List.append_assoc]

theorem readObjLoop_file {ft : FloatText fo} {face : PushFace fo.F} (hp : PushesTriangles face) (b : Build) :
    ∀ (lines : List (TextLine fo.F)) (oi : Importer fo.F) (s : Scene fo.F)
      (done : List (List UInt8 × List (List (CornerData fo.F)))) (cur : List (List (CornerData fo.F))), Tracks oi s done cur →
      (∀ l ∈ lines, validUtf8 l.text = true ∧ LineMeans ft l.text l.means) → Defined s (lines.map TextLine.means) →
      ∃ res rest, readObjLoop ft face b (lines.map TextLine.text) oi = .ok res ∧
        ((lines.map TextLine.means).foldl Scene.step s).objects = done ++ rest ∧ rest ≠ [] ∧
        List.Forall₂ (ReadFrom ((lines.map TextLine.means).foldl Scene.step s)) res (delivered rest) ∧
        ∀ m, res.getLast? = some m → m.1.vertices = some [] → ((lines.map TextLine.means).foldl Scene.step s).vertices = []
  | [], oi, s, done, cur, ht, _, _ => by
    obtain ⟨m, hb, hr, he⟩ := ht.build b
    refine ⟨[(m, oi.name)], [(oi.name, cur)], ?_, ht.objects, by simp, .cons hr .nil, fun m' hm' => ?_⟩
    · rw [List.map_nil, readObjLoop, Importer.finish, hb]
      rfl
    · cases hm'
      exact he
  | l :: lines, oi, s, done, cur, ht, hl, hd => by
    obtain ⟨h1, h2⟩ := hl l List.mem_cons_self
    obtain ⟨m, oi', more, cur', e, ht', hf⟩ := ht.step hp b h1 h2 hd.1
    obtain ⟨res, rest, hr, ho, hne, hres, hlast⟩ := readObjLoop_file hp b lines oi' _ _ _ ht' (fun x hx => hl x (List.mem_cons_of_mem _ hx)) hd.2
    refine ⟨m.toList ++ res, more ++ rest, ?_, ?_, by simp [hne], ?_, ?_⟩
    · rw [List.map_cons, readObjLoop, e]
      simp only [bind, Outcome.bind]
      rw [hr]
    · rw [List.map_cons, List.foldl_cons, ho, List.append_assoc]
    · rw [delivered_append _ hne]
      rw [List.map_cons, List.foldl_cons]
      exact List.rel_append (R := ReadFrom _) (hf.imp fun _ _ h => h.grow (Scene.grows_steps (l.means :: lines.map TextLine.means) s)) hres
    · intro x hx
      have hne' : res ≠ [] := by
        rintro rfl
        have := hres.length_eq
        rw [delivered, List.length_append, List.getLast?_eq_some_getLast hne] at this
        simp at this
      rw [List.getLast?_append_of_ne_nil _ hne'] at hx
      exact hlast x hx

end Tmf
