import Verif.Lemmas.ObjOptional
import Verif.Props.ObjFile
/-
C57: .obj files where corners leave out the uv or more.
-/

namespace Tmf.Props
open Spec

variable {fo : FloatOps}

theorem scene_read_without {ft : FloatText fo} {face : PushFace fo.F} (hp : PushesTriangles face) (b : Build) (lines : List (TextLine fo.F))
    (last : Option (TextLine fo.F)) (hc : ∀ l ∈ lines, LineChars l.text) (hlast : ∀ l ∈ last, LineChars l.text ∧ l.text ≠ [])
    (hm : ∀ l ∈ lines ++ last.toList, LineMeans ft l.text l.means) (hd : DefinedSome Scene.start (fileMeans lines last)) :
    ∃ res, readFromObj ft face b (fileText lines last) = .ok res ∧
      List.Forall₂ ReadWithout res (delivered (sceneOf (fileMeans lines last)).objects) := by
  have ht : Follows (Importer.new : Importer fo.F) Scene.start [] [] := by
    constructor <;> first | rfl | exact .nil | exact fun i hi => absurd hi List.not_mem_nil
  obtain ⟨res, rest, hr, ho, _, hf⟩ := readObjLoop_without hp b (lines ++ last.toList) .new Scene.start [] [] ht
    (fun l hl => ⟨(List.mem_append.mp hl).elim (fun h => validUtf8_of_isText (hc l h).1)
      fun h => validUtf8_of_isText (hlast l (Option.mem_toList.mp h)).1.1, hm l hl⟩) hd
  refine ⟨res, ?_, ?_⟩
  · rw [readFromObj, textLines_fileText last hlast lines hc]
    exact hr
  · rw [sceneOf, fileMeans, ho]
    exact hf

/-- C57 (partial: single blanks, every corner with its normal), where any corner may leave out its uv: all vertices and
normals, and every uv that is in the file, are read as the file describes them. -/
theorem C57_optional_uv_partial (ft : FloatText fo) (b : Build) (lines : List (TextLine fo.F)) (last : Option (TextLine fo.F))
    (hc : ∀ l ∈ lines, LineChars l.text) (hlast : ∀ l ∈ last, LineChars l.text ∧ l.text ≠ [])
    (hm : ∀ l ∈ lines ++ last.toList, LineMeans ft l.text l.means) (hd : DefinedSome Scene.start (fileMeans lines last)) :
    ∃ res, readFromObj ft Importer.pushFace b (fileText lines last) = .ok res ∧
      List.Forall₂ ReadWithout res (delivered (sceneOf (fileMeans lines last)).objects) :=
  scene_read_without (pushFaceWith_triangles _) b lines last hc hlast hm hd

/-- The same with the feature "triangulation". -/
theorem C57_optional_uv_triangulation_partial (ft : FloatText fo) (acos : fo.F → fo.F) (b : Build) (lines : List (TextLine fo.F))
    (last : Option (TextLine fo.F)) (hc : ∀ l ∈ lines, LineChars l.text) (hlast : ∀ l ∈ last, LineChars l.text ∧ l.text ≠ [])
    (hm : ∀ l ∈ lines ++ last.toList, LineMeans ft l.text l.means) (hd : DefinedSome Scene.start (fileMeans lines last)) :
    ∃ res, readFromObj ft (Importer.pushFaceTri fo acos) b (fileText lines last) = .ok res ∧
      List.Forall₂ ReadWithout res (delivered (sceneOf (fileMeans lines last)).objects) :=
  scene_read_without (pushFaceWith_triangles _) b lines last hc hlast hm hd

/-- A file without uvs. -/
def plainLines : List (TextLine (Ieee.Val Ieee.b32)) :=
  [plainLine "v 0 0 0" (.vertex (num "0", num "0", num "0")),
   plainLine "v 1 0 0" (.vertex (num "1", num "0", num "0")),
   plainLine "v 0 1 0" (.vertex (num "0", num "1", num "0")),
   plainLine "vn 0 0 1" (.normal (num "0", num "0", num "1")),
   plainLine "f 1//1 2//1 3//1" (.face ⟨1, none, some 1⟩ ⟨2, none, some 1⟩ ⟨3, none, some 1⟩)]

theorem plain_means (lib : Ieee.Libm) : ∀ l ∈ plainLines, LineMeans (Ieee.floatText lib) l.text l.means := by
  have sp : ∀ s : String, IsWord (ascii s) → (Ieee.parseVal (ascii s) : Option (Ieee.Val Ieee.b32)) = some (num s) →
    Spells (Ieee.floatText lib) (ascii s) (num s) := fun s h1 h2 => ⟨h1, h2⟩
  have h0 := sp "0" (by unfold IsWord; decide) (by decide +kernel)
  have h1 := sp "1" (by unfold IsWord; decide) (by decide +kernel)
  intro l hl
  simp only [plainLines, List.mem_cons, List.not_mem_nil, or_false] at hl
  rcases hl with rfl | rfl | rfl | rfl | rfl
  · exact .vertex (fo := Ieee.ops lib) (ft := Ieee.floatText lib) (rest := []) (x := (num "0", num "0", num "0")) h0 h0 h0 (.inl rfl)
  · exact .vertex (fo := Ieee.ops lib) (ft := Ieee.floatText lib) (rest := []) (x := (num "1", num "0", num "0")) h1 h0 h0 (.inl rfl)
  · exact .vertex (fo := Ieee.ops lib) (ft := Ieee.floatText lib) (rest := []) (x := (num "0", num "1", num "0")) h0 h1 h0 (.inl rfl)
  · exact .normal (fo := Ieee.ops lib) (ft := Ieee.floatText lib) (rest := []) (x := (num "0", num "0", num "1")) h0 h0 h1 (.inl rfl)
  · exact .face (a := ⟨1, none, some 1⟩) (b := ⟨2, none, some 1⟩) (c := ⟨3, none, some 1⟩) (rest := []) (.inl rfl)

theorem plain_chars : ∀ l ∈ plainLines, LineChars l.text := by
  have e : ∀ l : List UInt8, LineChars l ↔ validUtf8 l = true ∧ (∀ c ∈ l, c ≠ 10) ∧ l.getLast? ≠ some 13 := by
    intro l
    rw [LineChars, validUtf8_iff]
  simp only [e]
  decide +kernel

theorem plain_defined : DefinedSome Scene.start (fileMeans plainLines none) := by
  simp only [fileMeans, plainLines, plainLine, Option.toList_none, List.append_nil, List.map_cons,
    List.map_nil, DefinedSome, Scene.step, Scene.start, ObjLine.face.injEq, reduceCtorEq, false_implies, implies_true, true_and, and_true]
  rintro a b c ⟨rfl, rfl, rfl⟩
  simp [Scene.DefinesSome]

/-- The hypotheses can be met, by a file without uvs. -/
example (lib : Ieee.Libm) (b : Build) : ∃ res, readFromObj (Ieee.floatText lib) Importer.pushFace b (fileText plainLines none) = .ok res ∧
    List.Forall₂ ReadWithout res (delivered (sceneOf (fileMeans plainLines none)).objects) :=
  C57_optional_uv_partial (Ieee.floatText lib) b plainLines none plain_chars nofun
    (by rw [Option.toList_none, List.append_nil]; exact plain_means lib) plain_defined

/-- C57 is false for the uvs: a file without uvs is read as a mesh whose uv indices all point at a first uv that is not there. -/
theorem C57_no_uv_violated (ft : FloatText fo) (b : Build) {z o : fo.F} (hz : ft.parse (ascii "0") = some z) (ho : ft.parse (ascii "1") = some o) :
    ∃ m, readFromObj ft Importer.pushFace b (ascii "v 0 0 0\nv 1 0 0\nv 0 1 0\nvn 0 0 1\nf 1//1 2//1 3//1\n") = .ok [(m, [])] ∧
      m.vertices = some [(z, z, z), (o, z, z), (z, o, z)] ∧ m.uvs = some [] ∧ m.uvTriangles = some [0, 0, 0] ∧ ¬ HasFaces m := by
  have w0 : Spells ft (ascii "0") z := ⟨by unfold IsWord; decide, hz⟩
  have w1 : Spells ft (ascii "1") o := ⟨by unfold IsWord; decide, ho⟩
  have t1 : textLines (ascii "v 0 0 0\nv 1 0 0\nv 0 1 0\nvn 0 0 1\nf 1//1 2//1 3//1\n") =
    [ascii "v " ++ ascii "0" ++ [32] ++ ascii "0" ++ [32] ++ ascii "0" ++ [], ascii "v " ++ ascii "1" ++ [32] ++ ascii "0" ++ [32] ++ ascii "0" ++ [],
      ascii "v " ++ ascii "0" ++ [32] ++ ascii "1" ++ [32] ++ ascii "0" ++ [], ascii "vn " ++ ascii "0" ++ [32] ++ ascii "0" ++ [32] ++ ascii "1" ++ [],
      ascii "f " ++ (Pick.mk 0 none 0).corner.render ++ [32] ++ (Pick.mk 1 none 0).corner.render ++ [32] ++ (Pick.mk 2 none 0).corner.render ++ []] := by
    decide +kernel
  have sm : ∀ v, v < 3 → (Pick.mk v none 0).Small := fun v hv => ⟨by show v + 1 < _; omega, nofun, by show 0 + 1 < _; decide⟩
  refine ⟨{ (Mesh.empty : Mesh fo.F) with
    vertices := some [(z, z, z), (o, z, z), (z, o, z)], normals := some [(z, z, o)], uvs := some [], vertexTriangles := some [0, 1, 2],
    normalTriangles := some [0, 0, 0], uvTriangles := some [0, 0, 0] }, ?_, rfl, rfl, rfl, fun h => ?_⟩
  · rw [readFromObj, t1, readObjLoop, parseLine_means_vertex (x := (z, z, z)) ft _ b _ w0 w0 w0 (.inl rfl) (by decide +kernel)]
    simp only [bind, Outcome.bind]
    rw [readObjLoop, parseLine_means_vertex (x := (o, z, z)) ft _ b _ w1 w0 w0 (.inl rfl) (by decide +kernel)]
    simp only [bind, Outcome.bind]
    rw [readObjLoop, parseLine_means_vertex (x := (z, o, z)) ft _ b _ w0 w1 w0 (.inl rfl) (by decide +kernel)]
    simp only [bind, Outcome.bind]
    rw [readObjLoop, parseLine_means_normal (x := (z, z, o)) ft _ b _ w0 w0 w1 (.inl rfl) (by decide +kernel)]
    simp only [bind, Outcome.bind]
    rw [readObjLoop, parseLine_pick_face ft _ b _ _ _ _ (sm 0 (by decide)) (sm 1 (by decide)) (sm 2 (by decide)) (.inl rfl) (by decide +kernel)]
    cases b <;> rfl
  · exact absurd ((h.uvs _ rfl).2 0 (by simp)).1 (by simp)

/-- A line with an `f` and other than nine to eleven numbers is refused. -/
theorem face_refused (ft : FloatText fo) (b : Build) {text line : List UInt8} (h : HasLine text line) {ns : List Nat}
    (hs : splitBytes isObjSep line = ascii "f" :: ns.map decimal) (hn : ∀ n ∈ ns, 1 ≤ n ∧ n < 2 ^ 32) (hl : ns.length / 3 ≠ 3) :
    ∃ e, readFromObj ft Importer.pushFace b text = .err e := by
  refine readFromObj_refused ft pushFace_ne_panic b h ?_
  intro oi r he
  rw [parseLine] at he
  split_ifs at he
  rw [hs] at he
  have e1 : ascii "f" ≠ ascii "v" := by decide
  have e2 : ascii "f" ≠ ascii "vn" := by decide
  have e3 : ascii "f" ≠ ascii "vt" := by decide
  simp only [nextWord, bind, Outcome.bind, parseWords, if_neg e1, if_neg e2, if_neg e3, if_true] at he
  obtain ⟨oi', hl', _⟩ := bind_ok_inv (x := loadFace Importer.pushFace (ns.map decimal) oi) he
  obtain ⟨v', u', n', e, hv, _, _⟩ := loadFaceLoop_count ((ns.map decimal).length + 1) (ns.map decimal) [] [] [] (by omega) (by
    intro w hw
    obtain ⟨n, hm, rfl⟩ := List.mem_map.mp hw
    rw [parseIndex_decimal (hn n hm).2]
    have := (hn n hm).1
    omega)
  rw [loadFace, e] at hl'
  have := pushFace_count hl'
  rw [List.length_nil, Nat.zero_add, List.length_map] at hv
  exact hl (by omega)

/-- C57 is false for corners without normal: a file with a face of three plain corners is refused, whatever else it holds. -/
theorem C57_plain_violated (ft : FloatText fo) (b : Build) (text : List UInt8) {i j k : Nat} (hi : 1 ≤ i ∧ i < 2 ^ 32) (hj : 1 ≤ j ∧ j < 2 ^ 32)
    (hk : 1 ≤ k ∧ k < 2 ^ 32) (h : HasLine text (ascii "f " ++ decimal i ++ [32] ++ decimal j ++ [32] ++ decimal k)) :
    ∃ e, readFromObj ft Importer.pushFace b text = .err e := by
  refine face_refused (ns := [i, j, k]) ft b h ?_ (by simpa using ⟨hi, hj, hk⟩) (by simp)
  rw [show ascii "f " ++ decimal i ++ [32] ++ decimal j ++ [32] ++ decimal k = ascii "f" ++ 32 :: (decimal i ++ 32 :: (decimal j ++ 32 :: decimal k)) by
    rw [show ascii "f " = ascii "f" ++ [32] by decide]; simp,
    splitBytes_sep cleanWord_f.seps (.inl rfl), splitBytes_sep (decimal_clean _).seps (.inl rfl), splitBytes_sep (decimal_clean _).seps (.inl rfl),
    splitBytes_clean (decimal_clean _).seps]
  rfl

/-- Likewise a face of three corners with uv but without normal. -/
theorem C57_no_normal_violated (ft : FloatText fo) (b : Build) (text : List UInt8) {i j k u v w : Nat} (hi : 1 ≤ i ∧ i < 2 ^ 32)
    (hj : 1 ≤ j ∧ j < 2 ^ 32) (hk : 1 ≤ k ∧ k < 2 ^ 32) (hu : 1 ≤ u ∧ u < 2 ^ 32) (hv : 1 ≤ v ∧ v < 2 ^ 32) (hw : 1 ≤ w ∧ w < 2 ^ 32)
    (h : HasLine text (ascii "f " ++ (ObjCorner.mk i (some u) none).render ++ [32] ++ (ObjCorner.mk j (some v) none).render ++ [32] ++
      (ObjCorner.mk k (some w) none).render)) : ∃ e, readFromObj ft Importer.pushFace b text = .err e := by
  refine face_refused (ns := [i, u, j, v, k, w]) ft b h ?_ (by simpa using ⟨hi, hu, hj, hv, hk, hw⟩) (by simp)
  simp only [ObjCorner.render]
  rw [show ascii "f " ++ (decimal i ++ [47] ++ decimal u) ++ [32] ++ (decimal j ++ [47] ++ decimal v) ++ [32] ++ (decimal k ++ [47] ++ decimal w) =
      ascii "f" ++ 32 :: (decimal i ++ 47 :: (decimal u ++ 32 :: (decimal j ++ 47 :: (decimal v ++ 32 :: (decimal k ++ 47 :: decimal w))))) by
    rw [show ascii "f " = ascii "f" ++ [32] by decide]; simp,
    splitBytes_sep cleanWord_f.seps (.inl rfl), splitBytes_sep (decimal_clean _).seps (.inr rfl), splitBytes_sep (decimal_clean _).seps (.inl rfl),
    splitBytes_sep (decimal_clean _).seps (.inr rfl), splitBytes_sep (decimal_clean _).seps (.inl rfl),
    splitBytes_sep (decimal_clean _).seps (.inr rfl), splitBytes_clean (decimal_clean _).seps]
  rfl

/-- There are files with such lines. -/
example : HasLine (ascii "v 0 0 0\nf 1 1 1\n") (ascii "f " ++ decimal 1 ++ [32] ++ decimal 1 ++ [32] ++ decimal 1) ∧
    HasLine (ascii "f 1/2 1/2 1/2\n") (ascii "f " ++ (ObjCorner.mk 1 (some 2) none).render ++ [32] ++ (ObjCorner.mk 1 (some 2) none).render ++ [32] ++
      (ObjCorner.mk 1 (some 2) none).render) :=
  ⟨⟨by decide +kernel, ascii "v 0 0 0\n", [], by decide +kernel, .inr ⟨ascii "v 0 0 0", by decide⟩⟩,
    ⟨by decide +kernel, [], [], by decide +kernel, .inl rfl⟩⟩

end Tmf.Props
