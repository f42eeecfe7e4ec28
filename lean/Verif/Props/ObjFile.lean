import Verif.Lemmas.ObjFace
import Verif.Model.FloatText
import Verif.Props.Obj
/-
C57 to C59: .obj files as other programs write them, their faces, and refused exports.
-/

namespace Tmf.Props
open Spec

variable {fo : FloatOps}

/-! ### C57 -/

theorem scene_read {ft : FloatText fo} {face : PushFace fo.F} (hp : PushesTriangles face) (b : Build) (lines : List (TextLine fo.F))
    (last : Option (TextLine fo.F)) (hc : ∀ l ∈ lines, LineChars l.text) (hlast : ∀ l ∈ last, LineChars l.text ∧ l.text ≠ [])
    (hm : ∀ l ∈ lines ++ last.toList, LineMeans ft l.text l.means) (hd : Defined Scene.start (fileMeans lines last)) :
    ∃ res, readFromObj ft face b (fileText lines last) = .ok res ∧
      List.Forall₂ ReadAs res (delivered (sceneOf (fileMeans lines last)).objects) := by
  have ht : Tracks (Importer.new : Importer fo.F) Scene.start [] [] := by
    constructor <;> first | rfl | exact fun i hi => absurd hi List.not_mem_nil
  obtain ⟨res, rest, hr, ho, _, hf, _⟩ := readObjLoop_file hp b (lines ++ last.toList) .new Scene.start [] [] ht
    (fun l hl => ⟨(List.mem_append.mp hl).elim (fun h => validUtf8_of_isText (hc l h).1)
      fun h => validUtf8_of_isText (hlast l (Option.mem_toList.mp h)).1.1, hm l hl⟩) hd
  refine ⟨res, ?_, ?_⟩
  · rw [readFromObj, textLines_fileText last hlast lines hc]
    exact hr
  · rw [sceneOf, fileMeans, ho]
    exact hf.imp fun _ _ h => h.read

/-- C57 (partial: a single blank between words, every corner with its uv and its normal, numbers
counted from the start of the file and defined before). A file is read, and it gives the objects the
file describes: of every object that has faces, and of the last, the name and exactly its triangles
in order, each corner with the vertex, uv and normal its numbers stand for. Vertices, normals and uvs
may come in any order and be used by any later object; comments, other kinds of lines, further words
and either line end change nothing; the line end after the last line may be missing. -/
theorem C57_scene_partial (ft : FloatText fo) (b : Build) (lines : List (TextLine fo.F)) (last : Option (TextLine fo.F))
    (hc : ∀ l ∈ lines, LineChars l.text) (hlast : ∀ l ∈ last, LineChars l.text ∧ l.text ≠ [])
    (hm : ∀ l ∈ lines ++ last.toList, LineMeans ft l.text l.means) (hd : Defined Scene.start (fileMeans lines last)) :
    ∃ res, readFromObj ft Importer.pushFace b (fileText lines last) = .ok res ∧
      List.Forall₂ ReadAs res (delivered (sceneOf (fileMeans lines last)).objects) :=
  scene_read (pushFaceWith_triangles _) b lines last hc hlast hm hd

/-- C57 with the feature "triangulation" (partial as above). -/
theorem C57_scene_triangulation_partial (ft : FloatText fo) (acos : fo.F → fo.F) (b : Build) (lines : List (TextLine fo.F))
    (last : Option (TextLine fo.F)) (hc : ∀ l ∈ lines, LineChars l.text) (hlast : ∀ l ∈ last, LineChars l.text ∧ l.text ≠ [])
    (hm : ∀ l ∈ lines ++ last.toList, LineMeans ft l.text l.means) (hd : Defined Scene.start (fileMeans lines last)) :
    ∃ res, readFromObj ft (Importer.pushFaceTri fo acos) b (fileText lines last) = .ok res ∧
      List.Forall₂ ReadAs res (delivered (sceneOf (fileMeans lines last)).objects) :=
  scene_read (pushFaceWith_triangles _) b lines last hc hlast hm hd

/-- Reading one mesh succeeds exactly if the file gives one, and gives that one. -/
theorem C57_one (ft : FloatText fo) (face : PushFace fo.F) (b : Build) (text : List UInt8) (m : Mesh fo.F × List UInt8) :
    readFromObjOne ft face b text = .ok m ↔ readFromObj ft face b text = .ok [m] := by
  rw [readFromObjOne]
  cases readFromObj ft face b text with
  | err e => simp [bind, Outcome.bind]
  | panic => simp [bind, Outcome.bind]
  | ok ms =>
    match ms with
    | [] => simp [bind, Outcome.bind]
    | [m'] => simp [bind, Outcome.bind]
    | _ :: _ :: _ => simp [bind, Outcome.bind]

/-- An IEEE number from its text. -/
def num (s : String) : Ieee.Val Ieee.b32 := (Ieee.parseVal (ascii s)).getD .nan

/-- A line for the example. -/
def plainLine (s : String) (means : ObjLine (Ieee.Val Ieee.b32)) : TextLine (Ieee.Val Ieee.b32) := ⟨ascii s, false, means⟩

/-- A corner for the example. -/
def fullCorner (v u n : Nat) : ObjCorner := ⟨v, some u, some n⟩

/-- A file for the example. -/
def sampleLines : List (TextLine (Ieee.Val Ieee.b32)) :=
  [⟨ascii "# two triangles", true, .smooth⟩,
   plainLine "v 0 0 0" (.vertex (num "0", num "0", num "0")),
   plainLine "v 1.5 0 0 1.0" (.vertex (num "1.5", num "0", num "0")),
   plainLine "vn 0 0 1" (.normal (num "0", num "0", num "1")),
   plainLine "vt 0.25 1e-3" (.uv (num "0.25", num "1e-3")),
   plainLine "v 0 -2 0" (.vertex (num "0", num "-2", num "0")),
   plainLine "usemtl red" .smooth,
   plainLine "f 1/1/1 2/1/1 3/1/1 " (.face (fullCorner 1 1 1) (fullCorner 2 1 1) (fullCorner 3 1 1)),
   plainLine "o empty" (.object (ascii "empty")),
   ⟨ascii "o second", true, .object (ascii "second")⟩]

def sampleLast : TextLine (Ieee.Val Ieee.b32) := plainLine "f 3/1/1 2/1/1 1/1/1" (.face (fullCorner 3 1 1) (fullCorner 2 1 1) (fullCorner 1 1 1))

theorem sample_means (lib : Ieee.Libm) : ∀ l ∈ sampleLines ++ [sampleLast], LineMeans (Ieee.floatText lib) l.text l.means := by
  have sp : ∀ s : String, IsWord (ascii s) → (Ieee.parseVal (ascii s) : Option (Ieee.Val Ieee.b32)) = some (num s) →
    Spells (Ieee.floatText lib) (ascii s) (num s) := fun s h1 h2 => ⟨h1, h2⟩
  have h0 := sp "0" (by unfold IsWord; decide) (by decide +kernel)
  have h1 := sp "1" (by unfold IsWord; decide) (by decide +kernel)
  have h2 := sp "1.5" (by unfold IsWord; decide) (by decide +kernel)
  have h3 := sp "0.25" (by unfold IsWord; decide) (by decide +kernel)
  have h4 := sp "1e-3" (by unfold IsWord; decide) (by decide +kernel)
  have h5 := sp "-2" (by unfold IsWord; decide) (by decide +kernel)
  intro l hl
  simp only [sampleLines, List.cons_append, List.nil_append, List.mem_cons, List.not_mem_nil, or_false] at hl
  rcases hl with rfl | rfl | rfl | rfl | rfl | rfl | rfl | rfl | rfl | rfl | rfl
  · exact .nothing (by decide +kernel)
  · exact .vertex (fo := Ieee.ops lib) (ft := Ieee.floatText lib) (rest := []) (x := (num "0", num "0", num "0")) h0 h0 h0 (.inl rfl)
  · exact .vertex (fo := Ieee.ops lib) (ft := Ieee.floatText lib) (rest := ascii " 1.0") (x := (num "1.5", num "0", num "0")) h2 h0 h0 (.inr ⟨ascii "1.0", rfl⟩)
  · exact .normal (fo := Ieee.ops lib) (ft := Ieee.floatText lib) (rest := []) (x := (num "0", num "0", num "1")) h0 h0 h1 (.inl rfl)
  · exact .uv (fo := Ieee.ops lib) (ft := Ieee.floatText lib) (rest := []) (x := (num "0.25", num "1e-3")) h3 h4 (.inl rfl)
  · exact .vertex (fo := Ieee.ops lib) (ft := Ieee.floatText lib) (rest := []) (x := (num "0", num "-2", num "0")) h0 h5 h0 (.inl rfl)
  · exact .nothing (by decide +kernel)
  · exact .face (a := fullCorner 1 1 1) (b := fullCorner 2 1 1) (c := fullCorner 3 1 1) (.inr rfl)
  · exact .object (name := ascii "empty") (rest := []) (by unfold IsWord; decide) (.inl rfl)
  · exact .object (name := ascii "second") (rest := []) (by unfold IsWord; decide) (.inl rfl)
  · exact .face (a := fullCorner 3 1 1) (b := fullCorner 2 1 1) (c := fullCorner 1 1 1) (rest := []) (.inl rfl)

theorem sample_chars : (∀ l ∈ sampleLines, LineChars l.text) ∧ LineChars sampleLast.text ∧ sampleLast.text ≠ [] := by
  have e : ∀ l : List UInt8, LineChars l ↔ validUtf8 l = true ∧ (∀ c ∈ l, c ≠ 10) ∧ l.getLast? ≠ some 13 := by
    intro l
    rw [LineChars, validUtf8_iff]
  simp only [e]
  decide +kernel

theorem sample_defined : Defined Scene.start (fileMeans sampleLines (some sampleLast)) := by
  simp only [fileMeans, sampleLines, sampleLast, plainLine, Option.toList_some, List.cons_append, List.nil_append, List.map_cons,
    List.map_nil, Defined, Scene.step, Scene.start, ObjLine.face.injEq, reduceCtorEq, false_implies, implies_true, true_and, and_true]
  constructor <;>
  · rintro a b c ⟨rfl, rfl, rfl⟩
    simp [Scene.Defines, fullCorner]

def sampleText : String :=
  "# two triangles\r\nv 0 0 0\nv 1.5 0 0 1.0\nvn 0 0 1\nvt 0.25 1e-3\nv 0 -2 0\nusemtl red\nf 1/1/1 2/1/1 3/1/1 \no empty\no second\r\nf 3/1/1 2/1/1 1/1/1"

theorem sample_text : ascii sampleText = fileText sampleLines (some sampleLast) := by decide +kernel

/-- The hypotheses of C57 can be met: a comment, both line ends, further words, an object without
faces, and no line end at the end. -/
example (lib : Ieee.Libm) (b : Build) : ∃ res,
    readFromObj (Ieee.floatText lib) Importer.pushFace b (ascii sampleText) = .ok res ∧ res.map Prod.snd = [[], ascii "second"] := by
  obtain ⟨res, h, hf⟩ := C57_scene_partial (Ieee.floatText lib) b sampleLines (some sampleLast) sample_chars.1
    (by intro l hl; cases hl; exact sample_chars.2) (sample_means lib) sample_defined
  refine ⟨res, ?_, ?_⟩
  · rw [← h]
    exact congrArg _ sample_text
  · have e : (delivered (sceneOf (fileMeans sampleLines (some sampleLast))).objects).map Prod.fst = [[], ascii "second"] := by
      decide +kernel
    rw [← e]
    clear e h
    generalize delivered (sceneOf (fileMeans sampleLines (some sampleLast))).objects = os at hf ⊢
    induction hf with
    | nil => rfl
    | cons h1 _ ih => rw [List.map_cons, List.map_cons, h1.name, ih]

/-- Two blanks after the first word, as some programs write, are not understood: such a file is
refused, whatever else it holds. -/
theorem C57_double_blank_violated (ft : FloatText fo) (hempty : ft.parse [] = none) (b : Build) (text rest : List UInt8)
    (h : HasLine text (ascii "v  " ++ rest)) : ∃ e, readFromObj ft Importer.pushFace b text = .err e := by
  refine readFromObj_refused ft pushFace_ne_panic b h ?_
  intro oi r he
  have hs : splitBytes isObjSep (ascii "v  " ++ rest) = ascii "v" :: [] :: splitBytes isObjSep rest := by
    rw [show ascii "v  " ++ rest = ascii "v" ++ 32 :: ([] ++ 32 :: rest) from rfl, splitBytes_sep (by decide) (.inl rfl),
      splitBytes_sep (by decide) (.inl rfl)]
  rw [parseLine] at he
  split_ifs at he
  rw [hs] at he
  obtain ⟨⟨beg, ws⟩, hw, he⟩ := bind_ok_inv he
  cases hw
  simp only [parseWords, if_true] at he
  obtain ⟨x, hx, _⟩ := bind_ok_inv he
  rw [loadVec3] at hx
  obtain ⟨⟨w0, ws⟩, h0, hx⟩ := bind_ok_inv hx
  cases h0
  obtain ⟨⟨w1, ws⟩, h1, hx⟩ := bind_ok_inv hx
  obtain ⟨⟨w2, ws⟩, h2, hx⟩ := bind_ok_inv hx
  obtain ⟨y, hy, _⟩ := bind_ok_inv hx
  rw [parseFloat, hempty] at hy
  cases hy

example (lib : Ieee.Libm) : (Ieee.floatText lib).parse [] = none ∧ HasLine (ascii "o a\nv  1 2 3\n") (ascii "v  " ++ ascii "1 2 3") := by
  refine ⟨?_, by decide, ascii "o a\n", [], by decide, .inr ⟨ascii "o a", by decide⟩⟩
  show Ieee.parseVal [] = none
  decide +kernel

/-! ### C58 -/

/-- C58, whatever the file: every mesh read has all three index arrays, of the same length, and it is
a multiple of three. -/
theorem C58_whole (ft : FloatText fo) (b : Build) (text : List UInt8) (ms : List (Mesh fo.F × List UInt8))
    (h : readFromObj ft Importer.pushFace b text = .ok ms) : ∀ m ∈ ms, WholeTriangles m.1 :=
  readObjLoop_whole ft pushFace_whole b _ _ _ ⟨rfl, rfl, 0, rfl⟩ h

/-- The same with the feature "triangulation". -/
theorem C58_whole_triangulation (ft : FloatText fo) (acos : fo.F → fo.F) (b : Build) (text : List UInt8)
    (ms : List (Mesh fo.F × List UInt8)) (h : readFromObj ft (Importer.pushFaceTri fo acos) b text = .ok ms) :
    ∀ m ∈ ms, WholeTriangles m.1 :=
  readObjLoop_whole ft (pushFaceTri_whole acos) b _ _ _ ⟨rfl, rfl, 0, rfl⟩ h

/-- C58 (partial: no word is the number zero). A file with a face of more or fewer than three corners,
counting three words as a corner, is refused. -/
theorem C58_corners_partial (ft : FloatText fo) (b : Build) (text : List UInt8) (ws : List (List UInt8)) (h : HasLine text (faceLine ws))
    (hw : ∀ w ∈ ws, AsciiWord w ∧ ¬ IsZero w) (hn : ws.length / 3 ≠ 3) : ∃ e, readFromObj ft Importer.pushFace b text = .err e := by
  refine readFromObj_refused ft pushFace_ne_panic b h ?_
  intro oi r he
  rw [parseLine_faceLine ft _ b fun w h => (hw w h).1] at he
  obtain ⟨oi', hl, _⟩ := bind_ok_inv he
  obtain ⟨v', u', n', e, hv, _, _⟩ := loadFaceLoop_count (ws.length + 1) ws [] [] [] (by omega)
    fun w h hz => (hw w h).2 (parseIndex_zero hz)
  rw [loadFace, e] at hl
  have := pushFace_count hl
  rw [List.length_nil, Nat.zero_add] at hv
  exact hn (by omega)

/-- A square. -/
example : ∃ ws, HasLine (ascii "o a\nf 1 1 1 2 2 2 3 3 3 4 4 4\n") (faceLine ws) ∧ (∀ w ∈ ws, AsciiWord w ∧ ¬ IsZero w) ∧
    ws.length / 3 ≠ 3 := by
  refine ⟨[ascii "1", ascii "1", ascii "1", ascii "2", ascii "2", ascii "2", ascii "3", ascii "3", ascii "3", ascii "4", ascii "4",
    ascii "4"], ⟨by decide, ascii "o a\n", [], by decide, .inr ⟨ascii "o a", by decide⟩⟩, ?_, by decide⟩
  intro w hw
  simp only [List.mem_cons, List.not_mem_nil, or_false] at hw
  have hz : ∀ c : UInt8, c ≠ 48 → ¬ IsZero [c] := by
    rintro c hc ⟨k, hk | hk⟩
    · rw [List.replicate_succ] at hk
      exact hc (List.cons.inj hk).1
    · rw [List.replicate_succ] at hk
      simp at hk
  rcases hw with rfl | rfl | rfl | rfl | rfl | rfl | rfl | rfl | rfl | rfl | rfl | rfl <;>
    exact ⟨by unfold AsciiWord; decide, hz _ (by decide)⟩

/-- Slashes and blanks are the same to the reader. -/
theorem C58_slashes (ft : FloatText fo) (face : PushFace fo.F) (b : Build) (text : List UInt8) :
    readFromObj ft face b (slashesToBlanks text) = readFromObj ft face b text := by
  rw [readFromObj, readFromObj, textLines, textLines, ← readObjLoop_blank ft face b (textLinesAux [] text), ← textLinesAux_blank]
  rfl

/-- So C58 is false: a polygon of nine corners without uvs and normals is read like a triangle. -/
theorem C58_nine_violated (ft : FloatText fo) (face : PushFace fo.F) (b : Build) :
    readFromObj ft face b (ascii "f 1 2 3 4 5 6 7 8 9\n") = readFromObj ft face b (ascii "f 1/2/3 4/5/6 7/8/9\n") := by
  rw [← C58_slashes ft face b (ascii "f 1/2/3 4/5/6 7/8/9\n")]
  congr 1

/-- C58 is also false for words that are not numbers: each of them counts as 1. -/
theorem C58_not_numbers_violated (ft : FloatText fo) (face : PushFace fo.F) (b : Build) (pre post : List UInt8)
    (hpre : pre = [] ∨ ∃ p, pre = p ++ [10]) (ws : List (List UInt8)) (hw : ∀ w ∈ ws, AsciiWord w) :
    readFromObj ft face b (pre ++ faceLine ws ++ 10 :: post) = readFromObj ft face b (pre ++ faceLine (ws.map orOne) ++ 10 :: post) := by
  refine readFromObj_values ft face b hpre hw ?_ ?_
  · intro w h
    obtain ⟨w, hw', rfl⟩ := List.mem_map.mp h
    exact orOne_ascii (hw w hw')
  · intro oi
    apply loadFace_values
    rw [List.map_map]
    exact List.map_congr_left fun w _ => (parseIndex_orOne w).symm

/-- For example numbers that count from the end: `-1` and `-2` name the first vertex. -/
theorem C58_negative_violated (ft : FloatText fo) (face : PushFace fo.F) (b : Build) (pre post : List UInt8)
    (hpre : pre = [] ∨ ∃ p, pre = p ++ [10]) :
    readFromObj ft face b (pre ++ ascii "f -3 -1 -1 -2 -1 -1 -1 -1 -1" ++ 10 :: post) =
      readFromObj ft face b (pre ++ ascii "f 1 1 1 1 1 1 1 1 1" ++ 10 :: post) := by
  have h := C58_not_numbers_violated ft face b pre post hpre
    [ascii "-3", ascii "-1", ascii "-1", ascii "-2", ascii "-1", ascii "-1", ascii "-1", ascii "-1", ascii "-1"]
    (by unfold AsciiWord; decide)
  have e1 : faceLine [ascii "-3", ascii "-1", ascii "-1", ascii "-2", ascii "-1", ascii "-1", ascii "-1", ascii "-1", ascii "-1"] =
    ascii "f -3 -1 -1 -2 -1 -1 -1 -1 -1" := by decide
  have e2 : faceLine ([ascii "-3", ascii "-1", ascii "-1", ascii "-2", ascii "-1", ascii "-1", ascii "-1", ascii "-1", ascii "-1"].map orOne) =
    ascii "f 1 1 1 1 1 1 1 1 1" := by decide +kernel
  rw [e1, e2] at h
  exact h

/-- And a missing uv is read as the first uv, whether there is one or not. -/
theorem C58_missing_uv_violated (ft : FloatText fo) (face : PushFace fo.F) (b : Build) (pre post : List UInt8)
    (hpre : pre = [] ∨ ∃ p, pre = p ++ [10]) :
    readFromObj ft face b (pre ++ ascii "f 1//1 2//1 3//1" ++ 10 :: post) =
      readFromObj ft face b (pre ++ ascii "f 1/1/1 2/1/1 3/1/1" ++ 10 :: post) := by
  have e1 : (ascii "f 1//1 2//1 3//1").map blank =
    faceLine [ascii "1", [], ascii "1", ascii "2", [], ascii "1", ascii "3", [], ascii "1"] := by decide +kernel
  have e2 : (ascii "f 1/1/1 2/1/1 3/1/1").map blank =
    faceLine [ascii "1", ascii "1", ascii "1", ascii "2", ascii "1", ascii "1", ascii "3", ascii "1", ascii "1"] := by decide +kernel
  refine readFromObj_exchange ft face b hpre (by decide) (by decide) fun oi => ?_
  rw [← parseLine_blank, e1, ← parseLine_blank ft face b (ascii "f 1/1/1 2/1/1 3/1/1"), e2,
    parseLine_faceLine ft face b (by unfold AsciiWord; decide), parseLine_faceLine ft face b (by unfold AsciiWord; decide)]
  congr 1

/-- Two blanks after the `f` shift all numbers: the empty word counts as 1. -/
theorem C58_double_blank_violated (ft : FloatText fo) (face : PushFace fo.F) (b : Build) (pre post : List UInt8)
    (hpre : pre = [] ∨ ∃ p, pre = p ++ [10]) :
    readFromObj ft face b (pre ++ ascii "f  2 2 2 3 3 3 4 4 4" ++ 10 :: post) =
      readFromObj ft face b (pre ++ ascii "f 1 2 2 2 3 3 3 4 4" ++ 10 :: post) := by
  have e1 : faceLine ([] :: [ascii "2", ascii "2", ascii "2", ascii "3", ascii "3", ascii "3", ascii "4", ascii "4", ascii "4"]) =
    ascii "f  2 2 2 3 3 3 4 4 4" := by decide
  have e2 : faceLine [ascii "1", ascii "2", ascii "2", ascii "2", ascii "3", ascii "3", ascii "3", ascii "4", ascii "4"] =
    ascii "f 1 2 2 2 3 3 3 4 4" := by decide
  rw [← e1, ← e2]
  refine readFromObj_values ft face b hpre (by unfold AsciiWord; decide) (by unfold AsciiWord; decide) fun oi => ?_
  rw [loadFace, loadFace]
  congr 1

/-- A zero ends the face: the fourth corner of a square is dropped without an error. -/
theorem C58_zero_violated (ft : FloatText fo) (face : PushFace fo.F) (b : Build) (pre post : List UInt8)
    (hpre : pre = [] ∨ ∃ p, pre = p ++ [10]) :
    readFromObj ft face b (pre ++ ascii "f 1 1 1 2 2 2 3 3 3 4 0 4" ++ 10 :: post) =
      readFromObj ft face b (pre ++ ascii "f 1 1 1 2 2 2 3 3 3" ++ 10 :: post) := by
  have e1 : faceLine [ascii "1", ascii "1", ascii "1", ascii "2", ascii "2", ascii "2", ascii "3", ascii "3", ascii "3", ascii "4",
    ascii "0", ascii "4"] = ascii "f 1 1 1 2 2 2 3 3 3 4 0 4" := by decide
  have e2 : faceLine [ascii "1", ascii "1", ascii "1", ascii "2", ascii "2", ascii "2", ascii "3", ascii "3", ascii "3"] =
    ascii "f 1 1 1 2 2 2 3 3 3" := by decide
  rw [← e1, ← e2]
  refine readFromObj_values ft face b hpre (by unfold AsciiWord; decide) (by unfold AsciiWord; decide) fun oi => ?_
  rw [loadFace, loadFace]
  congr 1

/-- These lines are read, so the violations are real: with three vertices, uvs and normals the face is
a triangle. -/
example (ft : FloatText fo) (b : Build) : ∃ ms, readFromObj ft Importer.pushFace b (ascii "f 1 1 1 2 2 2 3 3 3\n") = .ok ms := by
  have e : faceLine [ascii "1", ascii "1", ascii "1", ascii "2", ascii "2", ascii "2", ascii "3", ascii "3", ascii "3"] =
    ascii "f 1 1 1 2 2 2 3 3 3" := by decide
  have ht : textLines (ascii "f 1 1 1 2 2 2 3 3 3\n") =
    [faceLine [ascii "1", ascii "1", ascii "1", ascii "2", ascii "2", ascii "2", ascii "3", ascii "3", ascii "3"]] := by decide +kernel
  obtain ⟨m, hm⟩ := build_ne_panic b ((Importer.new : Importer fo.F).pushIndices [0, 1, 2] [0, 1, 2] [0, 1, 2])
  refine ⟨[(m, [])], ?_⟩
  have hl : loadFaceLoop 10 [ascii "1", ascii "1", ascii "1", ascii "2", ascii "2", ascii "2", ascii "3", ascii "3", ascii "3"] [] [] [] =
    .ok ([0, 1, 2], [0, 1, 2], [0, 1, 2]) := by decide +kernel
  rw [readFromObj, ht, readObjLoop, parseLine_faceLine ft _ b (by unfold AsciiWord; decide), loadFace]
  simp only [List.length_cons, List.length_nil, Nat.reduceAdd, hl, bind, Outcome.bind]
  rw [Importer.pushFace, pushFaceWith_triangles _ _ _ _ _ rfl rfl rfl]
  simp only [readObjLoop, Importer.finish, bind, Outcome.bind, hm]
  rfl

/-! ### C59 -/

/-- C59 in release builds: exporting fails exactly if the index arrays of some mesh do not belong
together, and otherwise succeeds. -/
theorem C59_refused_iff (ft : FloatText fo) (meshes : List (Mesh fo.F × List UInt8)) :
    ((∃ e, writeObj ft .wrapping meshes = .err e) ↔ ∃ m ∈ meshes, Mismatched m.1) ∧
      ((∃ text, writeObj ft .wrapping meshes = .ok text) ↔ ∀ m ∈ meshes, ¬ Mismatched m.1) := by
  rw [writeObj]
  rcases writeObjLoop_wrapping ft meshes (1, 1, 1) with ⟨⟨m, hm, hmm⟩, h⟩ | ⟨hall, t, h⟩
  · rw [h]
    exact ⟨⟨fun _ => ⟨m, hm, hmm⟩, fun _ => ⟨_, rfl⟩⟩, ⟨fun ⟨t, ht⟩ => (by cases ht), fun hall => absurd hmm (hall m hm)⟩⟩
  · rw [h]
    exact ⟨⟨fun ⟨e, he⟩ => (by cases he), fun ⟨m, hm, hmm⟩ => absurd hmm (hall m hm)⟩, ⟨fun _ => hall, fun _ => ⟨_, rfl⟩⟩⟩

/-- C59 in debug builds: the same, unless a number overflows. -/
theorem C59_debug (ft : FloatText fo) (meshes : List (Mesh fo.F × List UInt8)) :
    writeObj ft .checked meshes = .panic ∨ writeObj ft .checked meshes = writeObj ft .wrapping meshes := by
  rw [writeObj, writeObj]
  exact (writeObjLoop_sub ft meshes (1, 1, 1)).bind fun _ => .refl _

/-- Meshes of both kinds. -/
example (F : Type) : Mismatched { (Mesh.empty : Mesh F) with vertexTriangles := some [0, 1, 2], uvTriangles := some [0, 1] } ∧
    Mismatched { (Mesh.empty : Mesh F) with normalTriangles := some [0, 0, 0] } ∧
    ¬ Mismatched { (Mesh.empty : Mesh F) with vertexTriangles := some [0, 1, 2], uvTriangles := some [0, 1, 0] } := by
  refine ⟨.inr ⟨[0, 1], rfl, by decide⟩, .inl (by simp), ?_⟩
  rintro (⟨n, hn, _⟩ | ⟨u, hu, h⟩)
  · cases hn
  · cases hu
    exact h rfl

/-- C59 is false for incomplete triangles: a mesh with one corner is not refused, and the next object
continues its line. -/
theorem C59_incomplete_violated (ft : FloatText fo) (b : Build) :
    writeObj ft b [({ (Mesh.empty : Mesh fo.F) with vertexTriangles := some [0] }, ascii "a"), (Mesh.empty, ascii "b")] =
      .ok (ascii "s 1\no a\nf 1 o b\n") := by
  cases b <;> rfl

end Tmf.Props
