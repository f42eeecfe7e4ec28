import Verif.Lemmas.Polygon
import Verif.Props.ObjFile
/-
C80: .obj files with faces of any number of corners.
-/

namespace Tmf.Props
open Spec

variable {fo : FloatOps}

/-- C80: with the feature "triangulation" a file whose faces have three or more corners is read. Its faces can be
replaced by lines of triangles, which cut off the corners of the face one after the other and cover it if it has
four corners or fewer, such that the resulting file reads the same, also without the feature. The result has the
objects the resulting file describes. -/
theorem C80_polygons (ft : FloatText fo) (acos : fo.F → fo.F) (b : Build) (lines : List (PolyLine fo.F)) (last : Option (PolyLine fo.F))
    (hd : PolyDefined ft Scene.start (lines ++ last.toList)) (hlast : ∀ l ∈ last, l.line.text ≠ []) :
    ∃ tls res, List.Forall₂ Rewritten (lines ++ last.toList) tls ∧
      readFromObj ft (Importer.pushFaceTri fo acos) b (fileText (lines.map PolyLine.line) (last.map PolyLine.line)) = .ok res ∧
      readFromObj ft Importer.pushFace b (fileText tls.flatten none) = .ok res ∧
      readFromObj ft (Importer.pushFaceTri fo acos) b (fileText tls.flatten none) = .ok res ∧
      List.Forall₂ ReadAs res (delivered (sceneOf (tls.flatten.map TextLine.means)).objects) := by
  have ht : Tracks (Importer.new : Importer fo.F) Scene.start [] [] := by
    constructor <;> first | rfl | exact fun i hi => absurd hi List.not_mem_nil
  obtain ⟨tls, hr, he, hdef, hall⟩ := readObjLoop_polygons ft acos b _ .new Scene.start Scene.start [] [] ht rfl rfl rfl hd
  obtain ⟨res, hres, hf⟩ := C57_scene_partial ft b tls.flatten none (fun l hl => (hall l hl).1) (fun l hl => nomatch hl)
    (fun l hl => (hall l (by simpa using hl)).2) (by simpa [fileMeans] using hdef)
  have hchars : ∀ l ∈ lines ++ last.toList, LineChars l.line.text := polyDefined_chars _ _ hd
  have htext : ∀ face, readFromObj ft face b (fileText tls.flatten none) = readObjLoop ft face b (tls.flatten.map TextLine.text) .new := fun face => by
    rw [readFromObj, textLines_fileText none (fun l hl => nomatch hl) _ fun l hl => (hall l hl).1]
    simp
  have hpoly : readFromObj ft (Importer.pushFaceTri fo acos) b (fileText (lines.map PolyLine.line) (last.map PolyLine.line)) =
      readObjLoop ft (Importer.pushFaceTri fo acos) b ((lines ++ last.toList).map fun l => l.line.text) .new := by
    rw [readFromObj, textLines_fileText]
    · cases last <;> simp [Function.comp_def]
    · intro l hl
      rw [Option.mem_def, Option.map_eq_some_iff] at hl
      obtain ⟨k, rfl, rfl⟩ := hl
      exact ⟨hchars k (by simp), hlast k rfl⟩
    · intro l hl
      obtain ⟨k, hk, rfl⟩ := List.mem_map.mp hl
      exact hchars k (List.mem_append_left _ hk)
  have h1 : readObjLoop ft Importer.pushFace b (tls.flatten.map TextLine.text) .new = .ok res := (htext _).symm.trans hres
  have h2 := (he Importer.pushFace (pushFaceWith_triangles _)).trans h1
  refine ⟨tls, res, hr, hpoly.trans h2, hres, (htext _).trans ((he _ (pushFaceWith_triangles _)).symm.trans h2), ?_⟩
  simpa [fileMeans] using hf

/-- A file for the example: a quad and a pentagon. -/
def houseLines : List (PolyLine (Ieee.Val Ieee.b32)) :=
  [.plain (plainLine "o house" (.object (ascii "house"))),
   .plain (plainLine "v 0 0 0" (.vertex (num "0", num "0", num "0"))),
   .plain (plainLine "v 1 0 0" (.vertex (num "1", num "0", num "0"))),
   .plain (plainLine "v 1 1 0" (.vertex (num "1", num "1", num "0"))),
   .plain (plainLine "v 0.5 1.5 0" (.vertex (num "0.5", num "1.5", num "0"))),
   .plain (plainLine "v 0 1 0" (.vertex (num "0", num "1", num "0"))),
   .plain (plainLine "vn 0 0 1" (.normal (num "0", num "0", num "1"))),
   .plain (plainLine "vt 0 1" (.uv (num "0", num "1"))),
   .face [⟨0, 0, 0⟩, ⟨1, 0, 0⟩, ⟨2, 0, 0⟩, ⟨3, 0, 0⟩, ⟨4, 0, 0⟩] true false]

/-- The last line, without line end. -/
def houseLast : PolyLine (Ieee.Val Ieee.b32) := .face [⟨0, 0, 0⟩, ⟨1, 0, 0⟩, ⟨2, 0, 0⟩, ⟨4, 0, 0⟩] false false

theorem lineChars_of {text : List UInt8} (h : validUtf8 text = true ∧ (∀ c ∈ text, c ≠ 10) ∧ text.getLast? ≠ some 13) : LineChars text :=
  ⟨validUtf8_iff.mp h.1, h.2⟩

theorem polyDefined_plain {ft : FloatText fo} {s : Scene fo.F} {text : String} {l : ObjLine fo.F} {rest : List (PolyLine fo.F)} (hc : LineChars (ascii text))
    (hm : LineMeans ft (ascii text) l) (hn : ∀ a b c, l ≠ .face a b c) (hr : PolyDefined ft (s.step l) rest) :
    PolyDefined ft s (.plain ⟨ascii text, false, l⟩ :: rest) :=
  ⟨hc, hm, fun a b c h => absurd h (hn a b c), hr⟩

theorem house_defined (lib : Ieee.Libm) : PolyDefined (Ieee.floatText lib) Scene.start (houseLines ++ [houseLast]) := by
  have sp : ∀ s : String, IsWord (ascii s) → (Ieee.parseVal (ascii s) : Option (Ieee.Val Ieee.b32)) = some (num s) →
    Spells (Ieee.floatText lib) (ascii s) (num s) := fun s h1 h2 => ⟨h1, h2⟩
  have h0 := sp "0" (by unfold IsWord; decide) (by decide +kernel)
  have h1 := sp "1" (by unfold IsWord; decide) (by decide +kernel)
  have h2 := sp "1.5" (by unfold IsWord; decide) (by decide +kernel)
  have h3 := sp "0.5" (by unfold IsWord; decide) (by decide +kernel)
  refine polyDefined_plain (lineChars_of (by decide +kernel))
    (.object (name := ascii "house") (rest := []) (by unfold IsWord; decide) (.inl rfl)) (fun _ _ _ h => nomatch h) ?_
  refine polyDefined_plain (lineChars_of (by decide +kernel))
    (.vertex (fo := Ieee.ops lib) (ft := Ieee.floatText lib) (rest := []) (x := (num "0", num "0", num "0")) h0 h0 h0 (.inl rfl)) (fun _ _ _ h => nomatch h) ?_
  refine polyDefined_plain (lineChars_of (by decide +kernel))
    (.vertex (fo := Ieee.ops lib) (ft := Ieee.floatText lib) (rest := []) (x := (num "1", num "0", num "0")) h1 h0 h0 (.inl rfl)) (fun _ _ _ h => nomatch h) ?_
  refine polyDefined_plain (lineChars_of (by decide +kernel))
    (.vertex (fo := Ieee.ops lib) (ft := Ieee.floatText lib) (rest := []) (x := (num "1", num "1", num "0")) h1 h1 h0 (.inl rfl)) (fun _ _ _ h => nomatch h) ?_
  refine polyDefined_plain (lineChars_of (by decide +kernel))
    (.vertex (fo := Ieee.ops lib) (ft := Ieee.floatText lib) (rest := []) (x := (num "0.5", num "1.5", num "0")) h3 h2 h0 (.inl rfl)) (fun _ _ _ h => nomatch h) ?_
  refine polyDefined_plain (lineChars_of (by decide +kernel))
    (.vertex (fo := Ieee.ops lib) (ft := Ieee.floatText lib) (rest := []) (x := (num "0", num "1", num "0")) h0 h1 h0 (.inl rfl)) (fun _ _ _ h => nomatch h) ?_
  refine polyDefined_plain (lineChars_of (by decide +kernel))
    (.normal (fo := Ieee.ops lib) (ft := Ieee.floatText lib) (rest := []) (x := (num "0", num "0", num "1")) h0 h0 h1 (.inl rfl)) (fun _ _ _ h => nomatch h) ?_
  refine polyDefined_plain (lineChars_of (by decide +kernel))
    (.uv (fo := Ieee.ops lib) (ft := Ieee.floatText lib) (rest := []) (x := (num "0", num "1")) h0 h1 (.inl rfl)) (fun _ _ _ h => nomatch h) ?_
  refine ⟨by decide, ?_, by decide, ?_, trivial⟩ <;>
  · intro c hc
    simp only [List.mem_cons, List.not_mem_nil, or_false] at hc
    rcases hc with rfl | rfl | rfl | rfl | rfl <;> simp [Scene.Defines, Corner.number, Scene.step, Scene.start, plainLine]

/-- The file as text. -/
def houseText : String :=
  "o house\nv 0 0 0\nv 1 0 0\nv 1 1 0\nv 0.5 1.5 0\nv 0 1 0\nvn 0 0 1\nvt 0 1\nf 1/1/1 2/1/1 3/1/1 4/1/1 5/1/1 \nf 1/1/1 2/1/1 3/1/1 5/1/1"

theorem house_text : ascii houseText = fileText (houseLines.map PolyLine.line) ((some houseLast).map PolyLine.line) := by decide +kernel

/-- The hypotheses of C80 can be met. The quad becomes two triangles that cover it. -/
example (lib : Ieee.Libm) (acos : Ieee.Val Ieee.b32 → Ieee.Val Ieee.b32) (b : Build) : ∃ res, ∃ three two : List Triangle,
    readFromObj (Ieee.floatText lib) (Importer.pushFaceTri (Ieee.ops lib) acos) b (ascii houseText) = .ok res ∧
    three.length = 3 ∧ two.length = 2 ∧ Covers [⟨0, 0, 0⟩, ⟨1, 0, 0⟩, ⟨2, 0, 0⟩, ⟨4, 0, 0⟩] two ∧
    readFromObj (Ieee.floatText lib) Importer.pushFace b
      (fileText ((houseLines.take 8).map PolyLine.line ++ three.map (triangleLine false) ++ two.map (triangleLine false)) none) = .ok res := by
  obtain ⟨tls, res, hr, h1, h2, -, -⟩ := C80_polygons (Ieee.floatText lib) acos b houseLines (some houseLast) (house_defined lib)
    (by intro l hl; cases hl; exact List.cons_ne_nil _ _)
  refine ⟨res, ?_⟩
  simp only [houseLines, houseLast, Option.toList_some, List.cons_append, List.nil_append] at hr
  cases hr with | cons g1 hr
  cases hr with | cons g2 hr
  cases hr with | cons g3 hr
  cases hr with | cons g4 hr
  cases hr with | cons g5 hr
  cases hr with | cons g6 hr
  cases hr with | cons g7 hr
  cases hr with | cons g8 hr
  cases hr with | cons g9 hr
  cases hr with | cons g10 hr
  cases hr
  cases g1; cases g2; cases g3; cases g4; cases g5; cases g6; cases g7; cases g8
  cases g9 with | @face _ _ _ ps three n3 c3 i3 v3
  cases g10 with | @face _ _ _ ps' two n2 c2 i2 v2
  refine ⟨three, two, ?_, by simpa using n3, by simpa using n2, v2 (by decide), ?_⟩
  · rw [← h1]
    exact congrArg _ house_text
  · rw [← h2]
    simp only [List.flatten_cons, List.flatten_nil, List.append_nil, List.cons_append, List.nil_append, houseLines, List.take, List.map_cons, List.map_nil,
      PolyLine.line]

end Tmf.Props
