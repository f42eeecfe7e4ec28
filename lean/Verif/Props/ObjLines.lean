import Verif.Lemmas.ObjLines
import Verif.Props.Obj
import Verif.Props.Triangulate
/-
C102: comments, line ends and the order of lines of different kinds in .obj files.
-/

namespace Tmf.Props
open Spec

variable {fo : FloatOps}

/-- **C102.** Two texts whose lines say the same are read the same, whether they are accepted or refused:
line feeds with or without carriage return, a last line with or without line end, lines without meaning
(comments, empty lines, materials) anywhere, and within an object any interleaving of vertices, normals,
uvs and faces. Default features. -/
theorem C102_lines (ft : FloatText fo) (b : Build) {lines lines' : List PlainLine} {last last' : List UInt8}
    (h : ∀ l ∈ lines, l.Clean) (h' : ∀ l ∈ lines', l.Clean) (hl : 10 ∉ last) (hl' : 10 ∉ last')
    (hs : SaysSame (plainLines lines last) (plainLines lines' last')) :
    readFromObj ft Importer.pushFace b (plainFile lines last) = readFromObj ft Importer.pushFace b (plainFile lines' last') := by
  rw [readFromObj, readFromObj, textLines_plainFile hl lines h, textLines_plainFile hl' lines' h']
  exact readObjLoop_same ft b hs _

/-- **C102** for every way of adding faces, such as that of the feature "triangulation": line ends and
lines without meaning. -/
theorem C102_comments (ft : FloatText fo) (face : PushFace fo.F) (b : Build) {lines lines' : List PlainLine} {last last' : List UInt8}
    (h : ∀ l ∈ lines, l.Clean) (h' : ∀ l ∈ lines', l.Clean) (hl : 10 ∉ last) (hl' : 10 ∉ last')
    (hs : SaysSameInOrder (plainLines lines last) (plainLines lines' last')) :
    readFromObj ft face b (plainFile lines last) = readFromObj ft face b (plainFile lines' last') := by
  rw [readFromObj, readFromObj, textLines_plainFile hl lines h, textLines_plainFile hl' lines' h']
  exact readObjLoop_sameInOrder ft b face hs _

/-- Every text has clean lines. -/
theorem C102_every_text (text : List UInt8) : ∃ lines last, (∀ l ∈ lines, PlainLine.Clean l) ∧ 10 ∉ last ∧ text = plainFile lines last :=
  plainFile_exists text

/-- **C102, the limits: triangulation.** With the feature "triangulation" a face of four corners must
come after its vertices: exchanged with one it makes reading panic, where the text was read before. -/
theorem C102_triangulation_limit (ft : FloatText fo) (acos : fo.F → fo.F) (b : Build) {x : fo.F} (hx : ft.parse (ascii "0") = some x) :
    (∃ ms, readFromObj ft (Importer.pushFaceTri fo acos) b (ascii "v 0 0 0\nf 1/1/1 1/1/1 1/1/1 1/1/1\n") = .ok ms) ∧
    readFromObj ft (Importer.pushFaceTri fo acos) b (ascii "f 1/1/1 1/1/1 1/1/1 1/1/1\nv 0 0 0\n") = .panic := by
  have t2 : splitBytes isObjSep (ascii "f 1/1/1 1/1/1 1/1/1 1/1/1") = ascii "f" :: List.replicate 12 (ascii "1") := by decide +kernel
  have t3 : validUtf8 (ascii "f 1/1/1 1/1/1 1/1/1 1/1/1") = true := by decide +kernel
  have t4 : loadFaceLoop 13 (List.replicate 12 (ascii "1")) [] [] [] = .ok ([0, 0, 0, 0], [0, 0, 0, 0], [0, 0, 0, 0]) := by
    decide +kernel
  have s2 : splitBytes isObjSep (ascii "v 0 0 0") = ascii "v" :: List.replicate 3 (ascii "0") := by decide +kernel
  have s3 : validUtf8 (ascii "v 0 0 0") = true := by decide +kernel
  have e1 : ascii "f" ≠ ascii "v" := by decide
  have e2 : ascii "f" ≠ ascii "vn" := by decide
  have e3 : ascii "f" ≠ ascii "vt" := by decide
  have hface : ∀ oi : Importer fo.F, parseLine ft (Importer.pushFaceTri fo acos) b (ascii "f 1/1/1 1/1/1 1/1/1 1/1/1") oi =
      (Importer.pushFaceTri fo acos [0, 0, 0, 0] [0, 0, 0, 0] [0, 0, 0, 0] oi) >>= fun oi => .ok (none, oi) := by
    intro oi
    rw [parseLine, if_pos t3, t2]
    simp only [nextWord, Outcome.bind_ok, parseWords, if_neg e1, if_neg e2, if_neg e3, if_true, loadFace]
    rw [List.length_replicate, t4]
    rfl
  constructor
  · have t1 : textLines (ascii "v 0 0 0\nf 1/1/1 1/1/1 1/1/1 1/1/1\n") = [ascii "v 0 0 0", ascii "f 1/1/1 1/1/1 1/1/1 1/1/1"] := by
      decide +kernel
    rw [readFromObj, t1, readObjLoop, parseLine, if_pos s3, s2]
    have hv : loadVec3 ft (List.replicate 3 (ascii "0")) = .ok (x, x, x) := by
      simp [loadVec3, nextWord, bind, Outcome.bind, parseFloat, hx]
    simp only [nextWord, Outcome.bind_ok, parseWords, if_true, hv]
    obtain ⟨tris, oi', he, _⟩ := C47_triangulate fo acos { (Importer.new : Importer fo.F) with vertices := [] ++ [(x, x, x)] }
      [⟨0, 0, 0⟩, ⟨0, 0, 0⟩, ⟨0, 0, 0⟩, ⟨0, 0, 0⟩] (by simp) (by
        intro c hc
        simp only [List.mem_cons, List.not_mem_nil, or_false, or_self] at hc
        subst hc
        simp)
    have he' : Importer.pushFaceTri fo acos [0, 0, 0, 0] [0, 0, 0, 0] [0, 0, 0, 0]
      { (Importer.new : Importer fo.F) with vertices := (Importer.new : Importer fo.F).vertices ++ [(x, x, x)] } = .ok oi' := he
    obtain ⟨m, hm⟩ := build_ne_panic b oi'
    rw [readObjLoop, hface, he']
    simp only [Outcome.bind_ok, readObjLoop, Importer.finish, hm]
    exact ⟨_, rfl⟩
  · have t1 : textLines (ascii "f 1/1/1 1/1/1 1/1/1 1/1/1\nv 0 0 0\n") = [ascii "f 1/1/1 1/1/1 1/1/1 1/1/1", ascii "v 0 0 0"] := by
      decide +kernel
    rw [readFromObj, t1, readObjLoop, hface]
    rfl

/-- **C102, the limits: the last line.** A carriage return at the end of the text, without line feed, is
part of the last line: here of the name of the mesh. -/
theorem C102_last_return (ft : FloatText fo) (face : PushFace fo.F) (b : Build) : ∃ m : Mesh fo.F,
    readFromObj ft face b (ascii "o a\r") = .ok [(m, ascii "a\r")] ∧ readFromObj ft face b (ascii "o a\r\n") = .ok [(m, ascii "a")] := by
  have t1 : textLines (ascii "o a\r") = [ascii "o a\r"] := by decide +kernel
  have t2 : textLines (ascii "o a\r\n") = [ascii "o a"] := by decide +kernel
  have s1 : splitBytes isObjSep (ascii "o a\r") = [ascii "o", ascii "a\r"] := by decide +kernel
  have s2 : splitBytes isObjSep (ascii "o a") = [ascii "o", ascii "a"] := by decide +kernel
  have v1 : validUtf8 (ascii "o a\r") = true := by decide +kernel
  have v2 : validUtf8 (ascii "o a") = true := by decide +kernel
  have e1 : ascii "o" ≠ ascii "v" := by decide
  have e2 : ascii "o" ≠ ascii "vn" := by decide
  have e3 : ascii "o" ≠ ascii "vt" := by decide
  have e4 : ascii "o" ≠ ascii "f" := by decide
  obtain ⟨m, hm⟩ := build_ne_panic b (Importer.new : Importer fo.F)
  refine ⟨m, ?_, ?_⟩
  · rw [readFromObj, t1, readObjLoop, parseLine, if_pos v1, s1]
    simp only [nextWord, Outcome.bind_ok, parseWords, if_neg e1, if_neg e2, if_neg e3, if_neg e4, if_true]
    cases b <;> cases hm <;> rfl
  · rw [readFromObj, t2, readObjLoop, parseLine, if_pos v2, s2]
    simp only [nextWord, Outcome.bind_ok, parseWords, if_neg e1, if_neg e2, if_neg e3, if_neg e4, if_true]
    cases b <;> cases hm <;> rfl

/-- A face before its vertices, a comment, an empty line, carriage returns and no line end at the end. -/
example (ft : FloatText fo) (b : Build) :
    readFromObj ft Importer.pushFace b (ascii "# made by hand\r\n\r\no a\r\nf 1/1/1 1/1/1 1/1/1\r\nvn 0 0 1\nv 0 0 0\nvt 0 0") =
      readFromObj ft Importer.pushFace b (ascii "o a\nv 0 0 0\nvn 0 0 1\nvt 0 0\nf 1/1/1 1/1/1 1/1/1\n") := by
  have e1 : ascii "# made by hand\r\n\r\no a\r\nf 1/1/1 1/1/1 1/1/1\r\nvn 0 0 1\nv 0 0 0\nvt 0 0" =
    plainFile [⟨ascii "# made by hand", true⟩, ⟨[], true⟩, ⟨ascii "o a", true⟩, ⟨ascii "f 1/1/1 1/1/1 1/1/1", true⟩,
      ⟨ascii "vn 0 0 1", false⟩, ⟨ascii "v 0 0 0", false⟩] (ascii "vt 0 0") := by decide +kernel
  have e2 : ascii "o a\nv 0 0 0\nvn 0 0 1\nvt 0 0\nf 1/1/1 1/1/1 1/1/1\n" =
    plainFile [⟨ascii "o a", false⟩, ⟨ascii "v 0 0 0", false⟩, ⟨ascii "vn 0 0 1", false⟩, ⟨ascii "vt 0 0", false⟩,
      ⟨ascii "f 1/1/1 1/1/1 1/1/1", false⟩] [] := by decide +kernel
  rw [e1, e2]
  refine C102_lines ft b ?_ ?_ (by decide +kernel) (by decide +kernel) ?_
  · intro l hl
    simp only [List.mem_cons, List.not_mem_nil, or_false] at hl
    rcases hl with rfl | rfl | rfl | rfl | rfl | rfl <;> exact ⟨by decide +kernel, by decide +kernel⟩
  · intro l hl
    simp only [List.mem_cons, List.not_mem_nil, or_false] at hl
    rcases hl with rfl | rfl | rfl | rfl | rfl <;> exact ⟨by decide +kernel, by decide +kernel⟩
  · show SaysSame [ascii "# made by hand", [], ascii "o a", ascii "f 1/1/1 1/1/1 1/1/1", ascii "vn 0 0 1", ascii "v 0 0 0", ascii "vt 0 0"]
      [ascii "o a", ascii "v 0 0 0", ascii "vn 0 0 1", ascii "vt 0 0", ascii "f 1/1/1 1/1/1 1/1/1"]
    refine .trans (.remove _ (by decide +kernel) (validUtf8_iff.mp (by decide +kernel))) ?_
    refine .trans (.remove _ (by decide +kernel) (validUtf8_iff.mp (by decide +kernel))) ?_
    refine .cons _ ?_
    refine .trans (.swap _ (by decide +kernel) (by decide +kernel) (by decide +kernel)) ?_
    refine .trans (.cons _ (.swap _ (by decide +kernel) (by decide +kernel) (by decide +kernel))) ?_
    refine .trans (.swap _ (by decide +kernel) (by decide +kernel) (by decide +kernel)) ?_
    exact .cons _ (.cons _ (.swap _ (by decide +kernel) (by decide +kernel) (by decide +kernel)))

end Tmf.Props
