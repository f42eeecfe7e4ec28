import Verif.Lemmas.PolyConvert
import Verif.Props.Polygon
import Verif.Props.Convert
import Verif.Props.SaveAgain
/-
C108: a .obj file with polygons, stored as .tmf and loaded.
-/

set_option exponentiation.threshold 2000

namespace Tmf.Props
open Spec Ieee

variable {lib : Libm} {fb : F64Bytes (ops lib)} {prec : PrecisionInfo (Val b32)} {M δ : ℚ}

/-- A file with polygons is read like one with triangles. -/
theorem poly_file {fo : FloatOps} (ft : FloatText fo) (acos : fo.F → fo.F) (b : Build) (lines : List (PolyLine fo.F)) (last : Option (PolyLine fo.F))
    (hd : PolyDefined ft Scene.start (lines ++ last.toList)) (hlast : ∀ l ∈ last, l.line.text ≠ []) :
    ∃ tls, List.Forall₂ Rewritten (lines ++ last.toList) tls ∧
      readFromObj ft (Importer.pushFaceTri fo acos) b (fileText (lines.map PolyLine.line) (last.map PolyLine.line)) =
        readFromObj ft Importer.pushFace b (fileText tls.flatten none) ∧
      Defined Scene.start (tls.flatten.map TextLine.means) ∧ ∀ l ∈ tls.flatten, LineChars l.text ∧ LineMeans ft l.text l.means := by
  have ht : Tracks (Importer.new : Importer fo.F) Scene.start [] [] := by
    constructor <;> first | rfl | exact fun i hi => absurd hi List.not_mem_nil
  obtain ⟨tls, hr, he, hdef, hall⟩ := readObjLoop_polygons ft acos b _ .new Scene.start Scene.start [] [] ht rfl rfl rfl hd
  have hchars : ∀ l ∈ lines ++ last.toList, LineChars l.line.text := polyDefined_chars _ _ hd
  refine ⟨tls, hr, ?_, hdef, hall⟩
  rw [readFromObj, readFromObj, textLines_fileText, textLines_fileText none (fun l hl => nomatch hl) _ fun l hl => (hall l hl).1]
  · have := he Importer.pushFace (pushFaceWith_triangles _)
    cases last <;> simpa [Function.comp_def] using this
  · intro l hl
    rw [Option.mem_def, Option.map_eq_some_iff] at hl
    obtain ⟨k, rfl, rfl⟩ := hl
    exact ⟨hchars k (by simp), hlast k rfl⟩
  · intro l hl
    obtain ⟨k, hk, rfl⟩ := List.mem_map.mp hl
    exact hchars k (List.mem_append_left _ hk)

theorem forall₂_zip {α β γ : Type} {R : α → β → Prop} {S : γ → β → Prop} {T : α → γ → Prop} (hT : ∀ a b c, R a b → S c b → T a c) :
    ∀ {l : List α} {l' : List β} {l'' : List γ}, List.Forall₂ R l l' → List.Forall₂ S l'' l' → List.Forall₂ T l l''
  | _, _, _, .nil, .nil => .nil
  | _, _, _, .cons h1 h2, .cons h3 h4 => .cons (hT _ _ _ h1 h3) (forall₂_zip hT h2 h4)

/-- C108 for triangles and quads (partial: faces have at most four corners): with the feature "triangulation", a scene whose corners are far
enough apart is read and saved, every build writes the same bytes and loads them alike, and what is loaded are the objects of the file with
their names. Each polygon has been replaced by triangles that cover it, and these all come back. -/
theorem C108_quads_partial (hlog : AccurateLog2 lib) (hmono : MonotoneLog2 lib) (ft : FloatText (ops lib)) (acos : Val b32 → Val b32) (b : Build)
    (lines : List (PolyLine (Val b32))) (last : Option (PolyLine (Val b32)))
    (hd : PolyDefined ft Scene.start (lines ++ last.toList)) (hlast : ∀ l ∈ last, l.line.text ≠ [])
    (hs : StorablePolygons 30 (valueOf prec.vertex) M δ (polyScene (lines ++ last.toList))) (hq : QuadsAtMost (polyScene (lines ++ last.toList)))
    (p1 : isFinite prec.vertex = true) (p2 : valueOf prec.vertex ≤ 2 ^ 20) (p3 : prec.normal ≤ 30) (p4 : prec.uv ≤ 30)
    (p5 : prec.tangent ≤ 30) :
    ∃ tls meshes bytes out, List.Forall₂ Rewritten (lines ++ last.toList) tls ∧
      readFromObj ft (Importer.pushFaceTri (ops lib) acos) b (fileText (lines.map PolyLine.line) (last.map PolyLine.line)) = .ok meshes ∧
      (∀ b', tmfBytes (ops lib) fb b' prec meshes = .ok bytes) ∧
      (∀ b' junk sched, readTmf (ops lib) fb b' ⟨bytes ++ junk, sched, false⟩ = .ok out) ∧
      List.Forall₂ (CameBack (ops lib)) meshes out ∧
      List.Forall₂ ReadAs meshes (delivered (sceneOf (tls.flatten.map TextLine.means)).objects) ∧
      List.Forall₂ (fun o m => m.2 = o.1 ∧ (meshFaces m.1).length = triangleCount o) (delivered (polyScene (lines ++ last.toList)).objects) out := by
  obtain ⟨tls, hr, he, hdef, hall⟩ := poly_file (fo := ops lib) ft acos b lines last hd hlast
  have hcut : CutScene δ (polyScene (lines ++ last.toList)) (sceneOf (tls.flatten.map TextLine.means)) := by
    refine CutScene.file hr (polyDefined_three _ _ hd) ⟨rfl, rfl, rfl, ?_⟩
    exact .cons ⟨rfl, rfl, rfl, fun _ f hf => nomatch hf⟩ .nil
  have hst := storable_cut hs hq hcut
  have hf0 : fileMeans tls.flatten none = tls.flatten.map TextLine.means := by simp [fileMeans]
  obtain ⟨meshes, bytes, out, h1, h2, h3, h4, h5⟩ := C72_converted (fb := fb) hlog hmono ft b tls.flatten none (fun l hl => (hall l hl).1)
    (fun l hl => nomatch hl) (fun l hl => (hall l (by simpa using hl)).2) (hf0 ▸ hdef) (hf0 ▸ hst) p1 p2 p3 p4 p5
  rw [hf0] at h5
  refine ⟨tls, meshes, bytes, out, hr, he.trans h1, h2, h3, h4, h5, ?_⟩
  have h6 := forall₂_zip (T := fun o m => m.2 = o.1 ∧ (meshFaces m.1).length = triangleCount o)
    (fun o o' m h h' => ⟨h'.1.trans h.name, h'.2.trans h.count⟩) (cutUp_delivered hcut.objects)
    (S := fun m o' => m.2 = o'.1 ∧ (meshFaces m.1).length = o'.2.length) (l'' := out) ?_
  · exact h6
  · refine forall₂_zip (fun m' m o h h' => ?_) h4.flip h5.flip
    exact ⟨h.name.trans h'.name, (meshFaces_length h.indices).trans (congrArg List.length h'.faces)⟩

/-- C108, accuracy (partial in the same way): every triangle comes back, and each corner has its uv and its normal within the precision asked for;
vertices as in C65. -/
theorem C108_accurate_partial (hlib : AccurateLibm lib) (hlog : AccurateLog2 lib) (hmono : MonotoneLog2 lib) (ft : FloatText (ops lib))
    (acos : Val b32 → Val b32) (b : Build) (lines : List (PolyLine (Val b32))) (last : Option (PolyLine (Val b32)))
    (hd : PolyDefined ft Scene.start (lines ++ last.toList)) (hlast : ∀ l ∈ last, l.line.text ≠ [])
    {k : Nat} (hk1 : 1 ≤ k) (hk : k ≤ 30) (hs : StorablePolygons k (valueOf prec.vertex) M δ (polyScene (lines ++ last.toList)))
    (hq : QuadsAtMost (polyScene (lines ++ last.toList))) (hmean : MeaningfulScene prec (polyScene (lines ++ last.toList)))
    (p1 : isFinite prec.vertex = true) (p2 : 1 / 2 ^ 20 ≤ valueOf prec.vertex ∧ valueOf prec.vertex ≤ 2 ^ 20)
    (p3 : 1 ≤ prec.normal ∧ prec.normal ≤ 30) (p4 : 1 ≤ prec.uv ∧ prec.uv ≤ 30) (p5 : 1 ≤ prec.tangent ∧ prec.tangent ≤ 30) :
    ∃ tls meshes bytes out, List.Forall₂ Rewritten (lines ++ last.toList) tls ∧
      readFromObj ft (Importer.pushFaceTri (ops lib) acos) b (fileText (lines.map PolyLine.line) (last.map PolyLine.line)) = .ok meshes ∧
      (∀ b', tmfBytes (ops lib) fb b' prec meshes = .ok bytes) ∧
      (∀ b' junk sched, readTmf (ops lib) fb b' ⟨bytes ++ junk, sched, false⟩ = .ok out) ∧
      List.Forall₂ (fun o m => m.2 = o.1 ∧ List.Forall₂ (List.Forall₂ (CornerKept prec)) o.2 (meshFaces m.1))
        (delivered (sceneOf (tls.flatten.map TextLine.means)).objects) out ∧
      List.Forall₂ (fun m m' => Faithful k (fun l runs => ∀ b, optVertices (ops lib) b l = .ok runs) prec m.1 m'.1) meshes out := by
  obtain ⟨tls, hr, he, hdef, hall⟩ := poly_file (fo := ops lib) ft acos b lines last hd hlast
  have hcut : CutScene δ (polyScene (lines ++ last.toList)) (sceneOf (tls.flatten.map TextLine.means)) := by
    refine CutScene.file hr (polyDefined_three _ _ hd) ⟨rfl, rfl, rfl, ?_⟩
    exact .cons ⟨rfl, rfl, rfl, fun _ f hf => nomatch hf⟩ .nil
  have hst := storable_cut hs hq hcut
  have hmn : MeaningfulScene prec (sceneOf (tls.flatten.map TextLine.means)) := ⟨hcut.normals ▸ hmean.normals, hcut.uvs ▸ hmean.uvs⟩
  have hf0 : fileMeans tls.flatten none = tls.flatten.map TextLine.means := by simp [fileMeans]
  obtain ⟨meshes, bytes, out, h1, h2, h3, h4, h5⟩ := C72_accurate_partial (fb := fb) hlib hlog hmono ft b tls.flatten none (fun l hl => (hall l hl).1)
    (fun l hl => nomatch hl) (fun l hl => (hall l (by simpa using hl)).2) (hf0 ▸ hdef) hk1 hk (hf0 ▸ hst) (hf0 ▸ hmn) p1 p2 p3 p4 p5
  rw [hf0] at h4
  exact ⟨tls, meshes, bytes, out, hr, he.trans h1, h2, h3, h4, h5⟩

section Example

/-- A file for the example: a square. -/
def squareLines : List (PolyLine (Val b32)) :=
  [.plain (plainLine "o square" (.object (ascii "square"))),
   .plain (plainLine "v 0 0 0" (.vertex (num "0", num "0", num "0"))),
   .plain (plainLine "v 1 0 0" (.vertex (num "1", num "0", num "0"))),
   .plain (plainLine "v 1 1 0" (.vertex (num "1", num "1", num "0"))),
   .plain (plainLine "v 0 1 0" (.vertex (num "0", num "1", num "0"))),
   .plain (plainLine "vn 0 0 1" (.normal (num "0", num "0", num "1"))),
   .plain (plainLine "vt 0 1" (.uv (num "0", num "1"))),
   .face [⟨0, 0, 0⟩, ⟨1, 0, 0⟩, ⟨2, 0, 0⟩, ⟨3, 0, 0⟩] false false]

/-- The file as text. -/
def squareText : String := "o square\nv 0 0 0\nv 1 0 0\nv 1 1 0\nv 0 1 0\nvn 0 0 1\nvt 0 1\nf 1/1/1 2/1/1 3/1/1 4/1/1\n"

theorem square_text : ascii squareText = fileText (squareLines.map PolyLine.line) ((none : Option (PolyLine (Val b32))).map PolyLine.line) := by decide +kernel

theorem square_defined (lib : Ieee.Libm) : PolyDefined (Ieee.floatText lib) Scene.start (squareLines ++ []) := by
  have sp : ∀ s : String, IsWord (ascii s) → (Ieee.parseVal (ascii s) : Option (Ieee.Val Ieee.b32)) = some (num s) →
    Spells (Ieee.floatText lib) (ascii s) (num s) := fun s h1 h2 => ⟨h1, h2⟩
  have h0 := sp "0" (by unfold IsWord; decide) (by decide +kernel)
  have h1 := sp "1" (by unfold IsWord; decide) (by decide +kernel)
  refine polyDefined_plain (lineChars_of (by decide +kernel))
    (.object (name := ascii "square") (rest := []) (by unfold IsWord; decide) (.inl rfl)) (fun _ _ _ h => nomatch h) ?_
  refine polyDefined_plain (lineChars_of (by decide +kernel))
    (.vertex (fo := Ieee.ops lib) (ft := Ieee.floatText lib) (rest := []) (x := (num "0", num "0", num "0")) h0 h0 h0 (.inl rfl)) (fun _ _ _ h => nomatch h) ?_
  refine polyDefined_plain (lineChars_of (by decide +kernel))
    (.vertex (fo := Ieee.ops lib) (ft := Ieee.floatText lib) (rest := []) (x := (num "1", num "0", num "0")) h1 h0 h0 (.inl rfl)) (fun _ _ _ h => nomatch h) ?_
  refine polyDefined_plain (lineChars_of (by decide +kernel))
    (.vertex (fo := Ieee.ops lib) (ft := Ieee.floatText lib) (rest := []) (x := (num "1", num "1", num "0")) h1 h1 h0 (.inl rfl)) (fun _ _ _ h => nomatch h) ?_
  refine polyDefined_plain (lineChars_of (by decide +kernel))
    (.vertex (fo := Ieee.ops lib) (ft := Ieee.floatText lib) (rest := []) (x := (num "0", num "1", num "0")) h0 h1 h0 (.inl rfl)) (fun _ _ _ h => nomatch h) ?_
  refine polyDefined_plain (lineChars_of (by decide +kernel))
    (.normal (fo := Ieee.ops lib) (ft := Ieee.floatText lib) (rest := []) (x := (num "0", num "0", num "1")) h0 h0 h1 (.inl rfl)) (fun _ _ _ h => nomatch h) ?_
  refine polyDefined_plain (lineChars_of (by decide +kernel))
    (.uv (fo := Ieee.ops lib) (ft := Ieee.floatText lib) (rest := []) (x := (num "0", num "1")) h0 h1 (.inl rfl)) (fun _ _ _ h => nomatch h) ?_
  refine ⟨by decide, ?_, trivial⟩
  intro c hc
  simp only [List.mem_cons, List.not_mem_nil, or_false] at hc
  rcases hc with rfl | rfl | rfl | rfl <;> simp [Scene.Defines, Corner.number, Scene.step, Scene.start]

/-- A corner of the square. -/
def squareCorner (x y : Val b32) : CornerData (Val b32) := ⟨some (x, y, num "0"), some (some (num "0", num "1")), some (some (num "0", num "0", num "1"))⟩

theorem square_scene : polyScene (squareLines ++ []) =
    ⟨[(num "0", num "0", num "0"), (num "1", num "0", num "0"), (num "1", num "1", num "0"), (num "0", num "1", num "0")], [(num "0", num "0", num "1")],
      [(num "0", num "1")], [([], []), (ascii "square", [[squareCorner (num "0") (num "0"), squareCorner (num "1") (num "0"), squareCorner (num "1") (num "1"),
        squareCorner (num "0") (num "1")]])]⟩ := rfl

theorem square_storable : StorablePolygons 24 (valueOf kitPrec.vertex) 2 (1 / 10) (polyScene (squareLines ++ [])) := by
  obtain ⟨v0, v1, -⟩ := num_values
  obtain ⟨f0, f1, -⟩ := num_finite
  have ap : ∀ {x y x' y' : Val b32}, 1 / 100 ≤ (realOf x - realOf x') ^ 2 + (realOf y - realOf y') ^ 2 →
      Apart (1 / 10) (squareCorner x y) (squareCorner x' y') := by
    intro x y x' y' h a c ha hc
    cases ha
    cases hc
    rw [chord, length3]
    refine Real.le_sqrt_of_sq_le ?_
    simp only [sub_self]
    push_cast
    linarith
  rw [square_scene]
  refine ⟨by simp, by norm_num, ?_, by norm_num, le_refl _, ?_, ?_, ?_, ?_, ?_⟩
  · intro v hv
    simp only [List.mem_cons, List.not_mem_nil, or_false] at hv
    rcases hv with rfl | rfl | rfl | rfl
    · exact ⟨⟨f0, f0, f0⟩, by dsimp only; rw [v0]; norm_num⟩
    · exact ⟨⟨f1, f0, f0⟩, by dsimp only; rw [v0, v1]; norm_num⟩
    · exact ⟨⟨f1, f1, f0⟩, by dsimp only; rw [v0, v1]; norm_num⟩
    · exact ⟨⟨f0, f1, f0⟩, by dsimp only; rw [v0, v1]; norm_num⟩
  · intro o ho f hf
    simp only [List.mem_cons, List.not_mem_nil, or_false] at ho
    rcases ho with rfl | rfl
    · cases hf
    · cases List.mem_singleton.mp hf
      simp only [List.pairwise_cons, List.mem_cons, List.not_mem_nil, or_false, forall_eq_or_imp, forall_eq]
      refine ⟨⟨ap ?_, ap ?_, ap ?_⟩, ⟨ap ?_, ap ?_⟩, ap ?_, ?_⟩
      all_goals first | (simp only [realOf, v0, v1]; norm_num) | simp
  · rw [show kitPrec.vertex = lit 1 1 from rfl, tenth_exact.2]
    norm_num
  · intro o ho
    simp only [List.mem_cons, List.not_mem_nil, or_false] at ho
    rcases ho with rfl | rfl
    · exact ⟨by decide, ⟨[], rfl⟩⟩
    · exact ⟨by decide, ⟨"square".toList, by decide +kernel⟩⟩
  · intro o ho
    simp only [List.mem_cons, List.not_mem_nil, or_false] at ho
    rcases ho with rfl | rfl <;>
      simp [cutUp, triangleCount, objectSegments, facePieces, show Nat.log2 4 = 2 from rfl, show Nat.log2 1 = 0 from rfl]
  · have e : (ascii "square").length = 6 := by decide
    simp [delivered, cutUp, triangleCount, objectSizeBound, objectSegments, facePieces, e, show Nat.log2 4 = 2 from rfl, show Nat.log2 1 = 0 from rfl]

theorem square_quads : QuadsAtMost (polyScene (squareLines ++ [])) := by
  rw [square_scene]
  intro o ho f hf
  simp only [List.mem_cons, List.not_mem_nil, or_false] at ho
  rcases ho with rfl | rfl
  · cases hf
  · cases List.mem_singleton.mp hf
    exact le_refl 4

theorem square_meaningful : MeaningfulScene kitPrec (polyScene (squareLines ++ [])) := by
  obtain ⟨v0, v1, -⟩ := num_values
  obtain ⟨f0, f1, -⟩ := num_finite
  rw [square_scene]
  constructor
  · intro n hn
    cases List.mem_singleton.mp hn
    refine ⟨⟨⟨f0, f0, f1⟩, ?_, ?_⟩, fun h => absurd h (by decide)⟩
    · simp only [AlmostUnit, v0, v1]
      norm_num
    · dsimp only
      rw [v1]
      norm_num
  · intro uv hu
    cases List.mem_singleton.mp hu
    exact ⟨⟨⟨f0, by rw [v0]; norm_num⟩, .inl (by decide)⟩, ⟨f1, by rw [v1]; norm_num⟩, .inl (by decide)⟩

/-- The square, read, saved and loaded: two triangles. -/
example (fb : F64Bytes (ops someLibm)) (acos : Val b32 → Val b32) (b : Build) : ∃ meshes bytes m,
    readFromObj (floatText someLibm) (Importer.pushFaceTri (ops someLibm) acos) b (ascii squareText) = .ok meshes ∧
    (∀ b', tmfBytes (ops someLibm) fb b' kitPrec meshes = .ok bytes) ∧
    (∀ b' junk sched, readTmf (ops someLibm) fb b' ⟨bytes ++ junk, sched, false⟩ = .ok [m]) ∧ m.2 = ascii "square" ∧ (meshFaces m.1).length = 2 := by
  have hs : StorablePolygons 30 (valueOf kitPrec.vertex) 2 (1 / 10) (polyScene (squareLines ++ [])) := by
    refine { square_storable with bits := ?_ }
    rw [show kitPrec.vertex = lit 1 1 from rfl, tenth_exact.2]
    norm_num
  obtain ⟨tls, meshes, bytes, out, -, h1, h2, h3, -, -, h4⟩ := C108_quads_partial (fb := fb) (prec := kitPrec) someLibm_log2 someLibm_monotone
    (floatText someLibm) acos b squareLines none (square_defined someLibm) (fun _ h => nomatch h) hs square_quads tenth_exact.1
    (by rw [show kitPrec.vertex = lit 1 1 from rfl, tenth_exact.2]; norm_num) (by decide) (by decide) (by decide)
  rw [show polyScene (squareLines ++ (none : Option (PolyLine (Val b32))).toList) = polyScene (squareLines ++ []) from rfl, square_scene] at h4
  rw [← square_text] at h1
  cases h4 with
  | cons k h4 =>
    cases h4
    exact ⟨meshes, bytes, _, h1, h2, h3, k.1, k.2⟩

/-- Likewise with `C108_accurate_partial`. -/
example (fb : F64Bytes (ops someLibm)) (acos : Val b32 → Val b32) (b : Build) : ∃ meshes bytes out,
    readFromObj (floatText someLibm) (Importer.pushFaceTri (ops someLibm) acos) b (ascii squareText) = .ok meshes ∧
    (∀ b', tmfBytes (ops someLibm) fb b' kitPrec meshes = .ok bytes) ∧
    (∀ b' junk sched, readTmf (ops someLibm) fb b' ⟨bytes ++ junk, sched, false⟩ = .ok out) ∧
    List.Forall₂ (fun m m' => Faithful 24 (fun l runs => ∀ b, optVertices (ops someLibm) b l = .ok runs) kitPrec m.1 m'.1) meshes out := by
  obtain ⟨tls, meshes, bytes, out, -, h1, h2, h3, -, h5⟩ := C108_accurate_partial (fb := fb) (prec := kitPrec) someLibm_accurate someLibm_log2 someLibm_monotone
    (floatText someLibm) acos b squareLines none (square_defined someLibm) (fun _ h => nomatch h) (by decide) (by decide) square_storable square_quads
    square_meaningful tenth_exact.1 (by rw [show kitPrec.vertex = lit 1 1 from rfl, tenth_exact.2]; norm_num) (by decide) (by decide) (by decide)
  rw [← square_text] at h1
  exact ⟨meshes, bytes, out, h1, h2, h3, h5⟩

end Example

end Tmf.Props
