import Verif.Lemmas.Convert
import Verif.Props.EndToEnd
import Verif.Props.ObjFile
import Verif.Props.SaveOk
/-
C72: a .obj file, stored as .tmf and loaded.
-/

set_option exponentiation.threshold 2000

namespace Tmf.Props
open Spec Ieee

variable {lib : Libm} {fb : F64Bytes (ops lib)} {prec : PrecisionInfo (Val b32)} {M δ : ℚ}

/-- Reading a storable scene gives meshes that can be saved. -/
theorem scene_saveable {k : Nat} (ft : FloatText (ops lib)) (b : Build) (lines : List (TextLine (Val b32))) (last : Option (TextLine (Val b32)))
    (hc : ∀ l ∈ lines, LineChars l.text) (hlast : ∀ l ∈ last, LineChars l.text ∧ l.text ≠ [])
    (hm : ∀ l ∈ lines ++ last.toList, LineMeans ft l.text l.means) (hd : Defined Scene.start (fileMeans lines last))
    (hs : StorableScene k (valueOf prec.vertex) M δ (sceneOf (fileMeans lines last)))
    (p1 : isFinite prec.vertex = true) (p2 : valueOf prec.vertex ≤ 2 ^ 20) (p3 : prec.normal ≤ 30) (p4 : prec.uv ≤ 30)
    (p5 : prec.tangent ≤ 30) :
    ∃ res, readFromObj ft Importer.pushFace b (fileText lines last) = .ok res ∧
      List.Forall₂ (ReadFrom (sceneOf (fileMeans lines last))) res (delivered (sceneOf (fileMeans lines last)).objects) ∧
      Saveable k prec res := by
  have ht : Tracks (Importer.new : Importer (Val b32)) Scene.start [] [] := by
    constructor <;> first | rfl | exact fun i hi => absurd hi List.not_mem_nil
  obtain ⟨res, rest, hr, ho, _, hf, hv⟩ := readObjLoop_file (fo := ops lib) (ft := ft) (pushFaceWith_triangles _) b (lines ++ last.toList) .new Scene.start [] [] ht
    (fun l hl => ⟨(List.mem_append.mp hl).elim (fun h => validUtf8_of_isText (hc l h).1)
      fun h => validUtf8_of_isText (hlast l (Option.mem_toList.mp h)).1.1, hm l hl⟩) hd
  rw [List.nil_append] at ho
  have e : readFromObj ft Importer.pushFace b (fileText lines last) = .ok res := by
    rw [readFromObj, textLines_fileText last hlast lines hc]
    exact hr
  have hf' : List.Forall₂ (ReadFrom (sceneOf (fileMeans lines last))) res (delivered (sceneOf (fileMeans lines last)).objects) := by
    rw [sceneOf, fileMeans, ho]
    exact hf
  exact ⟨res, e, hf', storable_saveable hs hf' hv p1 p2 p3 p4 p5⟩

theorem meshFaces_length {F : Type} {m m' : Mesh F} (h : SameIndices m m') : (meshFaces m').length = (meshFaces m).length := by
  simp only [meshFaces, h.vertex, List.length_map]

theorem elem_of_map_length {α : Type} {o o' : Option (List α)} (h : o'.map List.length = o.map List.length) {i : Nat}
    (hi : ((o.getD [])[i]?).isSome) : ((o'.getD [])[i]?).isSome := by
  cases o with
  | none => cases hi
  | some l =>
    cases o' with
    | none => cases h
    | some l' =>
      simp only [Option.map_some, Option.some.injEq] at h
      rw [Option.getD_some, List.getElem?_eq_getElem (h ▸ (by simpa using hi))]
      rfl

/-- C72, structure: a storable scene in a .obj file is read and saved, every build writes the same bytes and loads
them alike, and what is loaded are the objects of the file: names, and every face with all its corners. -/
theorem C72_converted (hlog : AccurateLog2 lib) (hmono : MonotoneLog2 lib) (ft : FloatText (ops lib)) (b : Build)
    (lines : List (TextLine (Val b32))) (last : Option (TextLine (Val b32)))
    (hc : ∀ l ∈ lines, LineChars l.text) (hlast : ∀ l ∈ last, LineChars l.text ∧ l.text ≠ [])
    (hm : ∀ l ∈ lines ++ last.toList, LineMeans ft l.text l.means) (hd : Defined Scene.start (fileMeans lines last))
    (hs : StorableScene 30 (valueOf prec.vertex) M δ (sceneOf (fileMeans lines last)))
    (p1 : isFinite prec.vertex = true) (p2 : valueOf prec.vertex ≤ 2 ^ 20) (p3 : prec.normal ≤ 30) (p4 : prec.uv ≤ 30)
    (p5 : prec.tangent ≤ 30) :
    ∃ meshes bytes out, readFromObj ft Importer.pushFace b (fileText lines last) = .ok meshes ∧
      (∀ b', tmfBytes (ops lib) fb b' prec meshes = .ok bytes) ∧
      (∀ b' junk sched, readTmf (ops lib) fb b' ⟨bytes ++ junk, sched, false⟩ = .ok out) ∧
      List.Forall₂ (CameBack (ops lib)) meshes out ∧
      List.Forall₂ ReadAs meshes (delivered (sceneOf (fileMeans lines last)).objects) := by
  obtain ⟨meshes, e, hf, hsv⟩ := scene_saveable ft b lines last hc hlast hm hd hs p1 p2 p3 p4 p5
  obtain ⟨bytes, out, h1, -, h3, h4⟩ := C65_saved (fb := fb) hlog hmono hsv
  exact ⟨meshes, bytes, out, e, h1, h3, h4, hf.imp fun _ _ h => h.read⟩

theorem forall₂_getElem? {α β : Type} {R : α → β → Prop} : ∀ {l : List α} {l' : List β}, List.Forall₂ R l l' → ∀ {i : Nat} {a : α},
    l[i]? = some a → ∃ b, l'[i]? = some b ∧ R a b
  | _, _, .nil, _, _, h => by cases h
  | _, _, .cons h1 _, 0, _, h => by cases h; exact ⟨_, rfl, h1⟩
  | _, _, .cons _ h2, i + 1, _, h => forall₂_getElem? h2 h

/-- Corners of a mesh and of what comes back for it. -/
theorem corner_kept {k : Nat} {cut : List (Vec3 (Val b32)) → List (List (Vec3 (Val b32))) → Prop} {s : Scene (Val b32)}
    {m m' : Mesh (Val b32) × List UInt8} {o : List UInt8 × List (List (CornerData (Val b32)))} (hr : ReadFrom s m o)
    (hb : CameBack (ops lib) m m') (hf : Faithful k cut prec m.1 m'.1) {i : Nat} (hi : i < 3 * o.2.length) :
    CornerKept prec (meshCorner m.1 i) (meshCorner m'.1 i) := by
  obtain ⟨v, n, u, vt, nt, ut, e, -, -, -, lv, ln, lu, rv, rn, ru⟩ := readFrom_triangles hr
  have f1 : m.1.vertices = some v := by rw [e]
  have f2 : m.1.normals = some n := by rw [e]
  have f3 : m.1.uvs = some u := by rw [e]
  have f4 : m.1.vertexTriangles = some vt := by rw [e]
  have f5 : m.1.normalTriangles = some nt := by rw [e]
  have f6 : m.1.uvTriangles = some ut := by rw [e]
  have b1 : i < vt.length := by omega
  have b2 : i < nt.length := by omega
  have b3 : i < ut.length := by omega
  obtain ⟨n', en, hn⟩ := hf.normals n f2
  obtain ⟨u', eu, hu⟩ := hf.uvs u f3
  have c2 := (rn _ (List.getElem_mem b2)).1
  have c3 := (ru _ (List.getElem_mem b3)).1
  obtain ⟨y, hy, ky⟩ := forall₂_getElem? hn (List.getElem?_eq_getElem c2)
  obtain ⟨x, hx, kx⟩ := forall₂_getElem? hu (List.getElem?_eq_getElem c3)
  refine ⟨?_, ?_, ?_⟩
  · simp only [meshCorner, hb.indices.vertex, f4, Option.getD_some, List.getElem?_eq_getElem b1, Option.bind_some]
    refine elem_of_map_length hb.sizes.vertices ?_
    rw [f1, Option.getD_some, List.getElem?_eq_getElem (rv _ (List.getElem_mem b1)).1]
    rfl
  · refine ⟨_, x, ?_, ?_, kx⟩
    · simp only [meshCorner, f6, f3, Option.map_some, Option.getD_some, List.getElem?_eq_getElem b3, Option.bind_some]
      rw [List.getElem?_eq_getElem c3]
    · simp only [meshCorner, hb.indices.uv, f6, eu, Option.map_some, Option.getD_some, List.getElem?_eq_getElem b3, Option.bind_some]
      rw [hx]
  · refine ⟨_, y, ?_, ?_, ky⟩
    · simp only [meshCorner, f5, f2, Option.map_some, Option.getD_some, List.getElem?_eq_getElem b2, Option.bind_some]
      rw [List.getElem?_eq_getElem c2]
    · simp only [meshCorner, hb.indices.normal, f5, en, Option.map_some, Option.getD_some, List.getElem?_eq_getElem b2, Option.bind_some]
      rw [hy]

theorem faces_kept {k : Nat} {cut : List (Vec3 (Val b32)) → List (List (Vec3 (Val b32))) → Prop} {s : Scene (Val b32)}
    {m m' : Mesh (Val b32) × List UInt8} {o : List UInt8 × List (List (CornerData (Val b32)))} (hr : ReadFrom s m o)
    (hb : CameBack (ops lib) m m') (hf : Faithful k cut prec m.1 m'.1) :
    List.Forall₂ (List.Forall₂ (CornerKept prec)) o.2 (meshFaces m'.1) := by
  obtain ⟨v, n, u, vt, nt, ut, e, -, -, -, lv, -⟩ := readFrom_triangles hr
  have f4 : m.1.vertexTriangles = some vt := by rw [e]
  rw [← hr.read.faces]
  simp only [meshFaces, hb.indices.vertex, f4, Option.getD_some]
  rw [List.forall₂_map_left_iff, List.forall₂_map_right_iff, List.forall₂_same]
  intro t ht
  have ht := List.mem_range.mp ht
  exact .cons (corner_kept hr hb hf (by omega)) (.cons (corner_kept hr hb hf (by omega)) (.cons (corner_kept hr hb hf (by omega)) .nil))

/-- C72, accuracy (partial: the vertices as in C65, that is where the box of the run reaches them): for scenes with unit normals
and uv coordinates between 0 and 1, every face of every object comes back, and each corner has its uv and its normal
within the precision asked for. -/
theorem C72_accurate_partial (hlib : AccurateLibm lib) (hlog : AccurateLog2 lib) (hmono : MonotoneLog2 lib) (ft : FloatText (ops lib)) (b : Build)
    (lines : List (TextLine (Val b32))) (last : Option (TextLine (Val b32)))
    (hc : ∀ l ∈ lines, LineChars l.text) (hlast : ∀ l ∈ last, LineChars l.text ∧ l.text ≠ [])
    (hm : ∀ l ∈ lines ++ last.toList, LineMeans ft l.text l.means) (hd : Defined Scene.start (fileMeans lines last))
    {k : Nat} (hk1 : 1 ≤ k) (hk : k ≤ 30) (hs : StorableScene k (valueOf prec.vertex) M δ (sceneOf (fileMeans lines last)))
    (hmean : MeaningfulScene prec (sceneOf (fileMeans lines last)))
    (p1 : isFinite prec.vertex = true) (p2 : 1 / 2 ^ 20 ≤ valueOf prec.vertex ∧ valueOf prec.vertex ≤ 2 ^ 20)
    (p3 : 1 ≤ prec.normal ∧ prec.normal ≤ 30) (p4 : 1 ≤ prec.uv ∧ prec.uv ≤ 30) (p5 : 1 ≤ prec.tangent ∧ prec.tangent ≤ 30) :
    ∃ meshes bytes out, readFromObj ft Importer.pushFace b (fileText lines last) = .ok meshes ∧
      (∀ b', tmfBytes (ops lib) fb b' prec meshes = .ok bytes) ∧
      (∀ b' junk sched, readTmf (ops lib) fb b' ⟨bytes ++ junk, sched, false⟩ = .ok out) ∧
      List.Forall₂ (fun o m => m.2 = o.1 ∧ List.Forall₂ (List.Forall₂ (CornerKept prec)) o.2 (meshFaces m.1))
        (delivered (sceneOf (fileMeans lines last)).objects) out ∧
      List.Forall₂ (fun m m' => Faithful k (fun l runs => ∀ b, optVertices (ops lib) b l = .ok runs) prec m.1 m'.1) meshes out := by
  obtain ⟨meshes, e, hf, hsv⟩ := scene_saveable ft b lines last hc hlast hm hd hs p1 p2.2 p3.2 p4.2 p5.2
  have hsen : Sensible k prec meshes := by
    refine ⟨hsv, p2.1, p3.1, p4.1, p5.1, fun mn hmn => ?_⟩
    obtain ⟨o, -, hr⟩ := exists_of_forall₂ hf mn hmn
    refine ⟨?_, ?_, ?_⟩
    · intro l hl n hn
      obtain ⟨l', hl', hsub⟩ := hr.normals
      rw [hl] at hl'
      cases hl'
      exact hmean.normals n (hsub.subset hn)
    · intro l hl
      rw [hr.tangents] at hl
      cases hl
    · intro l hl n hn
      obtain ⟨l', hl', hsub⟩ := hr.uvs
      rw [hl] at hl'
      cases hl'
      exact hmean.uvs n (hsub.subset hn)
  obtain ⟨bytes, out, h1, -, h3, h4⟩ := C65_accurate_partial (fb := fb) hlib hlog hmono hk1 hk hsen
  have h5 : List.Forall₂ (CameBack (ops lib)) meshes out := by
    obtain ⟨bytes', out', h1', -, h3', h4'⟩ := C65_saved (fb := fb) hlog hmono (saveable_mono hk hsv)
    have : bytes' = bytes := by have := h1' .checked; rw [h1 .checked] at this; cases this; rfl
    subst this
    have : out' = out := by have := h3' .checked [] []; rw [h3 .checked [] []] at this; cases this; rfl
    subst this
    exact h4'
  refine ⟨meshes, bytes, out, e, h1, h3, ?_, h4.imp fun _ _ h => h.2⟩
  clear e hsv hsen h1 h3
  generalize delivered (sceneOf (fileMeans lines last)).objects = os at hf
  induction hf generalizing out with
  | nil => cases h5; exact .nil
  | cons hr _ ih =>
    cases h5 with
    | cons hb h5 =>
      cases h4 with
      | cons hfa h4 => exact .cons ⟨hb.name.trans hr.read.name, faces_kept hr hb hfa.2⟩ (ih _ h4 h5)

/-- C72 is false without vertices: an empty file is read as one mesh, and saving that panics. -/
theorem C72_empty_violated {fo : FloatOps} {fb : F64Bytes fo} (laws : OrderLaws fo) (ft : FloatText fo) (b b' : Build)
    (prec : PrecisionInfo fo.F) :
    ∃ meshes, readFromObj ft Importer.pushFace b [] = .ok meshes ∧ tmfBytes fo fb b' prec meshes = .panic := by
  let m : Mesh fo.F := ⟨some [], some [], some [], some [], some [], some [], none, none, []⟩
  refine ⟨[(m, [])], rfl, tmfBytes_panic ?_⟩
  unfold encodeMesh
  have h1 : calcShortestEdge fo m.getVertexTriangles m.getVertices = .ok (fo.lit 1 1) := rfl
  have h2 : mergeSegments (meshSegs m) = .ok [.shared 7 [], .uv [], .normal [], .vertex []] := rfl
  have h3 : optTris b' [] = .ok [[]] := rfl
  rw [h1, Outcome.bind_ok, h2, Outcome.bind_ok]
  rcases optVertices_short laws b' (l := []) (by simp) with h | h
  · simp [Outcome.mapAll, h3, DecodedSegment.optimize, h]
  · have h4 : DecodedSegment.encode fo fb b' prec (fo.lit 1 1) (.vertex []) = .panic := rfl
    have h5 : ∃ x, DecodedSegment.encode fo fb b' prec (fo.lit 1 1) (.normal []) = .ok x := ⟨_, rfl⟩
    have h6 : ∃ x, DecodedSegment.encode fo fb b' prec (fo.lit 1 1) (.shared 7 []) = .ok x := ⟨_, rfl⟩
    have h7 : DecodedSegment.encode fo fb b' prec (fo.lit 1 1) (.uv []) = .panic ∨
        ∃ x, DecodedSegment.encode fo fb b' prec (fo.lit 1 1) (.uv []) = .ok x := by
      have h8 : mulI32 b' prec.uv = .panic ∨ ∃ k, mulI32 b' prec.uv = .ok k := by
        unfold mulI32
        split
        · split
          · exact .inr ⟨_, rfl⟩
          · exact .inl rfl
        · exact .inr ⟨_, rfl⟩
      rcases h8 with h8 | ⟨k, h8⟩
      · exact .inl (by rw [DecodedSegment.encode, saveUvs, h8]; rfl)
      · exact .inr ⟨_, by rw [DecodedSegment.encode, saveUvs, h8]; rfl⟩
    obtain ⟨x5, h5⟩ := h5
    obtain ⟨x6, h6⟩ := h6
    rcases h7 with h7 | ⟨x7, h7⟩
    · simp [Outcome.mapAll, h3, DecodedSegment.optimize, h, h6, h7]
    · simp [Outcome.mapAll, h3, DecodedSegment.optimize, h, h4, h5, h6, h7]

section Example

theorem num_zero : num "0" = .fin false 0 (by decide +kernel) := by decide +kernel
theorem num_one : num "1" = .fin false (2 ^ 149) (by decide +kernel) := by decide +kernel
theorem num_three_halves : num "1.5" = .fin false (3 * 2 ^ 148) (by decide +kernel) := by decide +kernel
theorem num_minus_two : num "-2" = .fin true (2 ^ 150) (by decide +kernel) := by decide +kernel
theorem num_quarter : num "0.25" = .fin false (2 ^ 147) (by decide +kernel) := by decide +kernel
theorem num_thousandth : num "1e-3" = .fin false (8589935 * 2 ^ 116) (by decide +kernel) := by decide +kernel

theorem num_values : valueOf (num "0") = 0 ∧ valueOf (num "1") = 1 ∧ valueOf (num "1.5") = 3 / 2 ∧ valueOf (num "-2") = -2 ∧
    valueOf (num "0.25") = 1 / 4 ∧ valueOf (num "1e-3") = 8589935 / 2 ^ 33 := by
  rw [num_zero, num_one, num_three_halves, num_minus_two, num_quarter, num_thousandth]
  simp only [valueOf_fin, show b32.scale = 149 from rfl]
  norm_num [sgn]

theorem num_finite : isFinite (num "0") = true ∧ isFinite (num "1") = true ∧ isFinite (num "1.5") = true ∧ isFinite (num "-2") = true ∧
    isFinite (num "0.25") = true ∧ isFinite (num "1e-3") = true := by
  rw [num_zero, num_one, num_three_halves, num_minus_two, num_quarter, num_thousandth]
  exact ⟨rfl, rfl, rfl, rfl, rfl, rfl⟩

/-- The corners of the example. -/
def sampleA : CornerData (Val b32) := ⟨some (num "0", num "0", num "0"), some (some (num "0.25", num "1e-3")), some (some (num "0", num "0", num "1"))⟩
/-- The corners of the example. -/
def sampleB : CornerData (Val b32) := ⟨some (num "1.5", num "0", num "0"), some (some (num "0.25", num "1e-3")), some (some (num "0", num "0", num "1"))⟩
/-- The corners of the example. -/
def sampleC : CornerData (Val b32) := ⟨some (num "0", num "-2", num "0"), some (some (num "0.25", num "1e-3")), some (some (num "0", num "0", num "1"))⟩

theorem sample_scene : sceneOf (fileMeans sampleLines (some sampleLast)) =
    ⟨[(num "0", num "0", num "0"), (num "1.5", num "0", num "0"), (num "0", num "-2", num "0")], [(num "0", num "0", num "1")],
      [(num "0.25", num "1e-3")], [([], [[sampleA, sampleB, sampleC]]), (ascii "empty", []), (ascii "second", [[sampleC, sampleB, sampleA]])]⟩ := rfl

theorem sample_chords {x y : CornerData (Val b32)} {a c : Vec3 (Val b32)}
    (h : (x, y) ∈ [(sampleA, sampleB), (sampleB, sampleC), (sampleC, sampleA), (sampleB, sampleA), (sampleC, sampleB), (sampleA, sampleC)])
    (ha : x.vertex = some a) (hc : y.vertex = some c) : ((1 / 10 : ℚ) : ℝ) ≤ chord a c := by
  obtain ⟨v0, -, v1, v2, -, -⟩ := num_values
  simp only [List.mem_cons, List.not_mem_nil, or_false, Prod.mk.injEq] at h
  rw [chord, length3]
  refine Real.le_sqrt_of_sq_le ?_
  rcases h with ⟨rfl, rfl⟩ | ⟨rfl, rfl⟩ | ⟨rfl, rfl⟩ | ⟨rfl, rfl⟩ | ⟨rfl, rfl⟩ | ⟨rfl, rfl⟩ <;> cases ha <;> cases hc <;>
    simp only [realOf, v0, v1, v2] <;> norm_num

theorem sample_storable : StorableScene 24 (valueOf kitPrec.vertex) 2 (1 / 10) (sceneOf (fileMeans sampleLines (some sampleLast))) := by
  obtain ⟨v0, -, v1, v2, -, -⟩ := num_values
  obtain ⟨f0, -, f1, f2, -, -⟩ := num_finite
  rw [sample_scene]
  refine ⟨by simp, by norm_num, ?_, by norm_num, le_refl _, ?_, ?_, ?_, ?_, ?_⟩
  · intro v hv
    simp only [List.mem_cons, List.not_mem_nil, or_false] at hv
    rcases hv with rfl | rfl | rfl
    · exact ⟨⟨f0, f0, f0⟩, by dsimp only; rw [v0]; norm_num⟩
    · exact ⟨⟨f1, f0, f0⟩, by dsimp only; rw [v0, v1]; norm_num⟩
    · exact ⟨⟨f0, f2, f0⟩, by dsimp only; rw [v0, v2]; norm_num⟩
  · intro o ho f hf a c hac
    obtain ⟨x, y, z, e, h⟩ := hac
    simp only [List.mem_cons, List.not_mem_nil, or_false] at ho
    rcases ho with rfl | rfl | rfl
    · cases List.mem_singleton.mp hf
      cases e
      rcases h with ⟨ha, hc⟩ | ⟨ha, hc⟩ | ⟨ha, hc⟩ <;> exact sample_chords (by simp) ha hc
    · cases hf
    · cases List.mem_singleton.mp hf
      cases e
      rcases h with ⟨ha, hc⟩ | ⟨ha, hc⟩ | ⟨ha, hc⟩ <;> exact sample_chords (by simp) ha hc
  · rw [show kitPrec.vertex = lit 1 1 from rfl, tenth_exact.2]
    norm_num
  · intro o ho
    simp only [List.mem_cons, List.not_mem_nil, or_false] at ho
    rcases ho with rfl | rfl | rfl
    · exact ⟨by decide, ⟨[], rfl⟩⟩
    · exact ⟨by decide, ⟨"empty".toList, by decide +kernel⟩⟩
    · exact ⟨by decide, ⟨"second".toList, by decide +kernel⟩⟩
  · intro o ho
    simp only [List.mem_cons, List.not_mem_nil, or_false] at ho
    rcases ho with rfl | rfl | rfl <;> simp [objectSegments, facePieces, show Nat.log2 3 = 1 from rfl, show Nat.log2 1 = 0 from rfl]
  · have e : (ascii "second").length = 6 := by decide
    simp [delivered, objectSizeBound, objectSegments, facePieces, e, show Nat.log2 3 = 1 from rfl, show Nat.log2 1 = 0 from rfl]

theorem sample_meaningful : MeaningfulScene kitPrec (sceneOf (fileMeans sampleLines (some sampleLast))) := by
  obtain ⟨v0, v1, -, -, v2, v3⟩ := num_values
  obtain ⟨f0, f1, -, -, f2, f3⟩ := num_finite
  rw [sample_scene]
  constructor
  · intro n hn
    cases List.mem_singleton.mp hn
    refine ⟨⟨⟨f0, f0, f1⟩, ?_, ?_⟩, fun h => absurd h (by decide)⟩
    · simp only [AlmostUnit, v0, v1]
      norm_num
    · dsimp only
      rw [v1]
      norm_num
  · intro uv hu
    cases List.mem_singleton.mp hu
    exact ⟨⟨⟨f2, by rw [v2]; norm_num⟩, .inl (by decide)⟩, ⟨f3, by rw [v3]; norm_num⟩, .inl (by decide)⟩

/-- The file of `Props/ObjFile.lean` read by any build, saved by any build and loaded by any build: two objects, the
second with one face. -/
example (fb : F64Bytes (ops someLibm)) (b : Build) : ∃ meshes bytes m1 m2, readFromObj (floatText someLibm) Importer.pushFace b (ascii sampleText) = .ok meshes ∧
    (∀ b', tmfBytes (ops someLibm) fb b' kitPrec meshes = .ok bytes) ∧
    (∀ b' junk sched, readTmf (ops someLibm) fb b' ⟨bytes ++ junk, sched, false⟩ = .ok [m1, m2]) ∧ m2.2 = ascii "second" ∧
    ∃ c1 c2 c3, meshFaces m2.1 = [[c1, c2, c3]] ∧ CornerKept kitPrec sampleC c1 := by
  obtain ⟨meshes, bytes, out, h1, h2, h3, h4, -⟩ := C72_accurate_partial (fb := fb) (prec := kitPrec) someLibm_accurate someLibm_log2 someLibm_monotone
    (floatText someLibm) b sampleLines (some sampleLast) sample_chars.1 (by intro l hl; cases hl; exact sample_chars.2) (sample_means someLibm)
    sample_defined (by decide) (by decide) sample_storable sample_meaningful tenth_exact.1
    (by rw [show kitPrec.vertex = lit 1 1 from rfl, tenth_exact.2]; norm_num) (by decide) (by decide) (by decide)
  rw [sample_scene] at h4
  rw [← sample_text] at h1
  cases h4 with
  | cons _ h4 =>
    cases h4 with
    | cons k h4 =>
      cases h4
      obtain ⟨hn, hf⟩ := k
      generalize hg : meshFaces _ = faces at hf
      cases hf with
      | cons hf hnil =>
        cases hnil
        cases hf with
        | cons a hf =>
          cases hf with
          | cons _ hf =>
            cases hf with
            | cons _ hf =>
              cases hf
              exact ⟨meshes, bytes, _, _, h1, h2, h3, hn, _, _, _, hg, a⟩

/-- Likewise with `C72_converted`: the names are those of the file. -/
example (fb : F64Bytes (ops someLibm)) (b : Build) : ∃ meshes bytes m1 m2, readFromObj (floatText someLibm) Importer.pushFace b (ascii sampleText) = .ok meshes ∧
    (∀ b', tmfBytes (ops someLibm) fb b' kitPrec meshes = .ok bytes) ∧
    (∀ b' junk sched, readTmf (ops someLibm) fb b' ⟨bytes ++ junk, sched, false⟩ = .ok [m1, m2]) ∧ m1.2 = [] ∧ m2.2 = ascii "second" := by
  have hs : StorableScene 30 (valueOf kitPrec.vertex) 2 (1 / 10) (sceneOf (fileMeans sampleLines (some sampleLast))) := by
    refine { sample_storable with bits := ?_ }
    rw [show kitPrec.vertex = lit 1 1 from rfl, tenth_exact.2]
    norm_num
  obtain ⟨meshes, bytes, out, h1, h2, h3, h4, h5⟩ := C72_converted (fb := fb) (prec := kitPrec) someLibm_log2 someLibm_monotone
    (floatText someLibm) b sampleLines (some sampleLast) sample_chars.1 (by intro l hl; cases hl; exact sample_chars.2) (sample_means someLibm)
    sample_defined hs tenth_exact.1
    (by rw [show kitPrec.vertex = lit 1 1 from rfl, tenth_exact.2]; norm_num) (by decide) (by decide) (by decide)
  rw [sample_scene] at h5
  rw [← sample_text] at h1
  cases h5 with
  | cons a h5 =>
    cases h5 with
    | cons a' h5 =>
      cases h5
      cases h4 with
      | cons k h4 =>
        cases h4 with
        | cons k' h4 =>
          cases h4
          exact ⟨_, bytes, _, _, h1, h2, h3, k.name.trans a.name, k'.name.trans a'.name⟩

end Example

end Tmf.Props
