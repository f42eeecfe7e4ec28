import Verif.Lemmas.ObjUnique
import Verif.Lemmas.FloatText
/-
C33, C34, C35: reading and writing .obj text.
-/

namespace Tmf.Props
open Spec

variable {fo : FloatOps}

/-! ### C33 -/

/-- C33. Reading any bytes as .obj text never panics, and success gives at least one mesh. Default
features; whatever the arithmetic and the parser of floats are. -/
theorem C33_total (ft : FloatText fo) (b : Build) (text : List UInt8) :
    readFromObj ft Importer.pushFace b text ≠ .panic ∧
    ∀ ms, readFromObj ft Importer.pushFace b text = .ok ms → ms ≠ [] := by
  refine readObjLoop_total ft ?_ b _ _
  intro v u n oi
  rw [Importer.pushFace, Importer.pushFaceWith]
  split_ifs <;> nofun

/-- C33 for `read_from_obj_one`. -/
theorem C33_one_total (ft : FloatText fo) (b : Build) (text : List UInt8) :
    readFromObjOne ft Importer.pushFace b text ≠ .panic := by
  unfold readFromObjOne
  refine outcome_bind_ne_panic (C33_total ft b text).1 fun ms _ => ?_
  split <;> nofun

/-- With the feature "triangulation" C33 is false: a face of four corners that names a vertex not
there panics. -/
theorem C33_triangulation_violated (ft : FloatText fo) (acos : fo.F → fo.F) (b : Build) :
    readFromObj ft (Importer.pushFaceTri fo acos) b (ascii "f 1/1/1 1/1/1 1/1/1 1/1/1\n") = .panic := by
  have t1 : textLines (ascii "f 1/1/1 1/1/1 1/1/1 1/1/1\n") = [ascii "f 1/1/1 1/1/1 1/1/1 1/1/1"] := by decide +kernel
  have t2 : splitBytes isObjSep (ascii "f 1/1/1 1/1/1 1/1/1 1/1/1") = ascii "f" :: List.replicate 12 (ascii "1") := by decide +kernel
  have t3 : validUtf8 (ascii "f 1/1/1 1/1/1 1/1/1 1/1/1") = true := by decide +kernel
  have t4 : loadFaceLoop 13 (List.replicate 12 (ascii "1")) [] [] [] = .ok ([0, 0, 0, 0], [0, 0, 0, 0], [0, 0, 0, 0]) := by
    decide +kernel
  have e1 : ascii "f" ≠ ascii "v" := by decide
  have e2 : ascii "f" ≠ ascii "vn" := by decide
  have e3 : ascii "f" ≠ ascii "vt" := by decide
  rw [readFromObj, t1, readObjLoop, parseLine, if_pos t3, t2]
  simp only [nextWord, bind, Outcome.bind, parseWords, if_neg e1, if_neg e2, if_neg e3, if_true, loadFace]
  rw [List.length_replicate, t4]
  rfl

/-- Nothing else can panic: reading is safe with every way of adding faces that does not panic. -/
theorem C33_only_faces (ft : FloatText fo) (face : PushFace fo.F) (hf : ∀ v u n oi, face v u n oi ≠ .panic) (b : Build)
    (text : List UInt8) : readFromObj ft face b text ≠ .panic :=
  (readObjLoop_total ft hf b _ _).1

/-! ### C35 -/

/-- C35 (partial: every mesh has vertex triangles, whole triangles with indices in range, and all
elements together can be numbered by `u32`; see `C35_point_cloud_violated` for a mesh without).
Exporting succeeds, the text consists of lines, and read as an .obj scene these give, for every mesh
in order, its name and exactly its own triangles with its own vertices, uvs and normals. -/
theorem C35_own_elements_partial (ft : FloatText fo) (b : Build) (meshes : List (Mesh fo.F × List UInt8))
    (hm : ∀ m ∈ meshes, HasFaces m.1) (hf : FitsU32 meshes) :
    ∃ lines : List (ObjLine fo.F), writeObj ft b meshes = .ok (objText ft lines) ∧
      (scene lines).objects = meshes.map fun m => (m.2, meshFaces m.1) :=
  ⟨_, writeObj_ok ft b meshes hm hf, scene_meshes meshes hm⟩

/-- C35 (partial as before): without NaN and line feeds in names the text has only that reading. -/
theorem C35_unambiguous_partial {ft : FloatText fo} (hl : FloatTextLaws ft) (b : Build) (meshes : List (Mesh fo.F × List UInt8))
    (hm : ∀ m ∈ meshes, HasFaces m.1 ∧ NoNaN fo m.1 ∧ ∀ c ∈ m.2, c ≠ 10) (hf : FitsU32 meshes) (lines : List (ObjLine fo.F))
    (hr : ∀ l ∈ lines, l.Readable fo) (h : writeObj ft b meshes = .ok (objText ft lines)) :
    (scene lines).objects = meshes.map fun m => (m.2, meshFaces m.1) := by
  have hw := writeObj_ok ft b meshes (fun m h => (hm m h).1) hf
  rw [hw] at h
  have := objText_inj hl (a := .smooth :: wmeshes meshes (1, 1, 1)) ?_ hr (Outcome.ok.inj h)
  · rw [← this]
    exact scene_meshes meshes (fun m h => (hm m h).1)
  · intro l hl
    rcases List.mem_cons.mp hl with rfl | hl
    · trivial
    · exact wmeshes_readable meshes (1, 1, 1) hm hf.vertices hf.uvs hf.normals l hl

/-- One triangle with everything. -/
def triangleMesh {F : Type} (a b c n : Vec3 F) (u w : Vec2 F) : Mesh F :=
  { (Mesh.empty : Mesh F) with
    vertices := some [a, b, c]
    normals := some [n]
    uvs := some [u, w]
    vertexTriangles := some [0, 2, 1]
    normalTriangles := some [0, 0, 0]
    uvTriangles := some [1, 0, 1] }

/-- Points without triangles. -/
def cloudMesh {F : Type} (points : List (Vec3 F)) : Mesh F := { (Mesh.empty : Mesh F) with vertices := some points }

theorem triangleMesh_faces {F : Type} (a b c n : Vec3 F) (u w : Vec2 F) : HasFaces (triangleMesh a b c n u w) where
  vertices := ⟨[0, 2, 1], rfl, by decide, by
    show InRange 3 [0, 2, 1]
    unfold InRange; decide⟩
  normals t ht := by
    cases ht
    exact ⟨rfl, by show InRange 1 [0, 0, 0]; unfold InRange; decide⟩
  uvs t ht := by
    cases ht
    exact ⟨rfl, by show InRange 2 [1, 0, 1]; unfold InRange; decide⟩

example {F : Type} (a b c n d : Vec3 F) (u w : Vec2 F) :
    (∀ m ∈ [(triangleMesh a b c n u w, ascii "a"), (triangleMesh d a a c w w, ascii "b")], HasFaces m.1) ∧
    FitsU32 [(triangleMesh a b c n u w, ascii "a"), (triangleMesh d a a c w w, ascii "b")] := by
  refine ⟨?_, ⟨?_, ?_, ?_⟩⟩
  · intro m hm
    simp only [List.mem_cons, List.not_mem_nil, or_false] at hm
    rcases hm with rfl | rfl <;> exact triangleMesh_faces _ _ _ _ _ _
  · simp [triangleMesh]
  · simp [triangleMesh]
  · simp [triangleMesh]

/-- C35 is false when a mesh without vertex triangles precedes: its vertices are written but not
counted, and the triangle of the next mesh names the wrong ones. -/
theorem C35_point_cloud_violated (ft : FloatText fo) (bu : Build) (p a b c n : Vec3 fo.F) (u w : Vec2 fo.F) (hp : p ≠ a)
    (hn : ∀ x ∈ [p, a, b, c, n], fo.isNaN x.1 = false ∧ fo.isNaN x.2.1 = false ∧ fo.isNaN x.2.2 = false)
    (hu : ∀ x ∈ [u, w], fo.isNaN x.1 = false ∧ fo.isNaN x.2 = false) :
    ∃ lines : List (ObjLine fo.F),
      writeObj ft bu [(cloudMesh [p], ascii "cloud"), (triangleMesh a b c n u w, ascii "tri")] = .ok (objText ft lines) ∧
      (∀ l ∈ lines, l.Readable fo) ∧
      (scene lines).objects ≠ [(ascii "cloud", meshFaces (cloudMesh [p])), (ascii "tri", meshFaces (triangleMesh a b c n u w))] := by
  refine ⟨.smooth :: (wdata (cloudMesh [p]) (ascii "cloud") ++ wmesh (triangleMesh a b c n u w) (ascii "tri") (1, 1, 1)), ?_, ?_, ?_⟩
  · have h1 : saveObj ft bu (cloudMesh [p]) (1, 1, 1) (ascii "cloud") =
        .ok (objText ft (wdata (cloudMesh [p]) (ascii "cloud")), 0, 0, 0) := by
      rw [← meshText_eq]; rfl
    have h2 := saveObj_ok ft bu (triangleMesh a b c n u w) (ascii "tri") (1, 1, 1) (triangleMesh_faces _ _ _ _ _ _)
      (by simp [triangleMesh]) (by simp [triangleMesh]) (by simp [triangleMesh])
    have h2' : saveObj ft bu (triangleMesh a b c n u w) (1, 1, 1) (ascii "tri") =
        .ok (objText ft (wmesh (triangleMesh a b c n u w) (ascii "tri") (1, 1, 1)), 3, 2, 1) := h2
    have e1 : ∀ x y, x + y < 2 ^ 32 → addU32 bu x y = .ok (x + y) := fun x y h => addU32_ok bu h
    simp only [writeObj, writeObjLoop, h1, h2', bind, Outcome.bind, e1 1 0 (by decide), e1 1 1 (by decide), e1 1 2 (by decide),
      e1 1 3 (by decide), Nat.add_zero, objText, List.flatMap_cons, List.flatMap_append, List.append_nil]
    rfl
  · intro l hl
    rcases List.mem_cons.mp hl with rfl | hl
    · trivial
    · rcases List.mem_append.mp hl with hl | hl
      · simp only [wdata, cloudMesh, Mesh.empty, Option.getD_some, Option.getD_none, List.map_cons, List.map_nil,
          List.append_nil, List.mem_cons, List.not_mem_nil, or_false] at hl
        rcases hl with rfl | rfl
        · show ∀ c ∈ _, _
          decide
        · exact hn p (by simp)
      · refine wmesh_readable (triangleMesh a b c n u w) (ascii "tri") (1, 1, 1) (triangleMesh_faces _ _ _ _ _ _) ?_ (by decide)
          (by simp [triangleMesh]) (by simp [triangleMesh]) (by simp [triangleMesh]) l hl
        refine ⟨?_, ?_, ?_⟩
        · intro x hx
          exact hn x (by simp only [triangleMesh, Option.getD_some, List.mem_cons, List.not_mem_nil, or_false] at hx ⊢; tauto)
        · intro x hx
          exact hn x (by simp only [triangleMesh, Option.getD_some, List.mem_cons, List.not_mem_nil, or_false] at hx ⊢; tauto)
        · intro x hx
          exact hu x (by simp only [triangleMesh, Option.getD_some, List.mem_cons, List.not_mem_nil, or_false] at hx ⊢; tauto)
  · intro h
    have h' := congrArg (fun l => ((l.getD 1 ([], [])).2.getD 0 []).map CornerData.vertex) h
    simp [scene, wdata, wmesh, wfaces, wcorner, cloudMesh, triangleMesh, Mesh.empty, Scene.step, addFace, Scene.corner, numbered,
      meshFaces, meshCorner, List.range_succ] at h'
    exact hp h'.1

example : ∃ (p a b c n : Vec3 (Ieee.Val Ieee.b32)) (u w : Vec2 (Ieee.Val Ieee.b32)), p ≠ a ∧
    (∀ x ∈ [p, a, b, c, n], Ieee.isNaN x.1 = false ∧ Ieee.isNaN x.2.1 = false ∧ Ieee.isNaN x.2.2 = false) ∧
    ∀ x ∈ [u, w], Ieee.isNaN x.1 = false ∧ Ieee.isNaN x.2 = false :=
  ⟨(.inf true, .inf true, .inf true), (.inf false, .inf true, .inf true), (.inf true, .inf true, .inf true),
    (.inf true, .inf true, .inf true), (.inf true, .inf true, .inf true), (.inf true, .inf true), (.inf true, .inf true),
    by decide, by decide, by decide⟩

/-! ### C34 -/

/-- C34 (partial: at least one mesh; names of UTF-8 text that also have no slashes and line ends; no
NaN; all elements together can be numbered by `u32`). Writing meshes with at least one triangle,
normals and uvs succeeds and reading the text back gives the same number of meshes, in order, with the
same names and the same vertex, normal and uv buffers. Builds of the writer and the reader may differ.
The feature "triangulation" makes no difference. -/
theorem C34_roundtrip_partial {ft : FloatText fo} (hl : FloatTextLaws ft) (b b' : Build) (meshes : List (Mesh fo.F × List UInt8))
    (hne : meshes ≠ []) (hm : ∀ m ∈ meshes, CompleteMesh fo m.1 ∧ ObjName m.2) (hf : FitsU32 meshes) :
    ∃ text res, writeObj ft b meshes = .ok text ∧ readFromObj ft Importer.pushFace b' text = .ok res ∧
      List.Forall₂ SameGeometry res meshes := by
  obtain ⟨res, hr, hg⟩ := readFromObj_written hl (pushFaceWith_triangles _) b' meshes hne hm hf
  exact ⟨_, res, writeObj_ok ft b meshes (fun m h => (hm m h).1.faces) hf, hr, hg⟩

/-- C34 with the feature "triangulation" (partial as before). -/
theorem C34_roundtrip_triangulation_partial {ft : FloatText fo} (hl : FloatTextLaws ft) (acos : fo.F → fo.F) (b b' : Build)
    (meshes : List (Mesh fo.F × List UInt8)) (hne : meshes ≠ []) (hm : ∀ m ∈ meshes, CompleteMesh fo m.1 ∧ ObjName m.2)
    (hf : FitsU32 meshes) :
    ∃ text res, writeObj ft b meshes = .ok text ∧ readFromObj ft (Importer.pushFaceTri fo acos) b' text = .ok res ∧
      List.Forall₂ SameGeometry res meshes := by
  obtain ⟨res, hr, hg⟩ := readFromObj_written hl (pushFaceWith_triangles _) b' meshes hne hm hf
  exact ⟨_, res, writeObj_ok ft b meshes (fun m h => (hm m h).1.faces) hf, hr, hg⟩

/-- The buffers compared in C34 are there: they list the elements of the mesh. -/
theorem C34_buffers_present (m : Mesh fo.F) (hm : CompleteMesh fo m) :
    (m.getVertexBuffer.map List.length = m.vertexTriangles.map List.length) ∧
    (m.getNormalBuffer.map List.length = m.vertexTriangles.map List.length) ∧
    (m.getUvBuffer.map List.length = m.vertexTriangles.map List.length) := by
  have key : ∀ {α : Type} (d : List α) (t : List Nat), InRange d.length t → ∃ l, Mesh.bufferLoop d t [] = some l ∧ l.length = t.length := by
    intro α d t h
    obtain ⟨h1, h2⟩ := bufferLoop_spec d t []
    cases hb : Mesh.bufferLoop d t [] with
    | none =>
      obtain ⟨i, hi, hd⟩ := h2 hb
      have := (h i hi).1
      omega
    | some l =>
      obtain ⟨_, r, rfl, hr, _⟩ := h1 l hb
      exact ⟨_, rfl, by simpa using hr⟩
  obtain ⟨v, ev, h3, hr⟩ := hm.faces.vertices
  obtain ⟨n, en⟩ := Option.isSome_iff_exists.mp hm.normalTriangles
  obtain ⟨u, eu⟩ := Option.isSome_iff_exists.mp hm.uvTriangles
  obtain ⟨dv, edv⟩ := Option.isSome_iff_exists.mp hm.vertices
  obtain ⟨dn, edn⟩ := Option.isSome_iff_exists.mp hm.normals
  obtain ⟨du, edu⟩ := Option.isSome_iff_exists.mp hm.uvs
  obtain ⟨hnl, hnr⟩ := hm.faces.normals n en
  obtain ⟨hul, hur⟩ := hm.faces.uvs u eu
  simp only [edv, edn, edu, ev, Option.getD_some] at hr hnr hur hnl hul
  obtain ⟨l1, e1, k1⟩ := key dv v hr
  obtain ⟨l2, e2, k2⟩ := key dn n hnr
  obtain ⟨l3, e3, k3⟩ := key du u hur
  refine ⟨?_, ?_, ?_⟩
  · simp [Mesh.getVertexBuffer, Mesh.getVertices, Mesh.getVertexTriangles, edv, ev, e1, k1]
  · simp [Mesh.getNormalBuffer, Mesh.getNormals, Mesh.getNormalTriangles, edn, en, ev, e2, k2, hnl]
  · simp [Mesh.getUvBuffer, Mesh.getUvs, Mesh.getUvTriangles, edu, eu, ev, e3, k3, hul]

theorem triangleMesh_complete (a b c n : Vec3 fo.F) (u w : Vec2 fo.F)
    (hn : ∀ x ∈ [a, b, c, n], fo.isNaN x.1 = false ∧ fo.isNaN x.2.1 = false ∧ fo.isNaN x.2.2 = false)
    (hu : ∀ x ∈ [u, w], fo.isNaN x.1 = false ∧ fo.isNaN x.2 = false) : CompleteMesh fo (triangleMesh a b c n u w) where
  faces := triangleMesh_faces _ _ _ _ _ _
  nonempty := by simp [triangleMesh]
  vertices := rfl
  normals := rfl
  uvs := rfl
  normalTriangles := rfl
  uvTriangles := rfl
  noNaN := by
    refine ⟨?_, ?_, ?_⟩
    · intro x hx
      exact hn x (by simp only [triangleMesh, Option.getD_some, List.mem_cons, List.not_mem_nil, or_false] at hx ⊢; tauto)
    · intro x hx
      exact hn x (by simp only [triangleMesh, Option.getD_some, List.mem_cons, List.not_mem_nil, or_false] at hx ⊢; tauto)
    · intro x hx
      exact hu x (by simp only [triangleMesh, Option.getD_some, List.mem_cons, List.not_mem_nil, or_false] at hx ⊢; tauto)

example : ObjName (ascii "monkey") := ⟨validUtf8_iff.mp (by decide +kernel), by decide, by decide⟩

theorem ofNat_isNaN (n : Nat) : Ieee.isNaN (Ieee.ofNat n : Ieee.Val Ieee.b32) = false := by
  unfold Ieee.ofNat Ieee.rounded Ieee.pack
  split <;> rfl

/-- A point with whole coordinates. -/
def wholePoint (x y z : Nat) : Vec3 (Ieee.Val Ieee.b32) := (Ieee.ofNat x, Ieee.ofNat y, Ieee.ofNat z)

/-- The hypotheses of C34 can be met, also those on printing and parsing: a mesh of IEEE values. -/
example (lib : Ieee.Libm) : FloatTextLaws (Ieee.floatText lib) ∧
    CompleteMesh (Ieee.ops lib) (triangleMesh (wholePoint 0 1 2) (wholePoint 3 1 2) (wholePoint 0 1 7) (wholePoint 0 1 0)
      (Ieee.ofNat 0, Ieee.ofNat 1) (Ieee.ofNat 1, Ieee.ofNat 1)) := by
  refine ⟨Ieee.floatText_laws lib, triangleMesh_complete (fo := Ieee.ops lib) _ _ _ _ _ _ ?_ ?_⟩
  · intro x hx
    simp only [List.mem_cons, List.not_mem_nil, or_false] at hx
    rcases hx with rfl | rfl | rfl | rfl <;> unfold wholePoint <;> refine ⟨?_, ?_, ?_⟩ <;> dsimp only <;> exact ofNat_isNaN _
  · intro x hx
    simp only [List.mem_cons, List.not_mem_nil, or_false] at hx
    rcases hx with rfl | rfl <;> refine ⟨?_, ?_⟩ <;> dsimp only <;> exact ofNat_isNaN _

/-- Without a mesh C34 is false: the text of no meshes reads as one. -/
theorem C34_no_meshes_violated (ft : FloatText fo) (b : Build) : ∃ text m,
    writeObj ft b [] = .ok text ∧ readFromObj ft Importer.pushFace b text = .ok [m] := by
  refine ⟨ascii "s 1\n", ?_⟩
  have h := textLines_objText ft [.smooth] (fun l hl => by
    rw [List.mem_singleton] at hl
    subst hl
    exact cleanLine_of_chars (by rw [ObjLine.render]; decide))
  have e : objText ft [.smooth] = ascii "s 1\n" := rfl
  rw [e] at h
  obtain ⟨m, hm⟩ := build_ne_panic b (Importer.new : Importer fo.F)
  refine ⟨(m, []), rfl, ?_⟩
  rw [readFromObj, h, List.map_cons, readObjLoop_none (parseLine_smooth ft _ b _), List.map_nil, readObjLoop, Importer.finish, hm]
  rfl

/-- A name with a slash does not survive: it is cut there. -/
theorem C34_slash_violated {ft : FloatText fo} (hl : FloatTextLaws ft) (b : Build) (m : Mesh fo.F) (hm : CompleteMesh fo m)
    (name rest : List UInt8) (hn : ∀ c ∈ name, c ≠ 32 ∧ c ≠ 47 ∧ c ≠ 10) (hr : ∀ c ∈ rest, c ≠ 10)
    (hlast : (47 :: rest).getLast? ≠ some 13) (hu : IsText (name ++ 47 :: rest))
    (hf : FitsU32 [(m, name ++ 47 :: rest)]) :
    ∃ text m', writeObj ft b [(m, name ++ 47 :: rest)] = .ok text ∧
      readFromObj ft Importer.pushFace b text = .ok [(m', name)] := by
  have hw := writeObj_ok ft b [(m, name ++ 47 :: rest)] (by intro x hx; cases List.mem_singleton.mp hx; exact hm.faces) hf
  obtain ⟨m', hb, _⟩ := afterMesh_build b m name .new hm
  refine ⟨_, m', hw, ?_⟩
  obtain ⟨f0, f1, f2⟩ := hf
  simp only [List.map_cons, List.map_nil, List.sum_cons, List.sum_nil] at f0 f1 f2
  have hv : validUtf8 (ascii "o" ++ 32 :: (name ++ 47 :: rest)) = true := by
    rw [show ascii "o" ++ 32 :: (name ++ 47 :: rest) = (ascii "o" ++ [32]) ++ (name ++ 47 :: rest) by simp,
      validUtf8_ascii_append (by decide)]
    exact validUtf8_of_isText hu
  have hcl : CleanLine (ObjLine.render ft (.object (name ++ 47 :: rest))) := by
    rw [render_object]
    refine ⟨?_, ?_, hv⟩
    · intro c hc
      simp only [List.mem_append, List.mem_cons] at hc
      rcases hc with hc | rfl | hc | rfl | hc
      · exact (cleanWord_o c hc).2.2.2.1
      · decide
      · exact (hn c hc).2.2
      · decide
      · exact hr c hc
    · rw [show ascii "o" ++ 32 :: (name ++ 47 :: rest) = (ascii "o" ++ 32 :: name) ++ 47 :: rest by simp, List.getLast?_append]
      intro h
      cases hg : (47 :: rest).getLast? with
      | none => simp at hg
      | some x =>
        rw [hg, Option.some_or] at h
        exact hlast (hg.trans h)
  have ho : ∀ oi, parseLine ft Importer.pushFace b (ObjLine.render ft (.object (name ++ 47 :: rest))) oi = (oi.nextMesh b name).widen := by
    intro oi
    have e1 : ascii "o" ≠ ascii "v" := by decide
    have e2 : ascii "o" ≠ ascii "vn" := by decide
    have e3 : ascii "o" ≠ ascii "vt" := by decide
    have e4 : ascii "o" ≠ ascii "f" := by decide
    rw [parseLine, if_pos hcl.2.2, render_object, splitBytes_sep cleanWord_o.seps (.inl rfl),
      splitBytes_sep (fun c hc => ⟨(hn c hc).1, (hn c hc).2.1⟩) (.inr rfl)]
    simp [nextWord, bind, Outcome.bind, parseWords, e1, e2, e3, e4]
  have ew : wmeshes [(m, name ++ 47 :: rest)] (1, 1, 1) = .object (name ++ 47 :: rest) :: (wmesh m name (1, 1, 1)).tail := by
    simp only [wmeshes, List.append_nil]
    rfl
  rw [ew, readFromObj, textLines_objText ft]
  · rw [List.map_cons, List.map_cons, readObjLoop_none (parseLine_smooth ft _ b _),
      readObjLoop_none (oi' := { Importer.new with name := name }) (by rw [ho]; rfl)]
    have := readObjLoop_body hl (face := Importer.pushFace) (pushFaceWith_triangles _) b m name hm.plain [] .new (by simp only [Importer.new, List.length_nil]; omega)
      (by simp only [Importer.new, List.length_nil]; omega) (by simp only [Importer.new, List.length_nil]; omega)
    rw [List.append_nil] at this
    refine this.trans ?_
    rw [readObjLoop, Importer.finish, hb]
    rfl
  · intro l hlm
    rcases List.mem_cons.mp hlm with rfl | hlm
    · exact cleanLine_of_chars (by rw [ObjLine.render]; decide)
    · rcases List.mem_cons.mp hlm with rfl | hlm
      · exact hcl
      · have hon : ObjName [] := ⟨⟨[], rfl⟩, by simp, by simp⟩
        refine wmeshes_clean hl [(m, [])] (1, 1, 1) (by intro x hx; cases List.mem_singleton.mp hx; exact ⟨hm.plain, hon⟩) l ?_
        simp only [wmeshes, List.append_nil]
        exact List.mem_of_mem_tail hlm

example : IsText (ascii "a" ++ 47 :: ascii "b") := validUtf8_iff.mp (by decide +kernel)

/-- A mesh without normal indices cannot be read back: its first face has too few numbers. -/
theorem C34_without_normals_violated (ft : FloatText fo) (hl : FloatTextLaws ft) (b b' : Build) (m : Mesh fo.F) (name : List UInt8)
    (hm : HasFaces m) (hne : m.vertexTriangles ≠ some []) (hn : m.normalTriangles = none) (hname : ObjName name)
    (hf : FitsU32 [(m, name)]) :
    ∃ text e, writeObj ft b [(m, name)] = .ok text ∧ readFromObj ft Importer.pushFace b' text = .err e := by
  have hw := writeObj_ok ft b [(m, name)] (by intro x hx; cases List.mem_singleton.mp hx; exact hm) hf
  have key : ∀ ms, readFromObj ft Importer.pushFace b' (objText ft (.smooth :: wmeshes [(m, name)] (1, 1, 1))) ≠ .ok ms := by
    intro ms hms
    have hcl : ∀ l ∈ (.smooth :: wmeshes [(m, name)] (1, 1, 1)), CleanLine (ObjLine.render ft l) := by
      intro l hlm
      rcases List.mem_cons.mp hlm with rfl | hlm
      · exact cleanLine_of_chars (by rw [ObjLine.render]; decide)
      · exact wmesh_clean_all hl m name (1, 1, 1) hname l (by simpa [wmeshes] using hlm)
    rw [readFromObj, textLines_objText ft _ hcl] at hms
    obtain ⟨v, ev, h3, hr⟩ := hm.vertices
    have hpos : 0 < v.length / 3 := by
      have : v ≠ [] := by rintro rfl; exact hne ev
      have := List.length_pos_iff.mpr this
      omega
    have hmem : ObjLine.face (wcorner v m.uvTriangles none (1, 1, 1) 0) (wcorner v m.uvTriangles none (1, 1, 1) 1)
        (wcorner v m.uvTriangles none (1, 1, 1) 2) ∈ (.smooth :: wmeshes [(m, name)] (1, 1, 1)) := by
      simp only [wmeshes, wmesh, wfaces, List.append_nil, ev, hn, Option.getD_some]
      refine List.mem_cons_of_mem _ (List.mem_append_right _ (List.mem_map.mpr ⟨0, List.mem_range.mpr hpos, rfl⟩))
    obtain ⟨oi, r, hp⟩ := readObjLoop_lines ft _ b' _ _ ms hms _ (List.mem_map.mpr ⟨_, hmem, rfl⟩)
    exact parseLine_short_face ft b' _ _ _ rfl rfl rfl oi (hcl _ hmem).2.2 r hp
  cases hr : readFromObj ft Importer.pushFace b' (objText ft (.smooth :: wmeshes [(m, name)] (1, 1, 1))) with
  | ok ms => exact absurd hr (key ms)
  | panic => exact absurd hr (C33_total ft b' _).1
  | err e => exact ⟨_, e, hw, hr⟩

example {F : Type} (a b c : Vec3 F) : ∃ m : Mesh F, HasFaces m ∧ m.vertexTriangles ≠ some [] ∧ m.normalTriangles = none ∧
    FitsU32 [(m, ascii "flat")] := by
  refine ⟨{ (Mesh.empty : Mesh F) with vertices := some [a, b, c], vertexTriangles := some [0, 1, 2] }, ⟨?_, nofun, nofun⟩, ?_, rfl, ?_⟩
  · exact ⟨[0, 1, 2], rfl, by decide, by show InRange 3 [0, 1, 2]; unfold InRange; decide⟩
  · simp
  · exact ⟨by simp, by simp [Mesh.empty], by simp [Mesh.empty]⟩

end Tmf.Props
