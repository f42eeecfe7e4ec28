import Verif.Props.Streams
import Verif.Props.Tasks
import Verif.Props.Obj
import Verif.Props.ObjFile
import Verif.Spec.One
/-
C97: meshes written and read one at a time.
-/

namespace Tmf.Props
open Spec

/-! ### .tmf -/

section Tmf
variable {fo : FloatOps} {fb : F64Bytes fo} {b : Build}

theorem onlyMesh_one (s : Source) : readTmfOne fo fb b s = readTmf fo fb b s >>= onlyMesh := by
  rw [readTmfOne]
  cases readTmf fo fb b s with
  | ok l => match l with
    | [] => rfl
    | [_] => rfl
    | _ :: _ :: _ => rfl
  | err e => rfl
  | panic => rfl

/-- C97: `read_tmf_one_async` does what `read_tmf_one` does, whatever the file holds and in whatever order the tasks of
each mesh finish. -/
theorem C97_async (orders : Nat → Nat → List Nat) (h : ∀ k n, ∀ i < n, i ∈ orders k n) (s : Source) :
    readTmfOneAsync fo fb b orders s = readTmfOne fo fb b s := by
  rw [readTmfOneAsync, C24_file orders h, onlyMesh_one]

theorem takeTmfOne_one (s : Source) : readTmfOne fo fb b s = takeTmfOne fo fb b s >>= fun r => .ok r.1 := by
  rw [onlyMesh_one, readTmf, takeTmfOne]
  cases (importTmf fo fb b).run s with
  | ok r =>
    obtain ⟨l, s⟩ := r
    match l with
    | [] => rfl
    | [_] => rfl
    | _ :: _ :: _ => rfl
  | err e => rfl
  | panic => rfl

/-- Reading one mesh at a time where every file holds one. -/
theorem readTmfOnes_files : ∀ (n : Nat) (s : Source) (outs : List (Mesh fo.F × List UInt8)) (s' : Source),
    readFiles fo fb b n s = .ok (outs.map fun m => [m], s') → readTmfOnes fb b n s = .ok outs
  | 0, s, outs, s', h => by
    rw [readFiles] at h
    simp only [Outcome.ok.injEq, Prod.mk.injEq] at h
    rw [List.map_eq_nil_iff.mp h.1.symm]
    rfl
  | n + 1, s, outs, s', h => by
    rw [readFiles] at h
    cases hr : (importTmf fo fb b).run s with
    | err e => rw [hr] at h; cases h
    | panic => rw [hr] at h; cases h
    | ok r =>
      obtain ⟨out, t⟩ := r
      rw [hr] at h
      dsimp only at h
      cases hr' : readFiles fo fb b n t with
      | err e => rw [hr'] at h; cases h
      | panic => rw [hr'] at h; cases h
      | ok r' =>
        obtain ⟨outs', t'⟩ := r'
        rw [hr'] at h
        simp only [Outcome.ok.injEq, Prod.mk.injEq] at h
        obtain ⟨h1, rfl⟩ := h
        match outs, h1 with
        | m :: outs, h1 =>
          rw [List.map_cons, List.cons.injEq] at h1
          obtain ⟨rfl, rfl⟩ := h1
          have ih := readTmfOnes_files n t outs t' hr'
          have ht : takeTmfOne fo fb b s = .ok (m, t) := by rw [takeTmfOne, hr]; rfl
          rw [readTmfOnes, ht]
          dsimp only
          rw [ih]

/-- Writing one mesh after the other to an output that takes everything. -/
theorem writeTmfOnes_ok : ∀ (jobs : List (PrecisionInfo fo.F × Mesh fo.F × List UInt8)) (files : List (List UInt8)) (data : List UInt8)
    (sched : List Nat), List.Forall₂ (fun j file => tmfBytes fo fb b j.1 [j.2] = .ok file) jobs files →
    ∃ s', writeTmfOnes fb b jobs ⟨data, none, sched⟩ = (.ok (), s') ∧ s'.data = data ++ files.flatten
  | [], files, data, sched, h => by
    cases h
    exact ⟨_, rfl, by simp⟩
  | (prec, m, name) :: jobs, files, data, sched, h => by
    cases h with
    | @cons _ file _ files h1 h2 =>
    rw [tmfBytes_eq, Outcome.bind_eq_ok] at h1
    obtain ⟨u, hr, e⟩ := h1
    simp only [Outcome.ok.injEq] at e
    obtain ⟨s', ha, h3, -⟩ := Sink.writeChunks_spec (writeTmf fo fb b prec [(m, name)]).chunks ⟨data, none, sched⟩
    have hrun : (writeTmfOne fo fb b prec m name).run ⟨data, none, sched⟩ = (.ok (), s') := by
      rw [writeTmfOne, Writes.run, h3 (by intro k hk; simp at hk), hr]
    obtain ⟨d', r', sc'⟩ := s'
    have hroom := ha.room
    have hdata := ha.data
    simp only [Option.map_none] at hroom hdata
    subst hroom
    obtain ⟨s2, h4, h5⟩ := writeTmfOnes_ok jobs files d' sc' h2
    refine ⟨s2, by rw [writeTmfOnes, hrun]; exact h4, ?_⟩
    rw [h5, hdata, e, List.flatten_cons, List.append_assoc]

end Tmf

section Saved
open Ieee
variable {lib : Libm} {fb : F64Bytes (ops lib)}

/-- C97, .tmf: meshes written one at a time to the same output, each with its own settings, come back one at a time
from the same reader, in every build, whatever was in the output before and whatever follows. -/
theorem C97_tmf (hlog : AccurateLog2 lib) (hmono : MonotoneLog2 lib)
    {jobs : List (PrecisionInfo (Val b32) × Mesh (Val b32) × List UInt8)} (h : ∀ j ∈ jobs, Saveable 30 j.1 [j.2]) :
    ∃ bytes out, List.Forall₂ (fun j mn => CameBack (ops lib) j.2 mn) jobs out ∧
      (∀ b data sched, ∃ s', writeTmfOnes fb b jobs ⟨data, none, sched⟩ = (.ok (), s') ∧ s'.data = data ++ bytes) ∧
      ∀ b' junk sched broken, readTmfOnes fb b' jobs.length ⟨bytes ++ junk, sched, broken⟩ = .ok out := by
  obtain ⟨files, outs, h1, h2, -, h4⟩ := C95_saved (fb := fb) (jobs := jobs.map fun j => (j.1, [j.2])) hlog hmono
    (fun j hj => by
      obtain ⟨j', hj', rfl⟩ := List.mem_map.mp hj
      exact h j' hj')
  have key : ∀ (jobs : List (PrecisionInfo (Val b32) × Mesh (Val b32) × List UInt8)) (outs : List (List (Mesh (Val b32) × List UInt8))),
      List.Forall₂ (fun j out => List.Forall₂ (CameBack (ops lib)) j.2 out) (jobs.map fun j => (j.1, [j.2])) outs →
      ∃ out : List (Mesh (Val b32) × List UInt8), outs = (out.map fun m => [m]) ∧ List.Forall₂ (fun j mn => CameBack (ops lib) j.2 mn) jobs out := by
    intro jobs
    induction jobs with
    | nil =>
      intro outs h
      cases h
      exact ⟨[], rfl, .nil⟩
    | cons j jobs ih =>
      intro outs h
      cases h with
      | cons ha hb =>
        obtain ⟨out, rfl, ho⟩ := ih _ hb
        obtain ⟨m, hm, hn⟩ := forall₂_one ha
        exact ⟨m :: out, by rw [hm]; rfl, .cons hn ho⟩
  obtain ⟨out, rfl, ho⟩ := key jobs outs h2
  refine ⟨files.flatten, out, ho, fun b data sched => writeTmfOnes_ok (fo := ops lib) (fb := fb) (b := b) jobs files data sched ?_, fun b' junk sched broken => ?_⟩
  · exact (List.forall₂_map_left_iff.mp (h1 b))
  · obtain ⟨s', hs, -⟩ := h4 b' junk sched broken
    rw [List.length_map] at hs
    exact readTmfOnes_files _ _ _ _ hs

/-- The mesh of C65 written twice to one output. -/
example (fb : F64Bytes (ops someLibm)) (b b' : Build) : ∃ s' a c,
    writeTmfOnes fb b [(kitPrec, kit, [65]), (kitPrec, kit, [65])] ⟨[], none, [7]⟩ = (.ok (), s') ∧
      readTmfOnes fb b' 2 ⟨s'.data, [1, 5], false⟩ = .ok [a, c] ∧ CameBack (ops someLibm) (kit, [65]) a ∧
      CameBack (ops someLibm) (kit, [65]) c := by
  obtain ⟨bytes, out, h1, h2, h3⟩ := C97_tmf (fb := fb) (jobs := [(kitPrec, kit, [65]), (kitPrec, kit, [65])])
    someLibm_log2 someLibm_monotone (by
      intro j hj
      simp only [List.mem_cons, List.not_mem_nil, or_false] at hj
      rcases hj with rfl | rfl <;> exact saveable_mono (by decide) kit_sensible.saveable)
  obtain ⟨a, c, rfl, h4, h5⟩ := forall₂_two h1
  obtain ⟨s', e1, e2⟩ := h2 b [] [7]
  refine ⟨s', a, c, e1, ?_, h4, h5⟩
  have := h3 b' [] [1, 5] false
  rw [List.append_nil] at this
  rw [e2]
  exact this

/-- C97: a file with several meshes is not read as one of them, and one without meshes not at all. -/
theorem C97_count (hlog : AccurateLog2 lib) (hmono : MonotoneLog2 lib) {prec : PrecisionInfo (Val b32)}
    {meshes : List (Mesh (Val b32) × List UInt8)} (h : Saveable 30 prec meshes) :
    ∃ bytes, (∀ b, tmfBytes (ops lib) fb b prec meshes = .ok bytes) ∧ ∀ b' sched,
      (readTmfOne (ops lib) fb b' ⟨bytes, sched, false⟩ = .err .noMeshes ↔ meshes = []) ∧
      (readTmfOne (ops lib) fb b' ⟨bytes, sched, false⟩ = .err .tooManyMeshes ↔ 2 ≤ meshes.length) := by
  obtain ⟨bytes, out, h1, -, h2, h3⟩ := saveable_loaded (fb := fb) hlog hmono (by decide) (le_refl 30) h
  refine ⟨bytes, h1, fun b' sched => ?_⟩
  have hr := h2 b' [] sched
  rw [List.append_nil] at hr
  have hl := h3.length_eq
  obtain ⟨-, c1, c2, -, -⟩ := C25_read_one (fo := ops lib) (fb := fb) (b := b') bytes sched
  rw [c1, c2, hr]
  simp only [Outcome.ok.injEq]
  constructor
  · rw [← List.length_eq_zero_iff, ← hl, List.length_eq_zero_iff]
  · simp only [exists_eq_left', hl]

end Saved

/-! ### .obj -/

section Obj
variable {fo : FloatOps}

/-- C97, .obj (partial as in C34): one mesh written and read. -/
theorem C97_obj_partial {ft : FloatText fo} (hl : FloatTextLaws ft) (b b' : Build) {m : Mesh fo.F} {name : List UInt8}
    (hm : CompleteMesh fo m) (hn : ObjName name) (hf : FitsU32 [(m, name)]) :
    ∃ text m', writeObjOne ft b m name = .ok text ∧ readFromObjOne ft Importer.pushFace b' text = .ok (m', name) ∧
      SameGeometry (m', name) (m, name) := by
  obtain ⟨text, res, h1, h2, h3⟩ := C34_roundtrip_partial hl b b' [(m, name)] (by simp)
    (fun x hx => by cases List.mem_singleton.mp hx; exact ⟨hm, hn⟩) hf
  obtain ⟨⟨r, n⟩, rfl, hr⟩ := forall₂_one h3.flip
  have e : n = name := hr.1
  subst e
  exact ⟨text, r, h1, (C57_one ft _ b' text _).mpr h2, hr⟩

/-- The importer after the lines of a mesh numbered from 1. -/
def afterOwn {F : Type} (m : Mesh F) (name : List UInt8) (oi : Importer F) : Importer F :=
  { vertices := oi.vertices ++ m.vertices.getD []
    normals := oi.normals ++ m.normals.getD []
    uvs := oi.uvs ++ m.uvs.getD []
    vertexTriangles := m.vertexTriangles.getD []
    normalTriangles := m.normalTriangles.getD []
    uvTriangles := m.uvTriangles.getD []
    name := name }

/-- Everything after the line of the object. -/
theorem readObjLoop_own {ft : FloatText fo} (hl : FloatTextLaws ft) {face : PushFace fo.F} (hp : PushesTriangles face) (b : Build)
    (m : Mesh fo.F) (name : List UInt8) (hm : PlainMesh fo m) (rest : List (List UInt8)) (oi : Importer fo.F)
    (hv : 1 + (m.vertices.getD []).length < 2 ^ 32) (hn : 1 + (m.normals.getD []).length < 2 ^ 32)
    (hu : 1 + (m.uvs.getD []).length < 2 ^ 32) :
    readObjLoop ft face b (((wmesh m name (1, 1, 1)).tail).map (ObjLine.render ft) ++ rest)
      { oi with name := name, vertexTriangles := [], normalTriangles := [], uvTriangles := [] } =
    readObjLoop ft face b rest (afterOwn m name oi) := by
  obtain ⟨v, ev, h3, hr⟩ := hm.faces.vertices
  obtain ⟨n, en⟩ := Option.isSome_iff_exists.mp hm.normalTriangles
  obtain ⟨u, eu⟩ := Option.isSome_iff_exists.mp hm.uvTriangles
  obtain ⟨hnl, hnr⟩ := hm.faces.normals n en
  obtain ⟨hul, hur⟩ := hm.faces.uvs u eu
  obtain ⟨n1, n2, n3⟩ := hm.noNaN
  simp only [ev, Option.getD_some] at hnl hul
  simp only [wmesh, wdata, List.cons_append, List.tail_cons, List.map_append, List.append_assoc]
  rw [readObjLoop_vertices hl face b _ _ _ n1, readObjLoop_normals hl face b _ _ _ n2,
    readObjLoop_uvs hl face b _ _ _ n3]
  have hf := readObjLoop_faces ft hp b rest v u n (0, 0, 0)
    (fun i hi => by have := getD_lt hr hi; dsimp only; omega)
    (fun i hi => by have := getD_lt hur (i := i) (by omega); dsimp only; omega)
    (fun i hi => by have := getD_lt hnr (i := i) (by omega); dsimp only; omega) hul hnl (v.length / 3) 0
  simp only [ev, en, eu, Option.getD_some, List.range_eq_range']
  rw [hf _ (by omega)]
  have e3 : 3 * (v.length / 3) = v.length := Nat.mul_div_cancel' h3
  simp only [e3, Nat.mul_zero, List.drop_zero]
  rw [List.take_length, List.take_of_length_le (by omega), List.take_of_length_le (by omega)]
  simp [Importer.pushIndices, afterOwn, ev, en, eu]

theorem afterOwn_ne (m : Mesh fo.F) (name : List UInt8) (oi : Importer fo.F)
    (hm : CompleteMesh fo m) : (afterOwn m name oi).vertexTriangles ≠ [] := by
  obtain ⟨v, ev, _, _⟩ := hm.faces.vertices
  intro h
  simp only [afterOwn, ev, Option.getD_some] at h
  exact hm.nonempty (by rw [ev, h])

theorem afterOwn_build (b : Build) (m : Mesh fo.F) (name : List UInt8) (oi : Importer fo.F) (hm : CompleteMesh fo m) :
    ∃ m', (afterOwn m name oi).build b = .ok m' ∧ SameGeometry (m', name) ({ m with
      vertices := some (oi.vertices ++ m.vertices.getD []), normals := some (oi.normals ++ m.normals.getD []),
      uvs := some (oi.uvs ++ m.uvs.getD []) }, name) := by
  obtain ⟨m', hb, g1, g2, g3⟩ := build_spec b (afterOwn m name oi)
  obtain ⟨v, ev, h3, hr⟩ := hm.faces.vertices
  obtain ⟨n, en⟩ := Option.isSome_iff_exists.mp hm.normalTriangles
  obtain ⟨u, eu⟩ := Option.isSome_iff_exists.mp hm.uvTriangles
  refine ⟨m', hb, rfl, g1.trans ?_, g2.trans ?_, g3.trans ?_⟩
  · simp [Mesh.getVertexBuffer, Mesh.getVertices, Mesh.getVertexTriangles, ev, afterOwn]
  · simp [Mesh.getNormalBuffer, Mesh.getNormals, Mesh.getNormalTriangles, en, afterOwn]
  · simp [Mesh.getUvBuffer, Mesh.getUvs, Mesh.getUvTriangles, eu, afterOwn]

/-- The lines written for meshes one at a time. -/
def ownLines {F : Type} (meshes : List (Mesh F × List UInt8)) : List (ObjLine F) :=
  meshes.flatMap fun x => .smooth :: wmesh x.1 x.2 (1, 1, 1)

theorem readObjLoop_owns {ft : FloatText fo} (hl : FloatTextLaws ft) {face : PushFace fo.F} (hp : PushesTriangles face) (b : Build) :
    ∀ (meshes : List (Mesh fo.F × List UInt8)) (m : Mesh fo.F) (name : List UInt8) (oi : Importer fo.F), CompleteMesh fo m →
      (∀ x ∈ meshes, CompleteMesh fo x.1 ∧ ObjName x.2 ∧ FitsU32 [x]) →
      ∃ res, readObjLoop ft face b ((ownLines meshes).map (ObjLine.render ft)) (afterOwn m name oi) = .ok res ∧
        List.Forall₂ SameGeometry res (piled oi.vertices oi.normals oi.uvs ((m, name) :: meshes))
  | [], m, name, oi, hm, _ => by
    obtain ⟨m', hb, hg⟩ := afterOwn_build b m name oi hm
    refine ⟨[(m', name)], ?_, .cons hg .nil⟩
    rw [ownLines, List.flatMap_nil, List.map_nil, readObjLoop, Importer.finish, hb]
    rfl
  | (m2, name2) :: meshes, m, name, oi, hm, hms => by
    obtain ⟨hm2, hn2, hf2⟩ := hms _ List.mem_cons_self
    dsimp only at hm2 hn2 hf2
    obtain ⟨m', hb, hg⟩ := afterOwn_build b m name oi hm
    obtain ⟨res, hr, hgs⟩ := readObjLoop_owns hl hp b meshes m2 name2 (afterOwn m name oi) hm2
      (fun x hx => hms x (List.mem_cons_of_mem _ hx))
    refine ⟨(m', name) :: res, ?_, .cons hg hgs⟩
    have ew : ∀ o, wmesh m2 name2 o = .object name2 :: (wmesh m2 name2 o).tail := fun o => rfl
    rw [ownLines, List.flatMap_cons, List.cons_append, List.map_cons, readObjLoop_none (parseLine_smooth ft face b _)]
    dsimp only
    rw [ew, List.cons_append, List.map_cons]
    refine readObjLoop_object b hn2 _ _ (afterOwn_ne m name oi hm) hb ?_
    rw [List.map_append, readObjLoop_own hl hp b m2 name2 hm2.plain _ _ (by simpa using hf2.vertices) (by simpa using hf2.normals)
      (by simpa using hf2.uvs)]
    exact hr

theorem writeObjOnes_ok (ft : FloatText fo) (b : Build) : ∀ (meshes : List (Mesh fo.F × List UInt8)),
    (∀ x ∈ meshes, HasFaces x.1 ∧ FitsU32 [x]) → writeObjOnes ft b meshes = .ok (objText ft (ownLines meshes))
  | [], _ => rfl
  | (m, name) :: meshes, h => by
    obtain ⟨h1, h2⟩ := h _ List.mem_cons_self
    rw [writeObjOnes, writeObjOne, writeObj_ok ft b [(m, name)] (fun x hx => by cases List.mem_singleton.mp hx; exact h1) h2,
      writeObjOnes_ok ft b meshes fun x hx => h x (List.mem_cons_of_mem _ hx),
      show ownLines ((m, name) :: meshes) = .smooth :: wmesh m name (1, 1, 1) ++ ownLines meshes from List.flatMap_cons,
      objText_append, wmeshes, wmeshes, List.append_nil]

/-- C97, .obj, exactly what happens to meshes written one at a time to the same output: the numbers of each start at 1
again, so that reading finds all meshes with their names, but each has its own triangles over the elements of all
meshes so far. -/
theorem C97_obj_stream {ft : FloatText fo} (hl : FloatTextLaws ft) (b b' : Build) {meshes : List (Mesh fo.F × List UInt8)}
    (hne : meshes ≠ []) (h : ∀ x ∈ meshes, CompleteMesh fo x.1 ∧ ObjName x.2 ∧ FitsU32 [x]) :
    ∃ text res, writeObjOnes ft b meshes = .ok text ∧ readFromObj ft Importer.pushFace b' text = .ok res ∧
      List.Forall₂ SameGeometry res (piled [] [] [] meshes) := by
  cases meshes with
  | nil => exact absurd rfl hne
  | cons x meshes =>
    obtain ⟨m, name⟩ := x
    obtain ⟨hm, hn, hf⟩ := h _ List.mem_cons_self
    dsimp only at hm hn
    obtain ⟨res, hr, hg⟩ := readObjLoop_owns hl (pushFaceWith_triangles _) b' meshes m name .new hm
      (fun x hx => h x (List.mem_cons_of_mem _ hx))
    refine ⟨_, res, writeObjOnes_ok ft b _ fun x hx => ⟨(h x hx).1.faces, (h x hx).2.2⟩, ?_, hg⟩
    rw [readFromObj, textLines_objText ft]
    · have ew : ∀ o, wmesh m name o = .object name :: (wmesh m name o).tail := fun o => rfl
      rw [ownLines, List.flatMap_cons, List.cons_append, List.map_cons, readObjLoop_none (parseLine_smooth ft _ b' _)]
      dsimp only
      rw [ew, List.cons_append, List.map_cons, readObjLoop_none (oi' := { Importer.new with name := name })]
      · rw [List.map_append]
        exact (readObjLoop_own hl (pushFaceWith_triangles _) b' m name hm.plain _ .new (by simpa using hf.vertices)
          (by simpa using hf.normals) (by simpa using hf.uvs)).trans hr
      · rw [parseLine_object ft _ b' hn]
        rfl
    · intro l hlm
      obtain ⟨x, hx, hxl⟩ := List.mem_flatMap.mp hlm
      rcases List.mem_cons.mp hxl with rfl | hxl
      · exact cleanLine_of_chars (by rw [ObjLine.render]; decide)
      · refine wmeshes_clean hl [x] (1, 1, 1) (fun y hy => by cases List.mem_singleton.mp hy; exact ⟨(h x hx).1.plain, (h x hx).2.1⟩) l ?_
        rw [wmeshes, wmeshes, List.append_nil]
        exact hxl

/-- Equal buffers come from equal elements. -/
theorem bufferLoop_eq {α : Type} {d d' : List α} {t : List Nat} {i : Nat} (ht : i ∈ t) (hi : ∀ i ∈ t, i < d'.length)
    (h : Mesh.bufferLoop d t [] = Mesh.bufferLoop d' t []) : d[i]? = d'[i]? := by
  obtain ⟨h1, -⟩ := bufferLoop_spec d t []
  obtain ⟨h2, h3⟩ := bufferLoop_spec d' t []
  obtain ⟨k, hk⟩ := List.mem_iff_getElem?.mp ht
  cases hb : Mesh.bufferLoop d' t [] with
  | none =>
    obtain ⟨j, hj, hl⟩ := h3 hb
    exact absurd (hi j hj) (by omega)
  | some l =>
    obtain ⟨-, r, e, -, hr⟩ := h1 l (h.trans hb)
    obtain ⟨-, r', e', -, hr'⟩ := h2 l hb
    rw [List.nil_append] at e e'
    rw [← hr k i hk, ← hr' k i hk, ← e, ← e']

/-- C97 is false for .obj: of two meshes written one at a time to the same output, the second comes back with other
vertices whenever it uses a number that the first mesh gives to another vertex. -/
theorem C97_obj_violated {ft : FloatText fo} (hl : FloatTextLaws ft) (b b' : Build) {x y : Mesh fo.F × List UInt8}
    (hx : CompleteMesh fo x.1 ∧ ObjName x.2 ∧ FitsU32 [x]) (hy : CompleteMesh fo y.1 ∧ ObjName y.2 ∧ FitsU32 [y])
    {i : Nat} (hi : i ∈ y.1.vertexTriangles.getD []) (hlt : i < (x.1.vertices.getD []).length)
    (hne : (x.1.vertices.getD [])[i]? ≠ (y.1.vertices.getD [])[i]?) :
    ∃ text rx ry, writeObjOnes ft b [x, y] = .ok text ∧ readFromObj ft Importer.pushFace b' text = .ok [(rx, x.2), (ry, y.2)] ∧
      rx.getVertexBuffer = x.1.getVertexBuffer ∧ ry.getVertexBuffer ≠ y.1.getVertexBuffer := by
  obtain ⟨text, res, h1, h2, h3⟩ := C97_obj_stream hl b b' (meshes := [x, y]) (by simp) (fun z hz => by
    rcases List.mem_cons.mp hz with rfl | hz
    · exact hx
    · cases List.mem_singleton.mp hz
      exact hy)
  obtain ⟨⟨rx, nx⟩, ⟨ry, ny⟩, rfl, hgx, hgy⟩ := forall₂_two h3.flip
  have ex : nx = x.2 := hgx.1
  have ey : ny = y.2 := hgy.1
  subst ex ey
  obtain ⟨v, ev, -, hr⟩ := hy.1.faces.vertices
  obtain ⟨dv, edv⟩ := Option.isSome_iff_exists.mp hy.1.vertices
  obtain ⟨vx, evx, -, -⟩ := hx.1.faces.vertices
  obtain ⟨dx, edx⟩ := Option.isSome_iff_exists.mp hx.1.vertices
  rw [ev, Option.getD_some] at hi
  rw [edv, Option.getD_some] at hr hne
  rw [edx, Option.getD_some] at hlt hne
  refine ⟨text, rx, ry, h1, h2, hgx.2.1.trans ?_, fun hc => hne ?_⟩
  · simp [Mesh.getVertexBuffer, Mesh.getVertices, Mesh.getVertexTriangles, edx]
  · have h4 := hgy.2.1.symm.trans hc
    simp only [Mesh.getVertexBuffer, Mesh.getVertices, Mesh.getVertexTriangles, ev, edv, edx, List.nil_append, Option.getD_some] at h4
    have h5 := bufferLoop_eq (d := dx ++ dv) (d' := dv) hi (fun j hj => (hr j hj).1) h4
    rw [← h5, List.getElem?_append_left hlt]

/-- A triangle for the example. -/
def apartMesh (k : Nat) : Mesh (Ieee.Val Ieee.b32) :=
  triangleMesh (wholePoint k 1 2) (wholePoint 3 1 2) (wholePoint 0 1 7) (wholePoint 0 1 0) (Ieee.ofNat 0, Ieee.ofNat 1)
    (Ieee.ofNat 1, Ieee.ofNat 1)

theorem apartMesh_ok (lib : Ieee.Libm) (k : Nat) {name : List UInt8} (hn : ObjName name) :
    CompleteMesh (Ieee.ops lib) (apartMesh k) ∧ ObjName name ∧ FitsU32 [(apartMesh k, name)] := by
  refine ⟨triangleMesh_complete (fo := Ieee.ops lib) _ _ _ _ _ _ ?_ ?_, hn, ?_⟩
  · intro x hx
    simp only [List.mem_cons, List.not_mem_nil, or_false] at hx
    rcases hx with rfl | rfl | rfl | rfl <;> unfold wholePoint <;> refine ⟨?_, ?_, ?_⟩ <;> dsimp only <;> exact ofNat_isNaN _
  · intro x hx
    simp only [List.mem_cons, List.not_mem_nil, or_false] at hx
    rcases hx with rfl | rfl <;> refine ⟨?_, ?_⟩ <;> dsimp only <;> exact ofNat_isNaN _
  · constructor <;> simp [apartMesh, triangleMesh]

theorem name_a : ObjName (ascii "a") := ⟨validUtf8_iff.mp (by decide +kernel), by decide, by decide⟩
theorem name_b : ObjName (ascii "b") := ⟨validUtf8_iff.mp (by decide +kernel), by decide, by decide⟩

theorem apart_first : (wholePoint 0 1 2) ≠ wholePoint 5 1 2 := by decide +kernel

/-- Two triangles of IEEE values at different places. -/
example (lib : Ieee.Libm) (b b' : Build) : ∃ text rx ry,
    writeObjOnes (Ieee.floatText lib) b [(apartMesh 0, ascii "a"), (apartMesh 5, ascii "b")] = .ok text ∧
      readFromObj (Ieee.floatText lib) Importer.pushFace b' text = .ok [(rx, ascii "a"), (ry, ascii "b")] ∧
      rx.getVertexBuffer = (apartMesh 0).getVertexBuffer ∧ ry.getVertexBuffer ≠ (apartMesh 5).getVertexBuffer :=
  C97_obj_violated (fo := Ieee.ops lib) (Ieee.floatText_laws lib) b b' (apartMesh_ok lib 0 name_a) (apartMesh_ok lib 5 name_b)
    (i := 0) List.mem_cons_self (Nat.zero_lt_succ _) (fun h => apart_first (Option.some.inj h))

end Obj

end Tmf.Props
