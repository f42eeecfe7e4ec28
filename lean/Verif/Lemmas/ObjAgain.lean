import Verif.Lemmas.ObjFile
import Verif.Spec.ObjAgain
/-
Reading what was written of meshes that were read.
-/

namespace Tmf
open Spec

variable {fo : FloatOps}

theorem pruneMin_skip {n : Nat} (hn : 0 < n) : ∀ (t : List Nat) (k : Nat), n ≤ k → 0 ∈ t → pruneMin (t.map (· + n)) k = some n
  | [], _, _, h => absurd h List.not_mem_nil
  | i :: t, k, hk, h => by
    rw [List.map_cons, pruneMin, if_neg (by omega)]
    have key : ∀ (s : List Nat), pruneMin (s.map (· + n)) n = some n := by
      intro s
      induction s with
      | nil => rfl
      | cons j s ih => rw [List.map_cons, pruneMin, if_neg (by omega), Nat.min_eq_left (by omega), ih]
    rcases List.mem_cons.mp h with rfl | h
    · rw [Nat.zero_add, Nat.min_eq_right hk]
      exact key t
    · exact pruneMin_skip hn t _ (by omega) h

theorem pruneMin_zero : ∀ (t : List Nat) (k : Nat), 0 ∈ t → pruneMin t k = none
  | [], _, h => absurd h List.not_mem_nil
  | i :: t, k, h => by
    rw [pruneMin]
    by_cases hi : i = 0
    · rw [if_pos hi]
    · rw [if_neg hi]
      exact pruneMin_zero t _ ((List.mem_cons.mp h).resolve_left fun e => hi e.symm)

/-- Pruning takes away exactly what other meshes put before. -/
theorem fastPrune_own {α : Type} (b : Build) (pre own : List α) (t : List Nat) (h0 : 0 ∈ t) (hl : (pre ++ own).length < 2 ^ 32) :
    fastPrune b (pre ++ own) (t.map (· + pre.length)) = .ok (own, t) := by
  have hne : t.map (· + pre.length) ≠ [] := by
    intro e
    rw [List.map_eq_nil_iff.mp e] at h0
    exact List.not_mem_nil h0
  rw [fastPrune, if_neg hne, Nat.mod_eq_of_lt hl]
  rcases Nat.eq_zero_or_pos pre.length with hp | hp
  · rw [List.length_eq_zero_iff.mp hp]
    simp only [List.length_nil, Nat.add_zero, List.map_id', List.nil_append]
    rw [pruneMin_zero t _ h0]
  · rw [pruneMin_skip hp t _ (by simp) h0]
    have hs : ∀ i ∈ t.map (· + pre.length), subU32 b i pre.length = .ok (i - pre.length) := by
      intro i hi
      obtain ⟨j, _, rfl⟩ := List.mem_map.mp hi
      rw [subU32.eq_def, if_pos (Nat.le_add_left _ _)]
    simp only [List.length_append, Nat.le_add_right, if_true, mapAll_of_ok hs, Outcome.bind_ok, List.drop_left, List.map_map]
    congr 2
    exact (List.map_congr_left fun i _ => Nat.add_sub_cancel i pre.length).trans (List.map_id t)

theorem fastPrune_none {α : Type} (b : Build) (data : List α) : fastPrune b data [] = .ok (data, []) := rfl

/-- The mesh built after the lines of a tidy mesh is that mesh. -/
theorem afterMesh_build_tidy (b : Build) (m : Mesh fo.F) (name : List UInt8) (oi : Importer fo.F) (hm : CompleteMesh fo m) (ht : Tidy m)
    (hv : oi.vertices.length + (m.vertices.getD []).length < 2 ^ 32) (hn : oi.normals.length + (m.normals.getD []).length < 2 ^ 32)
    (hu : oi.uvs.length + (m.uvs.getD []).length < 2 ^ 32) : (afterMesh m name oi).build b = .ok m := by
  obtain ⟨nl, nt, vl, vt, ul, ut, tl, tt, cd⟩ := m
  obtain ⟨v, ev⟩ := Option.isSome_iff_exists.mp hm.vertices
  obtain ⟨n, en⟩ := Option.isSome_iff_exists.mp hm.normals
  obtain ⟨u, eu⟩ := Option.isSome_iff_exists.mp hm.uvs
  obtain ⟨tv, etv, _⟩ := hm.faces.vertices
  obtain ⟨tn, etn⟩ := Option.isSome_iff_exists.mp hm.normalTriangles
  obtain ⟨tu, etu⟩ := Option.isSome_iff_exists.mp hm.uvTriangles
  have e1 := ht.tangents
  have e2 := ht.tangentTriangles
  have e3 := ht.custom
  dsimp only at ev en eu etv etn etu e1 e2 e3 hv hn hu
  subst ev en eu etv etn etu e1 e2 e3
  simp only [Option.getD_some] at hv hn hu
  rw [Importer.build]
  simp only [afterMesh, Option.getD_some]
  rw [fastPrune_own b _ _ _ (ht.vertex tv rfl) (by rw [List.length_append]; exact hv),
    fastPrune_own b _ _ _ (ht.normal tn rfl) (by rw [List.length_append]; exact hn),
    fastPrune_own b _ _ _ (ht.uv tu rfl) (by rw [List.length_append]; exact hu)]
  rfl

/-- The importer after the lines of several meshes. -/
def afterMeshes {F : Type} (meshes : List (Mesh F × List UInt8)) (oi : Importer F) : Importer F :=
  meshes.foldl (fun oi x => afterMesh x.1 x.2 oi) oi

/-- Reading the lines of tidy meshes after those of a tidy mesh, and then others. -/
theorem readObjLoop_tidy {ft : FloatText fo} (hl : FloatTextLaws ft) {face : PushFace fo.F} (hp : PushesTriangles face) (b : Build)
    {rest : List (List UInt8)} {r : List (Mesh fo.F × List UInt8)} :
    ∀ (meshes : List (Mesh fo.F × List UInt8)) (m : Mesh fo.F) (name : List UInt8) (oi : Importer fo.F), CompleteMesh fo m → Tidy m →
      (∀ x ∈ meshes, (CompleteMesh fo x.1 ∧ Tidy x.1) ∧ ObjName x.2) →
      1 + oi.vertices.length + (m.vertices.getD []).length + (meshes.map fun m => (m.1.vertices.getD []).length).sum < 2 ^ 32 →
      1 + oi.normals.length + (m.normals.getD []).length + (meshes.map fun m => (m.1.normals.getD []).length).sum < 2 ^ 32 →
      1 + oi.uvs.length + (m.uvs.getD []).length + (meshes.map fun m => (m.1.uvs.getD []).length).sum < 2 ^ 32 →
      readObjLoop ft face b rest (afterMeshes meshes (afterMesh m name oi)) = .ok r →
      readObjLoop ft face b ((wmeshes meshes (offsetsOf (afterMesh m name oi))).map (ObjLine.render ft) ++ rest)
          (afterMesh m name oi) = .ok (((m, name) :: meshes).dropLast ++ r)
  | [], m, name, oi, _, _, _, _, _, _, hr => by
    rw [wmeshes, List.map_nil]
    exact hr
  | (m2, name2) :: meshes, m, name, oi, hm, ht, hms, h0, h1, h2, hr => by
    simp only [List.map_cons, List.sum_cons] at h0 h1 h2
    obtain ⟨⟨hm2, ht2⟩, hn2⟩ := hms _ List.mem_cons_self
    dsimp only at hm2 hn2 ht2
    have l0 : (afterMesh m name oi).vertices.length = oi.vertices.length + (m.vertices.getD []).length := by simp [afterMesh]
    have l1 : (afterMesh m name oi).normals.length = oi.normals.length + (m.normals.getD []).length := by simp [afterMesh]
    have l2 : (afterMesh m name oi).uvs.length = oi.uvs.length + (m.uvs.getD []).length := by simp [afterMesh]
    have ih := readObjLoop_tidy hl hp b meshes m2 name2 (afterMesh m name oi) hm2 ht2
      (fun x hx => hms x (List.mem_cons_of_mem _ hx)) (by omega) (by omega) (by omega) hr
    rw [wmeshes, List.map_append]
    have ew : ∀ o, wmesh m2 name2 o = .object name2 :: (wmesh m2 name2 o).tail := fun o => rfl
    rw [ew, List.map_cons, List.cons_append, List.cons_append, offsets_after m2 name2]
    refine readObjLoop_object b hn2 _ _ (afterMesh_ne m name oi hm) (afterMesh_build_tidy b m name oi hm ht (by omega) (by omega) (by omega)) ?_
    rw [List.append_assoc, readObjLoop_body hl hp b m2 name2 hm2.plain _ _ (by omega) (by omega) (by omega)]
    exact ih

/-- Reading a whole file, up to the lines after tidy meshes. -/
theorem readFromObj_tidy {ft : FloatText fo} (hl : FloatTextLaws ft) {face : PushFace fo.F} (hp : PushesTriangles face) (b : Build)
    (x : Mesh fo.F × List UInt8) (meshes : List (Mesh fo.F × List UInt8))
    (hms : ∀ y ∈ x :: meshes, (CompleteMesh fo y.1 ∧ Tidy y.1) ∧ ObjName y.2) (hf : FitsU32 (x :: meshes))
    (more : List (ObjLine fo.F)) (hc : ∀ l ∈ more, CleanLine (ObjLine.render ft l)) {r : List (Mesh fo.F × List UInt8)}
    (hr : readObjLoop ft face b (more.map (ObjLine.render ft)) (afterMeshes (x :: meshes) .new) = .ok r) :
    readFromObj ft face b (objText ft (.smooth :: (wmeshes (x :: meshes) (1, 1, 1) ++ more))) = .ok ((x :: meshes).dropLast ++ r) := by
  obtain ⟨m, name⟩ := x
  obtain ⟨⟨hm, ht⟩, hn⟩ := hms _ List.mem_cons_self
  dsimp only at hm hn ht
  obtain ⟨f0, f1, f2⟩ := hf
  simp only [List.map_cons, List.sum_cons] at f0 f1 f2
  have key := readObjLoop_tidy hl hp b meshes m name .new hm ht (fun x hx => hms x (List.mem_cons_of_mem _ hx))
      (by simp only [Importer.new, List.length_nil]; omega) (by simp only [Importer.new, List.length_nil]; omega)
      (by simp only [Importer.new, List.length_nil]; omega) hr
  rw [readFromObj, textLines_objText ft]
  · rw [List.map_cons, readObjLoop_none (parseLine_smooth ft face b _)]
    have ew : ∀ o, wmesh m name o = .object name :: (wmesh m name o).tail := fun o => rfl
    rw [List.map_append, wmeshes, List.map_append, ew, List.map_cons, List.cons_append, List.cons_append]
    have ho : ((1, 1, 1) : Nat × Nat × Nat) = offsetsOf (Importer.new (F := fo.F)) := rfl
    rw [readObjLoop_none (oi' := { Importer.new with name := name }), ho, offsets_after m name]
    · rw [List.append_assoc]
      refine (readObjLoop_body hl hp b m name hm.plain _ .new ?_ ?_ ?_).trans key <;>
        simp only [Importer.new, List.length_nil] <;> omega
    · rw [parseLine_object ft face b hn]
      rfl
  · intro l h
    rcases List.mem_cons.mp h with rfl | h
    · refine cleanLine_of_chars ?_
      rw [ObjLine.render]
      decide
    · rcases List.mem_append.mp h with h | h
      · exact wmeshes_clean hl _ _ (fun x hx => ⟨(hms x hx).1.1.plain, (hms x hx).2⟩) l h
      · exact hc l h

/-- Tidy meshes are read back as they were. -/
theorem readFromObj_same {ft : FloatText fo} (hl : FloatTextLaws ft) {face : PushFace fo.F} (hp : PushesTriangles face) (b : Build)
    (x : Mesh fo.F × List UInt8) (meshes : List (Mesh fo.F × List UInt8))
    (hms : ∀ y ∈ x :: meshes, (CompleteMesh fo y.1 ∧ Tidy y.1) ∧ ObjName y.2) (hf : FitsU32 (x :: meshes)) :
    readFromObj ft face b (objText ft (.smooth :: wmeshes (x :: meshes) (1, 1, 1))) = .ok (x :: meshes) := by
  have h := readFromObj_tidy hl hp b x meshes hms hf [] (by simp) (r := [(x :: meshes).getLast (by simp)]) ?_
  · rw [List.append_nil] at h
    rw [h, List.dropLast_append_getLast]
  · have key : ∀ (l : List (Mesh fo.F × List UInt8)) (y : Mesh fo.F × List UInt8) (oi : Importer fo.F),
        (∀ z ∈ y :: l, CompleteMesh fo z.1 ∧ Tidy z.1) →
        1 + oi.vertices.length + ((y :: l).map fun m => (m.1.vertices.getD []).length).sum < 2 ^ 32 →
        1 + oi.normals.length + ((y :: l).map fun m => (m.1.normals.getD []).length).sum < 2 ^ 32 →
        1 + oi.uvs.length + ((y :: l).map fun m => (m.1.uvs.getD []).length).sum < 2 ^ 32 →
        (afterMeshes (y :: l) oi).finish b = .ok ((y :: l).getLast (by simp)) := by
      intro l
      induction l with
      | nil =>
        intro y oi hy h0 h1 h2
        obtain ⟨hm, ht⟩ := hy y List.mem_cons_self
        simp only [List.map_cons, List.map_nil, List.sum_cons, List.sum_nil] at h0 h1 h2
        show (afterMesh y.1 y.2 oi).finish b = _
        rw [Importer.finish, afterMesh_build_tidy b y.1 y.2 oi hm ht (by omega) (by omega) (by omega)]
        rfl
      | cons z l ih =>
        intro y oi hy h0 h1 h2
        simp only [List.map_cons, List.sum_cons] at h0 h1 h2
        rw [List.getLast_cons (by simp)]
        refine ih z (afterMesh y.1 y.2 oi) (fun w hw => hy w (List.mem_cons_of_mem _ hw)) ?_ ?_ ?_ <;>
          simp only [afterMesh, List.length_append, List.map_cons, List.sum_cons] <;> omega
    rw [List.map_nil, readObjLoop, key meshes x .new (fun y hy => (hms y hy).1) (by simpa [Importer.new] using hf.vertices)
      (by simpa [Importer.new] using hf.normals) (by simpa [Importer.new] using hf.uvs)]
    rfl

/-- A last object without faces gathers the points of the mesh before it. -/
theorem readFromObj_loose {ft : FloatText fo} (hl : FloatTextLaws ft) {face : PushFace fo.F} (hp : PushesTriangles face) (b : Build)
    {m : Mesh fo.F} {name last : List UInt8} {mv mn v n : List (Vec3 fo.F)} {mu u : List (Vec2 fo.F)} (hm : CompleteMesh fo m) (ht : Tidy m)
    (hname : ObjName name) (hlast : ObjName last) (ev : m.vertices = some mv) (en : m.normals = some mn) (eu : m.uvs = some mu)
    (hn : NoNaN fo (loosePoints v n u)) (hf : FitsU32 [(m, name), (loosePoints v n u, last)]) :
    readFromObj ft face b (objText ft (.smooth :: wmeshes [(m, name), (loosePoints v n u, last)] (1, 1, 1))) =
      .ok [(m, name), (loosePoints (mv ++ v) (mn ++ n) (mu ++ u), last)] := by
  obtain ⟨f0, f1, f2⟩ := hf
  simp only [List.map_cons, List.map_nil, List.sum_cons, List.sum_nil, ev, en, eu, Option.getD_some, loosePoints] at f0 f1 f2
  have hplain : PlainMesh fo (loosePoints v n u) := by
    refine ⟨⟨⟨[], rfl, by simp, fun i hi => absurd hi List.not_mem_nil⟩, ?_, ?_⟩, rfl, rfl, hn⟩ <;>
    · intro t h
      cases h
      exact ⟨rfl, fun i hi => absurd hi List.not_mem_nil⟩
  have ho : ((1, 1, 1) : Nat × Nat × Nat) = offsetsOf (Importer.new (F := fo.F)) := rfl
  have e : wmeshes [(m, name), (loosePoints v n u, last)] (1, 1, 1) =
      wmeshes [(m, name)] (1, 1, 1) ++ wmesh (loosePoints v n u) last (offsetsOf (afterMesh m name .new)) := by
    rw [wmeshes, wmeshes, wmeshes, wmeshes, wmeshes, List.append_nil, List.append_nil, ho, offsets_after m name]
  have hcl := wmeshes_clean hl [(loosePoints v n u, last)] (offsetsOf (afterMesh m name .new))
    (by intro x hx; cases List.mem_singleton.mp hx; exact ⟨hplain, hlast⟩)
  rw [wmeshes, wmeshes, List.append_nil] at hcl
  rw [e]
  refine readFromObj_tidy hl hp b (m, name) [] (fun y hy => by cases List.mem_singleton.mp hy; exact ⟨⟨hm, ht⟩, hname⟩)
    ⟨by simp [ev]; omega, by simp [en]; omega, by simp [eu]; omega⟩ _ hcl ?_
  show readObjLoop ft face b _ (afterMesh m name .new) = _
  have ew : ∀ o, wmesh (loosePoints v n u) last o = .object last :: (wmesh (loosePoints v n u) last o).tail := fun o => rfl
  rw [ew, List.map_cons]
  refine readObjLoop_object b hlast _ _ (afterMesh_ne m name .new hm) (afterMesh_build_tidy b m name .new hm ht ?_ ?_ ?_)
    (res := [(loosePoints (mv ++ v) (mn ++ n) (mu ++ u), last)]) ?_
  · simp [Importer.new, ev]; omega
  · simp [Importer.new, en]; omega
  · simp [Importer.new, eu]; omega
  have hb := readObjLoop_body hl hp b (loosePoints v n u) last hplain [] (afterMesh m name .new)
    (by simp [Importer.new, afterMesh, ev, loosePoints]; omega) (by simp [Importer.new, afterMesh, en, loosePoints]; omega)
    (by simp [Importer.new, afterMesh, eu, loosePoints]; omega)
  rw [List.append_nil] at hb
  rw [hb, readObjLoop, Importer.finish, Importer.build]
  simp [afterMesh, Importer.new, loosePoints, ev, en, eu, fastPrune_none, bind, Outcome.bind, Outcome.widen, Mesh.setVertices,
    Mesh.setNormals, Mesh.setUvs, Mesh.setVertexTriangles, Mesh.setNormalTriangles, Mesh.setUvTriangles, Mesh.empty]

/-- What is read from a file is complete and tidy. -/
theorem ReadFrom.tidy {s : Scene fo.F} {m : Mesh fo.F × List UInt8} {o : List UInt8 × List (List (CornerData fo.F))}
    (h : ReadFrom s m o) (hne : o.2 ≠ []) (hn : s.NoNaN fo) (hv : s.vertices.length < 2 ^ 32) (hns : s.normals.length < 2 ^ 32)
    (hu : s.uvs.length < 2 ^ 32) : CompleteMesh fo m.1 ∧ Tidy m.1 := by
  obtain ⟨v, ev, sv⟩ := h.vertices
  obtain ⟨n, en, sn⟩ := h.normals
  obtain ⟨u, eu, su⟩ := h.uvs
  obtain ⟨tv, etv, _⟩ := h.read.whole.vertices
  have hne' : tv ≠ [] := by
    rintro rfl
    have := h.read.faces
    rw [meshFaces, etv] at this
    exact hne this.symm
  have other : ∀ {t : List Nat}, t.length = (m.1.vertexTriangles.getD []).length → t ≠ [] := by
    rintro t hl rfl
    rw [etv] at hl
    exact hne' (List.length_eq_zero_iff.mp hl.symm)
  refine ⟨⟨h.read.whole, ?_, by rw [ev]; rfl, by rw [en]; rfl, by rw [eu]; rfl, h.read.normals, h.read.uvs, ?_⟩, ?_⟩
  · rw [etv]
    exact fun e => hne' (Option.some.inj e)
  · rw [NoNaN, ev, en, eu]
    exact ⟨fun x hx => hn.1 x (sv.subset hx), fun x hx => hn.2.1 x (sn.subset hx), fun x hx => hn.2.2 x (su.subset hx)⟩
  · refine ⟨?_, ?_, ?_, h.tangents, h.tangentTriangles, h.custom⟩
    · intro t e
      rw [etv] at e
      cases e
      exact h.firstVertex hv _ etv hne'
    · exact fun t e => h.firstNormal hns t e (other (h.read.whole.normals t e).1)
    · exact fun t e => h.firstUv hu t e (other (h.read.whole.uvs t e).1)

theorem sum_le_forall₂ {α β : Type} {R : α → β → Prop} (f : α → Nat) (k : Nat) : ∀ {l : List α} {l' : List β}, List.Forall₂ R l l' →
    (∀ x y, R x y → f x ≤ k) → (l.map f).sum ≤ l'.length * k
  | [], [], _, _ => by simp
  | x :: l, y :: l', .cons h1 h2, h => by
    have := sum_le_forall₂ f k h2 h
    have := h x y h1
    simp only [List.map_cons, List.sum_cons, List.length_cons, Nat.succ_mul]
    omega

theorem delivered_length {F : Type} (l : List (List UInt8 × List (List (CornerData F)))) : (delivered l).length ≤ l.length := by
  rcases List.eq_nil_or_concat l with rfl | ⟨l, x, rfl⟩
  · simp [delivered]
  · simp only [delivered, List.concat_eq_append, List.dropLast_concat, List.getLast?_concat, List.length_append, Option.toList]
    exact Nat.add_le_add_right (List.length_filter_le _ _) _

/-- All copies together can be numbered. -/
theorem readFrom_fits {s : Scene fo.F} (hs : s.Small) {res : List (Mesh fo.F × List UInt8)}
    (h : List.Forall₂ (ReadFrom s) res (delivered s.objects)) : FitsU32 res := by
  have hd := delivered_length s.objects
  have k1 := sum_le_forall₂ (fun m : Mesh fo.F × List UInt8 => (m.1.vertices.getD []).length) s.vertices.length h
    (fun x y hr => by obtain ⟨v, ev, sv⟩ := hr.vertices; rw [ev]; exact sv.length_le)
  have k2 := sum_le_forall₂ (fun m : Mesh fo.F × List UInt8 => (m.1.normals.getD []).length) s.normals.length h
    (fun x y hr => by obtain ⟨v, ev, sv⟩ := hr.normals; rw [ev]; exact sv.length_le)
  have k3 := sum_le_forall₂ (fun m : Mesh fo.F × List UInt8 => (m.1.uvs.getD []).length) s.uvs.length h
    (fun x y hr => by obtain ⟨v, ev, sv⟩ := hr.uvs; rw [ev]; exact sv.length_le)
  have m1 := Nat.mul_le_mul_right s.vertices.length hd
  have m2 := Nat.mul_le_mul_right s.normals.length hd
  have m3 := Nat.mul_le_mul_right s.uvs.length hd
  obtain ⟨a, b, c⟩ := hs
  exact ⟨by omega, by omega, by omega⟩

end Tmf
