import Verif.Lemmas.Export
import Verif.Props.Convert
import Verif.Props.Decimal
/-
C79: a .tmf file exported as .obj, and a .obj file stored as .tmf and exported again.
-/

set_option exponentiation.threshold 2000

namespace Tmf.Props
open Spec Ieee

variable {lib : Libm} {fb : F64Bytes (ops lib)} {prec : PrecisionInfo (Val b32)} {meshes : List (Mesh (Val b32) × List UInt8)}

theorem forall₂_and {α β : Type} {R S : α → β → Prop} : ∀ {l : List α} {l' : List β}, List.Forall₂ R l l' → List.Forall₂ S l l' →
    List.Forall₂ (fun a b => R a b ∧ S a b) l l'
  | _, _, .nil, _ => .nil
  | _, _, .cons h hs, .cons k ks => .cons ⟨h, k⟩ (forall₂_and hs ks)

/-- What is loaded of exportable meshes has all its parts and no NaN, whatever the numbers saved. -/
theorem loaded_complete (hlib : AccurateLibm lib) (hlog : AccurateLog2 lib) (hmono : MonotoneLog2 lib) (h : Saveable 30 prec meshes)
    (hm : ∀ mn ∈ meshes, Exportable mn.1) :
    ∃ bytes out, (∀ b, tmfBytes (ops lib) fb b prec meshes = .ok bytes) ∧
      (∀ b' junk sched, readTmf (ops lib) fb b' ⟨bytes ++ junk, sched, false⟩ = .ok out) ∧
      List.Forall₂ (fun mn mn' => CameBack (ops lib) mn mn' ∧ CompleteMesh (ops lib) mn'.1) meshes out := by
  obtain ⟨bytes, out, hb, -, hr, hc⟩ := C65_saved (fb := fb) hlog hmono h
  obtain ⟨bytes', out', hb', hr', hv⟩ := C78_saved (fb := fb) hlog hmono h
  have e : bytes' = bytes := by have := hb' .checked; rw [hb .checked] at this; cases this; rfl
  subst e
  have e : out' = out := by have := hr' .checked [] []; rw [hr .checked [] []] at this; cases this; rfl
  subst e
  have hn := C61_numbers hlib (hr .checked [] [])
  refine ⟨bytes', out', hb, hr, ?_⟩
  have hall : List.Forall₂ (fun mn mn' => (CameBack (ops lib) mn mn' ∧ NumbersInRange mn'.1) ∧ _) meshes out' :=
    forall₂_and (forall₂_and hc (List.forall₂_iff_get.mpr ⟨hc.length_eq, fun i h1 h2 => hn _ (List.get_mem _ _)⟩)) hv
  refine forall₂_imp hall ?_
  rintro mn hmn mn' ⟨⟨hc, hn⟩, hv⟩
  have he := exportable_back hc (hm mn hmn)
  obtain ⟨l, hl⟩ := Option.isSome_iff_exists.mp (hm mn hmn).vertices
  obtain ⟨l', hl', -, hcube⟩ := hv l hl
  obtain ⟨M, δ, hs⟩ := (h.mesh mn hmn).vertices l hl
  refine ⟨hc, he.faces, he.nonempty, he.vertices, he.normals, he.uvs, he.normalTriangles, he.uvTriangles, ?_, ?_, ?_⟩
  · intro v hv
    rw [hl'] at hv
    obtain ⟨⟨f1, f2, f3⟩, -⟩ := hcube (-M) M (fun v hv => by
      obtain ⟨f, a, b, c⟩ := hs.inner v hv
      exact ⟨f, abs_le.mp a, abs_le.mp b, abs_le.mp c⟩) v hv
    exact ⟨isNaN_of_finite f1, isNaN_of_finite f2, isNaN_of_finite f3⟩
  · intro v hv
    obtain ⟨n, hn'⟩ := Option.isSome_iff_exists.mp he.normals
    rw [hn'] at hv
    rcases hn.normals n hn' v hv with ⟨⟨f1, f2, f3⟩, -⟩ | ⟨f1, f2, f3⟩
    · exact ⟨isNaN_of_finite f1, isNaN_of_finite f2, isNaN_of_finite f3⟩
    · exact ⟨isNaN_of_one f1, isNaN_of_one f2, isNaN_of_one f3⟩
  · intro v hv
    obtain ⟨u, hu⟩ := Option.isSome_iff_exists.mp he.uvs
    rw [hu] at hv
    obtain ⟨⟨f1, -⟩, f2, -⟩ := hn.uvs u hu v hv
    exact ⟨isNaN_of_finite f1, isNaN_of_finite f2⟩

/-- C79: meshes saved, loaded, exported and read are the meshes that were loaded, triangle by triangle. -/
theorem C79_exported (hlib : AccurateLibm lib) (hlog : AccurateLog2 lib) (hmono : MonotoneLog2 lib) (h : Saveable 30 prec meshes)
    (hne : meshes ≠ []) (hm : ∀ mn ∈ meshes, Exportable mn.1 ∧ ObjName mn.2) :
    ∃ bytes out text, (∀ b, tmfBytes (ops lib) fb b prec meshes = .ok bytes) ∧
      (∀ b junk sched, readTmf (ops lib) fb b ⟨bytes ++ junk, sched, false⟩ = .ok out) ∧
      List.Forall₂ (CameBack (ops lib)) meshes out ∧ (∀ b, writeObj (floatText lib) b out = .ok text) ∧
      ∀ b, ∃ res, readFromObj (floatText lib) Importer.pushFace b text = .ok res ∧ List.Forall₂ SameFaces res out := by
  obtain ⟨bytes, out, hb, hr, hc⟩ := loaded_complete (fb := fb) hlib hlog hmono h (fun mn h => (hm mn h).1)
  have hcb : List.Forall₂ (CameBack (ops lib)) meshes out := hc.imp fun _ _ h => h.1
  have hf := fits_back hcb h.size
  have hall : ∀ mn' ∈ out, CompleteMesh (ops lib) mn'.1 ∧ ObjName mn'.2 := by
    intro mn' hmn'
    obtain ⟨mn, hmn, hmc, hcm⟩ := exists_of_forall₂ hc.flip mn' hmn'
    exact ⟨hcm, by rw [hmc.name]; exact (hm mn hmn).2⟩
  have hne' : out ≠ [] := by
    rintro rfl
    cases hcb
    exact hne rfl
  refine ⟨bytes, out, _, hb, hr, hcb, fun b => writeObj_ok (floatText lib) b out (fun m h => (hall m h).1.faces) hf, fun b => ?_⟩
  obtain ⟨res, hres, hg⟩ := readFromObj_written (floatText_laws lib) (pushFaceWith_triangles _) b out hne' hall hf
  refine ⟨res, hres, List.forall₂_iff_get.mpr ⟨hg.length_eq, fun i h1 h2 => ?_⟩⟩
  exact sameFaces_of_sameGeometry (hall _ (List.get_mem _ _)).1 ((List.forall₂_iff_get.mp hg).2 i h1 h2)

variable {M δ : ℚ}

/-- C79, from .obj to .obj: the objects come back with their names and faces, and each corner has its uv and its
normal within the precision asked for. -/
theorem C79_reexported (hlib : AccurateLibm lib) (hlog : AccurateLog2 lib) (hmono : MonotoneLog2 lib) (ft : FloatText (ops lib)) (b : Build)
    (lines : List (TextLine (Val b32))) (last : Option (TextLine (Val b32)))
    (hc : ∀ l ∈ lines, LineChars l.text) (hlast : ∀ l ∈ last, LineChars l.text ∧ l.text ≠ [])
    (hm : ∀ l ∈ lines ++ last.toList, LineMeans ft l.text l.means) (hd : Defined Scene.start (fileMeans lines last))
    {k : Nat} (hk1 : 1 ≤ k) (hk : k ≤ 30) (hs : StorableScene k (valueOf prec.vertex) M δ (sceneOf (fileMeans lines last)))
    (hmean : MeaningfulScene prec (sceneOf (fileMeans lines last)))
    (hobj : ∀ o ∈ delivered (sceneOf (fileMeans lines last)).objects, o.2 ≠ [] ∧ ObjName o.1)
    (p1 : isFinite prec.vertex = true) (p2 : 1 / 2 ^ 20 ≤ valueOf prec.vertex ∧ valueOf prec.vertex ≤ 2 ^ 20)
    (p3 : 1 ≤ prec.normal ∧ prec.normal ≤ 30) (p4 : 1 ≤ prec.uv ∧ prec.uv ≤ 30) (p5 : 1 ≤ prec.tangent ∧ prec.tangent ≤ 30) :
    ∃ meshes bytes out text, readFromObj ft Importer.pushFace b (fileText lines last) = .ok meshes ∧
      (∀ b, tmfBytes (ops lib) fb b prec meshes = .ok bytes) ∧
      (∀ b junk sched, readTmf (ops lib) fb b ⟨bytes ++ junk, sched, false⟩ = .ok out) ∧
      (∀ b, writeObj (floatText lib) b out = .ok text) ∧
      ∀ b, ∃ res, readFromObj (floatText lib) Importer.pushFace b text = .ok res ∧
        List.Forall₂ (fun o m => m.2 = o.1 ∧ List.Forall₂ (List.Forall₂ (CornerKept prec)) o.2 (meshFaces m.1))
          (delivered (sceneOf (fileMeans lines last)).objects) res := by
  obtain ⟨meshes, bytes, out, e, hb, hr, ho, -⟩ := C72_accurate_partial (fb := fb) hlib hlog hmono ft b lines last hc hlast hm hd hk1 hk hs hmean p1 p2
    p3 p4 p5
  obtain ⟨meshes', e', hrf, hsv⟩ := scene_saveable ft b lines last hc hlast hm hd hs p1 p2.2 p3.2 p4.2 p5.2
  have he : meshes' = meshes := by rw [e] at e'; cases e'; rfl
  subst he
  have hne : meshes' ≠ [] := by
    rintro rfl
    have h0 := hrf.length_eq
    have h1 : delivered (sceneOf (fileMeans lines last)).objects ≠ [] := delivered_ne _
    exact h1 (List.length_eq_zero_iff.mp h0.symm)
  have hx : ∀ mn ∈ meshes', Exportable mn.1 ∧ ObjName mn.2 := by
    intro mn hmn
    obtain ⟨o, ho', hro⟩ := exists_of_forall₂ hrf mn hmn
    obtain ⟨v, n, u, vt, nt, ut, em, -, -, -, lv, -⟩ := readFrom_triangles hro
    have hfa := hro.read.whole
    refine ⟨⟨hfa, ?_, ?_, ?_, ?_, ?_, ?_⟩, by rw [hro.read.name]; exact (hobj o ho').2⟩
    · rw [em]
      intro hnil
      cases hnil
      exact (hobj o ho').1 (List.length_eq_zero_iff.mp (by simpa using lv.symm))
    all_goals rw [em]; rfl
  obtain ⟨bytes', out', text, hb', hr', -, ht, hres⟩ := C79_exported (fb := fb) hlib hlog hmono (saveable_mono hk hsv) hne hx
  have eb : bytes' = bytes := by have := hb' .checked; rw [hb .checked] at this; cases this; rfl
  subst eb
  have eo : out' = out := by have := hr' .checked [] []; rw [hr .checked [] []] at this; cases this; rfl
  subst eo
  refine ⟨meshes', bytes', out', text, e, hb, hr, ht, fun b => ?_⟩
  obtain ⟨res, hr1, hg⟩ := hres b
  refine ⟨res, hr1, List.forall₂_iff_get.mpr ⟨ho.length_eq.trans hg.length_eq.symm, fun i h1 h2 => ?_⟩⟩
  obtain ⟨n1, f1⟩ := (List.forall₂_iff_get.mp ho).2 i h1 (hg.length_eq ▸ h2)
  obtain ⟨n2, f2⟩ := (List.forall₂_iff_get.mp hg).2 i h2 (hg.length_eq ▸ h2)
  exact ⟨n2.trans n1, by rw [f2]; exact f1⟩

/-! ### Examples -/

/-- The kit with indices for its normal and its uv. A normal that is NaN is added. -/
def fullKit : Mesh (Val b32) :=
  { kit with normals := some [(minusThreeFifths, vZero, fourFifths), (.nan, .nan, .nan)], normalTriangles := some [0, 1, 0]
             uvTriangles := some [0, 0, 0], customData := [] }

theorem fullKit_exportable : Exportable fullKit := by
  refine ⟨⟨⟨[0, 1, 2], rfl, by decide, ?_⟩, ?_, ?_⟩, by simp [fullKit, kit], rfl, rfl, rfl, rfl, rfl⟩
  · intro i hi
    simp only [List.mem_cons, List.not_mem_nil, or_false] at hi
    show i < 3 ∧ _
    omega
  · rintro t ⟨⟩
    refine ⟨rfl, fun i hi => ?_⟩
    simp only [List.mem_cons, List.not_mem_nil, or_false] at hi
    show i < 2 ∧ _
    omega
  · rintro t ⟨⟩
    refine ⟨rfl, fun i hi => ?_⟩
    simp only [List.mem_cons, List.not_mem_nil, or_false] at hi
    show i < 1 ∧ _
    omega

theorem fullKit_saveable : Saveable 30 kitPrec [(fullKit, [65])] := by
  have k := saveable_mono (show 24 ≤ 30 by decide) kit_sensible.saveable
  have km := k.mesh _ List.mem_cons_self
  refine ⟨k.finite, k.vertex, k.normal, k.uv, k.tangent, ?_, ?_, ?_⟩
  · intro mn h
    rcases List.mem_singleton.mp h with rfl
    exact k.names (kit, [65]) List.mem_cons_self
  · intro mn h
    rcases List.mem_singleton.mp h with rfl
    refine ⟨km.vertices, km.vertexTriangles, ?_, ?_, km.tangentTriangles, ?_, ?_⟩
    · intro l hl; cases hl; intro i hi; simp only [List.mem_cons, List.not_mem_nil, or_false] at hi; omega
    · intro l hl; cases hl; intro i hi; simp only [List.mem_cons, List.not_mem_nil, or_false] at hi; omega
    · intro c hc; cases hc
    · norm_num [segmentBound, mostPieces, indexPieces, onePiece, fullKit, kit, Mesh.empty, turned, show Nat.log2 1 = 0 from rfl]
  · norm_num [meshSizeBound, segmentBound, mostPieces, indexPieces, onePiece, elements, elementCount, customLoad, customCount, fullKit, kit, Mesh.empty,
      turned, show Nat.log2 1 = 0 from rfl]

/-- The kit, exported after it was loaded. -/
example (fb : F64Bytes (ops someLibm)) : ∃ bytes mn text, (∀ b, tmfBytes (ops someLibm) fb b kitPrec [(fullKit, [65])] = .ok bytes) ∧
    (∀ b junk sched, readTmf (ops someLibm) fb b ⟨bytes ++ junk, sched, false⟩ = .ok [mn]) ∧
    (∀ b, writeObj (floatText someLibm) b [mn] = .ok text) ∧
    ∀ b, ∃ r, readFromObj (floatText someLibm) Importer.pushFace b text = .ok [r] ∧ SameFaces r mn := by
  obtain ⟨bytes, out, text, hb, hr, hc, ht, hres⟩ := C79_exported (fb := fb) someLibm_accurate someLibm_log2 someLibm_monotone
    fullKit_saveable (by simp) (fun mn hmn => by
      cases List.mem_singleton.mp hmn
      exact ⟨fullKit_exportable, ⟨"A".toList, by decide +kernel⟩, by decide, by decide⟩)
  obtain ⟨mn, rfl, -⟩ := forall₂_one hc
  refine ⟨bytes, mn, text, hb, hr, ht, fun b => ?_⟩
  obtain ⟨res, h1, h2⟩ := hres b
  obtain ⟨r, rfl, h3⟩ := forall₂_one h2.flip
  exact ⟨r, h1, h3⟩

/-- The file of `Props/ObjFile.lean`, stored, loaded, exported and read again. -/
example (fb : F64Bytes (ops someLibm)) (b : Build) : ∃ meshes bytes out text, readFromObj (floatText someLibm) Importer.pushFace b (ascii sampleText) = .ok meshes ∧
    (∀ b, tmfBytes (ops someLibm) fb b kitPrec meshes = .ok bytes) ∧
    (∀ b junk sched, readTmf (ops someLibm) fb b ⟨bytes ++ junk, sched, false⟩ = .ok out) ∧
    (∀ b, writeObj (floatText someLibm) b out = .ok text) ∧
    ∀ b, ∃ m1 m2, readFromObj (floatText someLibm) Importer.pushFace b text = .ok [m1, m2] ∧ m1.2 = [] ∧ m2.2 = ascii "second" ∧
      List.Forall₂ (List.Forall₂ (CornerKept kitPrec)) [[sampleC, sampleB, sampleA]] (meshFaces m2.1) := by
  obtain ⟨meshes, bytes, out, text, h1, h2, h3, h4, h5⟩ := C79_reexported (fb := fb) (prec := kitPrec) someLibm_accurate someLibm_log2 someLibm_monotone
    (floatText someLibm) b sampleLines (some sampleLast) sample_chars.1 (by intro l hl; cases hl; exact sample_chars.2) (sample_means someLibm)
    sample_defined (by decide) (by decide) sample_storable sample_meaningful (by
      rw [sample_scene]
      intro o ho
      have : o = ([], [[sampleA, sampleB, sampleC]]) ∨ o = (ascii "second", [[sampleC, sampleB, sampleA]]) := by
        simpa [delivered] using ho
      rcases this with rfl | rfl
      · exact ⟨by simp, ⟨[], rfl⟩, by simp, by simp⟩
      · exact ⟨by simp, ⟨"second".toList, by decide +kernel⟩, by decide, by decide⟩) tenth_exact.1
    (by rw [show kitPrec.vertex = lit 1 1 from rfl, tenth_exact.2]; norm_num) (by decide) (by decide) (by decide)
  rw [← sample_text] at h1
  refine ⟨meshes, bytes, out, text, h1, h2, h3, h4, fun b => ?_⟩
  obtain ⟨res, h6, h7⟩ := h5 b
  rw [sample_scene] at h7
  cases h7 with
  | cons k1 h7 =>
    cases h7 with
    | cons k2 h7 =>
      cases h7
      exact ⟨_, _, h6, k1.1, k2.1, k2.2⟩

end Tmf.Props
