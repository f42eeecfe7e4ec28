import Verif.Lemmas.ObjAgain
import Verif.Props.Decimal
import Verif.Props.ObjFile
/-
C86: reading an .obj file, writing what was read, and reading that.
-/

namespace Tmf.Props
open Spec

variable {fo : FloatOps}

/-- C86: meshes as the reader leaves them. Writing them succeeds, and reading the text gives exactly
these meshes: the same arrays, the same index arrays, the same names. -/
theorem C86_tidy {ft : FloatText fo} (hl : FloatTextLaws ft) (b b' : Build) (meshes : List (Mesh fo.F × List UInt8))
    (hne : meshes ≠ []) (hm : ∀ m ∈ meshes, (CompleteMesh fo m.1 ∧ Tidy m.1) ∧ ObjName m.2) (hf : FitsU32 meshes) :
    ∃ text, writeObj ft b meshes = .ok text ∧ readFromObj ft Importer.pushFace b' text = .ok meshes := by
  obtain ⟨x, l, rfl⟩ := List.exists_cons_of_ne_nil hne
  exact ⟨_, writeObj_ok ft b _ (fun m h => (hm m h).1.1.faces) hf, readFromObj_same hl (pushFaceWith_triangles _) b' x l hm hf⟩

theorem triangleMesh_tidy {F : Type} (a b c n : Vec3 F) (u w : Vec2 F) : Tidy (triangleMesh a b c n u w) := by
  refine ⟨?_, ?_, ?_, rfl, rfl, rfl⟩ <;>
  · intro t h
    cases h
    decide

/-- A tidy mesh with everything that is needed. -/
example (lib : Ieee.Libm) : (CompleteMesh (Ieee.ops lib) (triangleMesh (wholePoint 0 1 2) (wholePoint 3 1 2) (wholePoint 0 1 7)
      (wholePoint 0 1 0) (Ieee.ofNat 0, Ieee.ofNat 1) (Ieee.ofNat 1, Ieee.ofNat 1)) ∧
    Tidy (triangleMesh (wholePoint 0 1 2) (wholePoint 3 1 2) (wholePoint 0 1 7) (wholePoint 0 1 0) (Ieee.ofNat 0, Ieee.ofNat 1)
      (Ieee.ofNat 1, Ieee.ofNat 1))) ∧ ObjName (ascii "a") := by
  refine ⟨⟨triangleMesh_complete (fo := Ieee.ops lib) _ _ _ _ _ _ ?_ ?_, triangleMesh_tidy _ _ _ _ _ _⟩,
    ⟨validUtf8_iff.mp (by decide +kernel), by decide, by decide⟩⟩
  · intro x hx
    simp only [List.mem_cons, List.not_mem_nil, or_false] at hx
    rcases hx with rfl | rfl | rfl | rfl <;> unfold wholePoint <;> refine ⟨?_, ?_, ?_⟩ <;> dsimp only <;> exact ofNat_isNaN _
  · intro x hx
    simp only [List.mem_cons, List.not_mem_nil, or_false] at hx
    rcases hx with rfl | rfl <;> refine ⟨?_, ?_⟩ <;> dsimp only <;> exact ofNat_isNaN _

theorem read_again {ft : FloatText fo} (hl : FloatTextLaws ft) {face : PushFace fo.F} (hp : PushesTriangles face) (b b' b'' : Build)
    (lines : List (TextLine fo.F)) (last : Option (TextLine fo.F)) (hc : ∀ l ∈ lines, LineChars l.text)
    (hlast : ∀ l ∈ last, LineChars l.text ∧ l.text ≠ []) (hm : ∀ l ∈ lines ++ last.toList, LineMeans ft l.text l.means)
    (hd : Defined Scene.start (fileMeans lines last)) (hn : (sceneOf (fileMeans lines last)).NoNaN fo)
    (hs : (sceneOf (fileMeans lines last)).Small) (ho : ∀ o ∈ delivered (sceneOf (fileMeans lines last)).objects, o.2 ≠ [] ∧ ObjName o.1) :
    ∃ res text, readFromObj ft face b (fileText lines last) = .ok res ∧
      List.Forall₂ ReadAs res (delivered (sceneOf (fileMeans lines last)).objects) ∧
      writeObj ft b' res = .ok text ∧ readFromObj ft face b'' text = .ok res := by
  have ht : Tracks (Importer.new : Importer fo.F) Scene.start [] [] := by
    constructor <;> first | rfl | exact fun i hi => absurd hi List.not_mem_nil
  obtain ⟨res, rest, hr, he, hne, hf, _⟩ := readObjLoop_file hp b (lines ++ last.toList) .new Scene.start [] [] ht
    (fun l hl => ⟨(List.mem_append.mp hl).elim (fun h => validUtf8_of_isText (hc l h).1)
      fun h => validUtf8_of_isText (hlast l (Option.mem_toList.mp h)).1.1, hm l hl⟩) hd
  rw [List.nil_append] at he
  rw [← he] at hf hne
  change List.Forall₂ (ReadFrom (sceneOf (fileMeans lines last))) res (delivered (sceneOf (fileMeans lines last)).objects) at hf
  change (sceneOf (fileMeans lines last)).objects ≠ [] at hne
  have hfits := readFrom_fits hs hf
  generalize hsc : sceneOf (fileMeans lines last) = s at *
  have hpos : 1 ≤ s.objects.length := List.length_pos_iff.mpr hne
  have h1 : s.vertices.length < 2 ^ 32 := by have := hs.vertices; nlinarith
  have h2 : s.normals.length < 2 ^ 32 := by have := hs.normals; nlinarith
  have h3 : s.uvs.length < 2 ^ 32 := by have := hs.uvs; nlinarith
  have hall : ∀ m ∈ res, (CompleteMesh fo m.1 ∧ Tidy m.1) ∧ ObjName m.2 := by
    intro m hmem
    obtain ⟨i, hi, rfl⟩ := List.mem_iff_getElem.mp hmem
    have hi' := hf.length_eq ▸ hi
    have hr := (List.forall₂_iff_get.mp hf).2 i hi hi'
    have hmo := ho _ (List.getElem_mem hi')
    exact ⟨hr.tidy hmo.1 hn h1 h2 h3, hr.read.name ▸ hmo.2⟩
  have hres : res ≠ [] := by
    rintro rfl
    have := hf.length_eq
    rw [delivered, List.length_append, List.getLast?_eq_some_getLast hne] at this
    simp at this
  obtain ⟨x, l, rfl⟩ := List.exists_cons_of_ne_nil hres
  refine ⟨x :: l, _, ?_, hf.imp fun _ _ h => h.read, writeObj_ok ft b' _ (fun m h => (hall m h).1.1.faces) hfits,
    readFromObj_same hl hp b'' x l hall hfits⟩
  rw [readFromObj, textLines_fileText last hlast lines hc]
  exact hr

/-- C86 (partial: as `C57_scene_partial`, the last object has faces, no NaN, names that do not end in a
carriage return, and few enough elements to be numbered once for every object). What is read from a
file can be written, and reading that text gives exactly the same meshes. -/
theorem C86_again_partial {ft : FloatText fo} (hl : FloatTextLaws ft) (b b' b'' : Build) (lines : List (TextLine fo.F))
    (last : Option (TextLine fo.F)) (hc : ∀ l ∈ lines, LineChars l.text) (hlast : ∀ l ∈ last, LineChars l.text ∧ l.text ≠ [])
    (hm : ∀ l ∈ lines ++ last.toList, LineMeans ft l.text l.means) (hd : Defined Scene.start (fileMeans lines last))
    (hn : (sceneOf (fileMeans lines last)).NoNaN fo) (hs : (sceneOf (fileMeans lines last)).Small)
    (ho : ∀ o ∈ delivered (sceneOf (fileMeans lines last)).objects, o.2 ≠ [] ∧ ObjName o.1) :
    ∃ res text, readFromObj ft Importer.pushFace b (fileText lines last) = .ok res ∧
      List.Forall₂ ReadAs res (delivered (sceneOf (fileMeans lines last)).objects) ∧
      writeObj ft b' res = .ok text ∧ readFromObj ft Importer.pushFace b'' text = .ok res :=
  read_again hl (pushFaceWith_triangles _) b b' b'' lines last hc hlast hm hd hn hs ho

/-- C86 with the feature "triangulation" (partial as above). -/
theorem C86_again_triangulation_partial {ft : FloatText fo} (hl : FloatTextLaws ft) (acos : fo.F → fo.F) (b b' b'' : Build)
    (lines : List (TextLine fo.F)) (last : Option (TextLine fo.F)) (hc : ∀ l ∈ lines, LineChars l.text)
    (hlast : ∀ l ∈ last, LineChars l.text ∧ l.text ≠ []) (hm : ∀ l ∈ lines ++ last.toList, LineMeans ft l.text l.means)
    (hd : Defined Scene.start (fileMeans lines last)) (hn : (sceneOf (fileMeans lines last)).NoNaN fo)
    (hs : (sceneOf (fileMeans lines last)).Small) (ho : ∀ o ∈ delivered (sceneOf (fileMeans lines last)).objects, o.2 ≠ [] ∧ ObjName o.1) :
    ∃ res text, readFromObj ft (Importer.pushFaceTri fo acos) b (fileText lines last) = .ok res ∧
      List.Forall₂ ReadAs res (delivered (sceneOf (fileMeans lines last)).objects) ∧
      writeObj ft b' res = .ok text ∧ readFromObj ft (Importer.pushFaceTri fo acos) b'' text = .ok res :=
  read_again hl (pushFaceWith_triangles _) b b' b'' lines last hc hlast hm hd hn hs ho

theorem sample_noNaN :
    (∀ x ∈ (sceneOf (fileMeans sampleLines (some sampleLast))).vertices, Ieee.isNaN x.1 = false ∧ Ieee.isNaN x.2.1 = false ∧ Ieee.isNaN x.2.2 = false) ∧
    (∀ x ∈ (sceneOf (fileMeans sampleLines (some sampleLast))).normals, Ieee.isNaN x.1 = false ∧ Ieee.isNaN x.2.1 = false ∧ Ieee.isNaN x.2.2 = false) ∧
    ∀ x ∈ (sceneOf (fileMeans sampleLines (some sampleLast))).uvs, Ieee.isNaN x.1 = false ∧ Ieee.isNaN x.2 = false := by
  decide +kernel

theorem sample_small :
    1 + (sceneOf (fileMeans sampleLines (some sampleLast))).objects.length * (sceneOf (fileMeans sampleLines (some sampleLast))).vertices.length < 2 ^ 32 ∧
    1 + (sceneOf (fileMeans sampleLines (some sampleLast))).objects.length * (sceneOf (fileMeans sampleLines (some sampleLast))).normals.length < 2 ^ 32 ∧
    1 + (sceneOf (fileMeans sampleLines (some sampleLast))).objects.length * (sceneOf (fileMeans sampleLines (some sampleLast))).uvs.length < 2 ^ 32 := by
  decide +kernel

theorem sample_names : ∀ o ∈ delivered (sceneOf (fileMeans sampleLines (some sampleLast))).objects,
    o.2 ≠ [] ∧ validUtf8 o.1 = true ∧ (∀ c ∈ o.1, c ≠ 32 ∧ c ≠ 47 ∧ c ≠ 10) ∧ o.1.getLast? ≠ some 13 := by
  decide +kernel

/-- The hypotheses can be met. -/
example (lib : Ieee.Libm) (b b' b'' : Build) : ∃ res text,
    readFromObj (Ieee.floatText lib) Importer.pushFace b (ascii sampleText) = .ok res ∧
      writeObj (Ieee.floatText lib) b' res = .ok text ∧ readFromObj (Ieee.floatText lib) Importer.pushFace b'' text = .ok res := by
  have hname : ∀ l : List UInt8, ObjName l ↔ validUtf8 l = true ∧ (∀ c ∈ l, c ≠ 32 ∧ c ≠ 47 ∧ c ≠ 10) ∧ l.getLast? ≠ some 13 := by
    intro l
    rw [ObjName, validUtf8_iff]
  obtain ⟨res, text, h1, -, h2, h3⟩ := C86_again_partial (Ieee.floatText_laws lib) b b' b'' sampleLines (some sampleLast) sample_chars.1
    (by intro l hl; cases hl; exact sample_chars.2) (sample_means lib) sample_defined
    sample_noNaN ⟨sample_small.1, sample_small.2.1, sample_small.2.2⟩ (by simp only [hname]; exact sample_names)
  refine ⟨res, text, ?_, h2, h3⟩
  rw [← h1]
  exact congrArg _ sample_text

/-- Meshes are written and read again, some number of times. -/
inductive Passes (ft : FloatText fo) (face : PushFace fo.F) (b : Build) :
    Nat → List (Mesh fo.F × List UInt8) → List (Mesh fo.F × List UInt8) → Prop where
  | none {meshes : List (Mesh fo.F × List UInt8)} : Passes ft face b 0 meshes meshes
  | one {k : Nat} {meshes meshes' meshes'' : List (Mesh fo.F × List UInt8)} {text : List UInt8} : writeObj ft b meshes = .ok text →
    readFromObj ft face b text = .ok meshes' → Passes ft face b k meshes' meshes'' → Passes ft face b (k + 1) meshes meshes''

/-- C86: a last object without faces is not the same afterwards. It gathers the points of the other
object once more in every pass, so a file grows with every pass. -/
theorem C86_loose_violated {ft : FloatText fo} (hl : FloatTextLaws ft) (b : Build) {m : Mesh fo.F} {name last : List UInt8}
    (hm : CompleteMesh fo m) (ht : Tidy m) (hname : ObjName name) (hlast : ObjName last) {v n : List (Vec3 fo.F)} {u : List (Vec2 fo.F)}
    (ev : m.vertices = some v) (en : m.normals = some n) (eu : m.uvs = some u) : ∀ (k : Nat),
    1 + (k + 1) * v.length < 2 ^ 32 → 1 + (k + 1) * n.length < 2 ^ 32 → 1 + (k + 1) * u.length < 2 ^ 32 →
    Passes ft Importer.pushFace b k [(m, name), (loosePoints [] [] [], last)]
      [(m, name), (loosePoints (repeated k v) (repeated k n) (repeated k u), last)] := by
  have len : ∀ {α : Type} (k : Nat) (l : List α), (repeated k l).length = k * l.length := by
    intro α k l
    simp [repeated]
  have key : ∀ (k j : Nat), 1 + (j + k + 1) * v.length < 2 ^ 32 → 1 + (j + k + 1) * n.length < 2 ^ 32 →
      1 + (j + k + 1) * u.length < 2 ^ 32 →
      Passes ft Importer.pushFace b k [(m, name), (loosePoints (repeated j v) (repeated j n) (repeated j u), last)]
        [(m, name), (loosePoints (repeated (j + k) v) (repeated (j + k) n) (repeated (j + k) u), last)] := by
    intro k
    induction k with
    | zero => exact fun j _ _ _ => .none
    | succ k ih =>
      intro j h1 h2 h3
      have hj : j + (k + 1) = j + 1 + k := by omega
      have next : ∀ {α : Type} (l : List α), l ++ repeated j l = repeated (j + 1) l := fun l => by
        rw [repeated, repeated, List.replicate_succ, List.flatten_cons]
      have mem : ∀ {α : Type} {l : List α} {x : α}, x ∈ repeated j l → x ∈ l := by
        intro α l x hx
        obtain ⟨l', h1, h2⟩ := List.mem_flatten.mp hx
        rwa [(List.mem_replicate.mp h1).2] at h2
      obtain ⟨n1, n2, n3⟩ := hm.noNaN
      rw [ev, Option.getD_some] at n1
      rw [en, Option.getD_some] at n2
      rw [eu, Option.getD_some] at n3
      have g : ∀ a : Nat, (j + 1) * a ≤ (j + (k + 1) + 1) * a := fun a => Nat.mul_le_mul_right a (by omega)
      have g1 := g v.length
      have g2 := g n.length
      have g3 := g u.length
      rw [Nat.succ_mul] at g1 g2 g3
      have hf : FitsU32 [(m, name), (loosePoints (repeated j v) (repeated j n) (repeated j u), last)] := by
        constructor <;> simp only [loosePoints, List.map_cons, List.map_nil, List.sum_cons, List.sum_nil, Option.getD_some, ev, en, eu, len] <;> omega
      have hr := readFromObj_loose hl (face := Importer.pushFace) (pushFaceWith_triangles _) b hm ht hname hlast ev en eu
        (v := repeated j v) (n := repeated j n) (u := repeated j u)
        ⟨fun x hx => n1 x (mem hx), fun x hx => n2 x (mem hx), fun x hx => n3 x (mem hx)⟩ hf
      rw [next, next, next] at hr
      rw [hj] at h1 h2 h3 ⊢
      refine .one (writeObj_ok ft b _ ?_ hf) hr (ih (j + 1) h1 h2 h3)
      intro x hx
      simp only [List.mem_cons, List.not_mem_nil, or_false] at hx
      rcases hx with rfl | rfl
      · exact hm.faces
      · refine ⟨⟨[], rfl, by simp, fun i hi => absurd hi List.not_mem_nil⟩, ?_, ?_⟩ <;>
        · intro t h
          cases h
          exact ⟨rfl, fun i hi => absurd hi List.not_mem_nil⟩
  intro k h1 h2 h3
  have := key k 0 (by rwa [Nat.zero_add]) (by rwa [Nat.zero_add]) (by rwa [Nat.zero_add])
  rwa [Nat.zero_add] at this

/-- C86 is false as stated: there are texts whose meshes are not the same after they were written and
read again. -/
theorem C86_violated {ft : FloatText fo} (hl : FloatTextLaws ft) (b : Build) {z : fo.F} (hz : fo.isNaN z = false) :
    ∃ text meshes text' meshes', readFromObj ft Importer.pushFace b text = .ok meshes ∧ writeObj ft b meshes = .ok text' ∧
      readFromObj ft Importer.pushFace b text' = .ok meshes' ∧ meshes' ≠ meshes := by
  have hm : CompleteMesh fo (triangleMesh (z, z, z) (z, z, z) (z, z, z) (z, z, z) (z, z) (z, z)) := by
    refine triangleMesh_complete _ _ _ _ _ _ ?_ ?_
    · intro x hx
      simp only [List.mem_cons, List.not_mem_nil, or_false, or_self] at hx
      subst hx
      exact ⟨hz, hz, hz⟩
    · intro x hx
      simp only [List.mem_cons, List.not_mem_nil, or_false, or_self] at hx
      subst hx
      exact ⟨hz, hz⟩
  have ht := triangleMesh_tidy (z, z, z) (z, z, z) (z, z, z) (z, z, z) (z, z) (z, z)
  have hname : ObjName (ascii "a") := ⟨validUtf8_iff.mp (by decide +kernel), by decide, by decide⟩
  have h := C86_loose_violated hl b hm ht hname hname rfl rfl rfl 2 (by simp) (by simp) (by simp)
  cases h with
  | one w1 r1 h =>
    cases h with
    | one w2 r2 h =>
      cases h
      have h1 := C86_loose_violated hl b hm ht hname hname rfl rfl rfl 1 (by simp) (by simp) (by simp)
      cases h1 with
      | one w1' r1' h1 =>
        cases h1
        rw [w1] at w1'
        cases w1'
        rw [r1] at r1'
        cases r1'
        refine ⟨_, _, _, _, r1, w2, r2, ?_⟩
        intro e
        simp [loosePoints, repeated, List.replicate] at e

example (lib : Ieee.Libm) : FloatTextLaws (Ieee.floatText lib) ∧ (Ieee.ops lib).isNaN (Ieee.ofNat 1) = false :=
  ⟨Ieee.floatText_laws lib, ofNat_isNaN 1⟩

end Tmf.Props
