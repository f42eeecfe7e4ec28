import Verif.Lemmas.MeshApi
import Verif.Lemmas.ObjRead
import Verif.Spec.Export
import Verif.Props.Box
import Verif.Props.Obj
import Verif.Props.Loaded
/-
Lemmas for exporting meshes that were loaded.
-/

set_option exponentiation.threshold 2000

namespace Tmf
open Spec Ieee

theorem isNaN_of_finite {f : Fmt} {x : Val f} (h : isFinite x = true) : isNaN x = false := by
  cases x <;> first | rfl | cases h

theorem isNaN_of_one {f : Fmt} {x : Val f} (h : |valueOf x| = 1) : isNaN x = false := by
  cases x with
  | nan => simp [valueOf] at h
  | _ => rfl

/-! ### Buffers and faces -/

/-- A buffer lists what its indices stand for. -/
theorem buffer_inv {α : Type} {d : Option (List α)} {t : Option (List Nat)} {l : List α}
    (h : (do let x ← d; let y ← t; Mesh.bufferLoop x y []) = some l) :
    ∃ x y, d = some x ∧ t = some y ∧ y.length = l.length ∧ ∀ i : Nat, ((y[i]?).bind fun k => x[k]?) = l[i]? := by
  cases d with
  | none => cases h
  | some x =>
    cases t with
    | none => cases h
    | some y =>
      obtain ⟨-, r, hr, hlen, hk⟩ := (bufferLoop_spec x y []).1 l h
      rw [List.nil_append] at hr
      subst hr
      refine ⟨x, y, rfl, rfl, hlen.symm, fun i => ?_⟩
      cases hy : y[i]? with
      | none =>
        have : l.length ≤ i := by rw [hlen]; exact List.getElem?_eq_none_iff.mp hy
        rw [List.getElem?_eq_none_iff.mpr this]
        rfl
      | some k => exact (hk i k hy).symm

/-- The triangles of a mesh are made of its buffers. -/
theorem faces_of_buffers {F : Type} {m : Mesh F} {v n : List (Vec3 F)} {u : List (Vec2 F)} (hv : m.getVertexBuffer = some v)
    (hn : m.getNormalBuffer = some n) (hu : m.getUvBuffer = some u) :
    meshFaces m = (List.range (v.length / 3)).map fun t =>
      [⟨v[3 * t]?, some u[3 * t]?, some n[3 * t]?⟩, ⟨v[3 * t + 1]?, some u[3 * t + 1]?, some n[3 * t + 1]?⟩,
        ⟨v[3 * t + 2]?, some u[3 * t + 2]?, some n[3 * t + 2]?⟩] := by
  obtain ⟨x, y, h1, h2, h3, h4⟩ := buffer_inv (d := m.vertices) (t := m.vertexTriangles) hv
  obtain ⟨x', y', h1', h2', -, h4'⟩ := buffer_inv (d := m.normals) (t := m.normalTriangles) hn
  obtain ⟨x'', y'', h1'', h2'', -, h4''⟩ := buffer_inv (d := m.uvs) (t := m.uvTriangles) hu
  simp only [meshFaces, meshCorner, h1, h2, h1', h2', h1'', h2'', Option.getD_some, Option.map_some, h4, h4', h4'', h3]

theorem sameFaces_of_sameGeometry {fo : FloatOps} {a b : Mesh fo.F × List UInt8} (hb : CompleteMesh fo b.1) (h : SameGeometry a b) : SameFaces a b := by
  obtain ⟨h0, h1, h2, h3⟩ := h
  obtain ⟨c1, c2, c3⟩ := Props.C34_buffers_present b.1 hb
  obtain ⟨t, ht, -⟩ := hb.faces.vertices
  rw [ht, Option.map_some] at c1 c2 c3
  obtain ⟨v, hv, -⟩ := Option.map_eq_some_iff.mp c1
  obtain ⟨n, hn, -⟩ := Option.map_eq_some_iff.mp c2
  obtain ⟨u, hu, -⟩ := Option.map_eq_some_iff.mp c3
  exact ⟨h0, by rw [faces_of_buffers hv hn hu, faces_of_buffers (h1.trans hv) (h2.trans hn) (h3.trans hu)]⟩

/-! ### Scenes -/

theorem addFace_ne {F : Type} (face : List (CornerData F)) : ∀ {os : List (List UInt8 × List (List (CornerData F)))}, os ≠ [] → addFace face os ≠ []
  | [], h => absurd rfl h
  | [_], _ => by simp [addFace]
  | _ :: _ :: _, _ => by simp [addFace]

theorem scene_objects_ne {F : Type} (lines : List (ObjLine F)) : (sceneOf lines).objects ≠ [] := by
  have key : ∀ (lines : List (ObjLine F)) (s : Scene F), s.objects ≠ [] → (lines.foldl Scene.step s).objects ≠ [] := by
    intro lines
    induction lines with
    | nil => exact fun _ h => h
    | cons l lines ih =>
      intro s h
      refine ih _ ?_
      cases l with
      | object name => simp [Scene.step]
      | face a b c => exact addFace_ne _ h
      | _ => exact h
  exact key lines _ (by simp [Scene.start])

theorem delivered_ne {F : Type} (lines : List (ObjLine F)) : delivered (sceneOf lines).objects ≠ [] := by
  intro h
  rw [delivered, List.append_eq_nil_iff] at h
  cases hg : (sceneOf lines).objects.getLast? with
  | none => exact scene_objects_ne lines (List.getLast?_eq_none_iff.mp hg)
  | some o => rw [hg] at h; exact absurd h.2 (by simp)

/-! ### What is loaded can be exported -/

theorem lengths_eq {α : Type} {o o' : Option (List α)} (h : o'.map List.length = o.map List.length) :
    (o'.getD []).length = (o.getD []).length ∧ o'.isSome = o.isSome := by
  cases o <;> cases o' <;> first | exact ⟨rfl, rfl⟩ | cases h | exact ⟨Option.some.inj h, rfl⟩

theorem exportable_back {fo : FloatOps} {mn mn' : Mesh fo.F × List UInt8} (h : CameBack fo mn mn') (he : Exportable mn.1) : Exportable mn'.1 := by
  obtain ⟨hv, sv⟩ := lengths_eq h.sizes.vertices
  obtain ⟨hn, sn⟩ := lengths_eq h.sizes.normals
  obtain ⟨hu, su⟩ := lengths_eq h.sizes.uvs
  refine ⟨⟨?_, ?_, ?_⟩, ?_, ?_, ?_, ?_, ?_, ?_⟩
  · rw [h.indices.vertex, hv]; exact he.faces.vertices
  · rw [h.indices.vertex, h.indices.normal, hn]; exact he.faces.normals
  · rw [h.indices.vertex, h.indices.uv, hu]; exact he.faces.uvs
  · rw [h.indices.vertex]; exact he.nonempty
  · rw [sv]; exact he.vertices
  · rw [sn]; exact he.normals
  · rw [su]; exact he.uvs
  · rw [h.indices.normal]; exact he.normalTriangles
  · rw [h.indices.uv]; exact he.uvTriangles

theorem fits_back {fo : FloatOps} {meshes out : List (Mesh fo.F × List UInt8)} (h : List.Forall₂ (CameBack fo) meshes out)
    (hs : 15 + (meshes.map meshSizeBound).sum ≤ 2 ^ 31) : FitsU32 out := by
  have key : ∀ {meshes out : List (Mesh fo.F × List UInt8)}, List.Forall₂ (CameBack fo) meshes out →
      (out.map fun m => (m.1.vertices.getD []).length).sum ≤ (meshes.map meshSizeBound).sum ∧
      (out.map fun m => (m.1.normals.getD []).length).sum ≤ (meshes.map meshSizeBound).sum ∧
      (out.map fun m => (m.1.uvs.getD []).length).sum ≤ (meshes.map meshSizeBound).sum := by
    intro meshes out h
    induction h with
    | nil => simp
    | @cons a b _ _ h _ ih =>
      obtain ⟨i1, i2, i3⟩ := ih
      have hv := (lengths_eq h.sizes.vertices).1
      have hn := (lengths_eq h.sizes.normals).1
      have hu := (lengths_eq h.sizes.uvs).1
      have k : ∀ {α : Type} (o : Option (List α)), elementCount o = (o.getD []).length := by
        intro α o; cases o <;> rfl
      simp only [List.map_cons, List.sum_cons, meshSizeBound, elements, k] at i1 i2 i3 ⊢
      omega
  obtain ⟨h1, h2, h3⟩ := key h
  constructor <;> omega

end Tmf
