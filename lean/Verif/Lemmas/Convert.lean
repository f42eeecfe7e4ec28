import Verif.Lemmas.ObjFile
import Verif.Spec.Convert
/-
Meshes read from .obj files can be saved.
-/

namespace Tmf
open Spec Ieee

theorem readFrom_triangles {F : Type} {s : Scene F} {m : Mesh F × List UInt8} {o : List UInt8 × List (List (CornerData F))}
    (h : ReadFrom s m o) : ∃ v n u vt nt ut, m.1 = ⟨some n, some nt, some v, some vt, some u, some ut, none, none, []⟩ ∧
      v.Sublist s.vertices ∧ n.Sublist s.normals ∧ u.Sublist s.uvs ∧
      vt.length = 3 * o.2.length ∧ nt.length = 3 * o.2.length ∧ ut.length = 3 * o.2.length ∧
      InRange v.length vt ∧ InRange n.length nt ∧ InRange u.length ut := by
  obtain ⟨⟨-, hf, ⟨⟨vt, hvt, ⟨k, hk⟩, rv⟩, hn, hu⟩, iu, iN⟩, ⟨v, hv, sv⟩, ⟨n, hn', sn⟩, ⟨u, hu', su⟩, ht, htt, hc⟩ := h
  obtain ⟨ut, hut⟩ := Option.isSome_iff_exists.mp iu
  obtain ⟨nt, hnt⟩ := Option.isSome_iff_exists.mp iN
  obtain ⟨ln, rn⟩ := hn nt hnt
  obtain ⟨lu, ru⟩ := hu ut hut
  have hl := congrArg List.length hf
  simp only [meshFaces, List.length_map, List.length_range, hvt, Option.getD_some] at hl
  simp only [hvt, hv, hn', hu', Option.getD_some] at ln lu rv rn ru
  refine ⟨v, n, u, vt, nt, ut, ?_, sv, sn, su, by omega, by omega, by omega, rv, rn, ru⟩
  rw [← hv, ← hvt, ← hn', ← hnt, ← hu', ← hut, ← ht, ← htt, ← hc]

theorem delivered_mem {F : Type} {objects : List (List UInt8 × List (List (CornerData F)))}
    {o : List UInt8 × List (List (CornerData F))} (h : o ∈ delivered objects) : o ∈ objects := by
  rcases List.mem_append.mp h with h | h
  · exact List.dropLast_subset _ (List.mem_filter.mp h).1
  · exact List.mem_of_getLast? (Option.mem_toList.mp h)

theorem indexPieces_le {l : List Nat} {n k f : Nat} (hl : l.length = 3 * f) (hr : ∀ i ∈ l, i < n) (hn : n ≤ k) :
    indexPieces (some l) ≤ facePieces k f := by
  have hm : l.foldr Nat.max 0 ≤ k := by
    clear hl
    induction l with
    | nil => exact Nat.zero_le _
    | cons x l ih =>
      have := hr x List.mem_cons_self
      exact Nat.max_le.mpr ⟨by omega, ih fun i hi => hr i (List.mem_cons_of_mem _ hi)⟩
  rw [indexPieces, facePieces, hl]
  have h2 : Nat.log2 (l.foldr Nat.max 0) ≤ Nat.log2 k := by
    rw [Nat.log2_eq_log_two, Nat.log2_eq_log_two]
    exact Nat.log_mono_right hm
  exact Nat.add_le_add_left (Nat.div_le_div_right (Nat.mul_le_mul_left _ (Nat.add_le_add_right h2 1))) 1

theorem size_readFrom {F : Type} {s : Scene F} {m : Mesh F × List UInt8} {o : List UInt8 × List (List (CornerData F))}
    (h : ReadFrom s m o) : segmentBound m.1 ≤ objectSegments s o ∧ meshSizeBound m ≤ objectSizeBound s o := by
  obtain ⟨v, n, u, vt, nt, ut, e, sv, sn, su, lv, ln, lu, rv, rn, ru⟩ := readFrom_triangles h
  have h1 := sv.length_le
  have h2 := sn.length_le
  have h3 := su.length_le
  have hs : segmentBound m.1 ≤ objectSegments s o := by
    rw [e]
    have a1 := indexPieces_le lv (fun i hi => (rv i hi).1) h1
    have a2 := indexPieces_le ln (fun i hi => (rn i hi).1) h2
    have a3 := indexPieces_le lu (fun i hi => (ru i hi).1) h3
    have a4 : indexPieces none = 0 := rfl
    simp only [segmentBound, objectSegments, mostPieces, onePiece, List.length_nil, a4]
    omega
  refine ⟨hs, ?_⟩
  rw [meshSizeBound, objectSizeBound, h.read.name]
  have he : elements m.1 ≤ s.vertices.length + s.normals.length + s.uvs.length + 9 * o.2.length := by
    rw [e]
    simp only [elements, elementCount]
    omega
  have hc : customLoad m.1 = 0 := by rw [e]; rfl
  omega

/-- The edges of a mesh are edges of its faces. -/
theorem edge_faceEdge {m : Mesh (Val b32)} {t : List Nat} {vs : List (Vec3 (Val b32))} (ht : m.vertexTriangles = some t)
    (hv : m.vertices = some vs) {i j : Nat} (h : IsEdge t i j) {a c : Vec3 (Val b32)} (ha : vs[i]? = some a) (hc : vs[j]? = some c) :
    ∃ f ∈ meshFaces m, FaceEdge f a c := by
  obtain ⟨k, x, y, z, hx, hy, hz, he⟩ := h
  have hk : 3 * k + 2 < t.length := by
    rcases Nat.lt_or_ge (3 * k + 2) t.length with h | h
    · exact h
    · rw [List.getElem?_eq_none h] at hz; cases hz
  refine ⟨_, List.mem_map.mpr ⟨k, List.mem_range.mpr ?_, rfl⟩, _, _, _, rfl, ?_⟩
  · rw [ht, Option.getD_some]
    omega
  · simp only [meshCorner, ht, hv, Option.getD_some, hx, hy, hz, Option.bind_some]
    rcases he with ⟨rfl, rfl⟩ | ⟨rfl, rfl⟩ | ⟨rfl, rfl⟩
    · exact .inl ⟨ha, hc⟩
    · exact .inr (.inl ⟨ha, hc⟩)
    · exact .inr (.inr ⟨ha, hc⟩)

theorem sum_le_of_forall₂ {α β : Type} {R : α → β → Prop} {f : α → Nat} {g : β → Nat} (h : ∀ a b, R a b → f a ≤ g b) :
    ∀ {l : List α} {l' : List β}, List.Forall₂ R l l' → (l.map f).sum ≤ (l'.map g).sum
  | _, _, .nil => Nat.le_refl _
  | _, _, .cons h1 h2 => by
    rw [List.map_cons, List.map_cons, List.sum_cons, List.sum_cons]
    exact Nat.add_le_add (h _ _ h1) (sum_le_of_forall₂ h h2)

theorem exists_of_forall₂ {α β : Type} {R : α → β → Prop} : ∀ {l : List α} {l' : List β}, List.Forall₂ R l l' → ∀ a ∈ l, ∃ b ∈ l', R a b
  | _, _, .nil, a, h => by cases h
  | _, _, .cons h1 h2, a, h => by
    rcases List.mem_cons.mp h with rfl | h
    · exact ⟨_, List.mem_cons_self, h1⟩
    · obtain ⟨b, hb, hr⟩ := exists_of_forall₂ h2 a h
      exact ⟨b, List.mem_cons_of_mem _ hb, hr⟩

/-- The last mesh belongs to the last object; all others have faces. -/
theorem forall₂_faces {F : Type} {R : Mesh F × List UInt8 → List UInt8 × List (List (CornerData F)) → Prop}
    {res : List (Mesh F × List UInt8)} {objects : List (List UInt8 × List (List (CornerData F)))}
    (h : List.Forall₂ R res (delivered objects)) :
    ∀ m ∈ res, (res.getLast? = some m) ∨ ∃ o ∈ objects, R m o ∧ o.2 ≠ [] := by
  intro m hm
  rw [delivered] at h
  obtain ⟨r1, r2, h1, h2, rfl⟩ : ∃ r1 r2, List.Forall₂ R r1 (objects.dropLast.filter fun o => !o.2.isEmpty) ∧
      List.Forall₂ R r2 objects.getLast?.toList ∧ res = r1 ++ r2 := by
    refine ⟨res.take (objects.dropLast.filter fun o => !o.2.isEmpty).length, res.drop (objects.dropLast.filter fun o => !o.2.isEmpty).length,
      ?_, ?_, (List.take_append_drop _ _).symm⟩
    · exact List.forall₂_take_append _ _ _ h
    · exact List.forall₂_drop_append _ _ _ h
  rcases List.mem_append.mp hm with hm | hm
  · obtain ⟨o, ho, hr⟩ := exists_of_forall₂ h1 m hm
    obtain ⟨ho1, ho2⟩ := List.mem_filter.mp ho
    refine .inr ⟨o, List.dropLast_subset _ ho1, hr, ?_⟩
    intro e
    rw [e] at ho2
    simp at ho2
  · left
    cases he : objects.getLast? with
    | none =>
      rw [he] at h2
      cases h2
      cases hm
    | some o =>
      rw [he] at h2
      cases h2 with
      | cons _ h2 =>
        cases h2
        rw [List.mem_singleton] at hm
        rw [hm]
        simp

theorem storable_saveable {k : Nat} {M δ : ℚ} {s : Scene (Val b32)} {prec : PrecisionInfo (Val b32)}
    (hs : StorableScene k (valueOf prec.vertex) M δ s) {res : List (Mesh (Val b32) × List UInt8)}
    (hf : List.Forall₂ (ReadFrom s) res (delivered s.objects))
    (hlast : ∀ m, res.getLast? = some m → m.1.vertices = some [] → s.vertices = [])
    (p1 : isFinite prec.vertex = true) (p2 : valueOf prec.vertex ≤ 2 ^ 20) (p3 : prec.normal ≤ 30) (p4 : prec.uv ≤ 30)
    (p5 : prec.tangent ≤ 30) : Saveable k prec res := by
  have hsum : 15 + (res.map meshSizeBound).sum ≤ 2 ^ 31 := by
    have := sum_le_of_forall₂ (f := meshSizeBound) (g := objectSizeBound s) (fun _ _ h => (size_readFrom h).2) hf
    have := hs.size
    omega
  refine ⟨p1, p2, p3, p4, p5, ?_, ?_, hsum⟩
  · intro mn hm
    obtain ⟨o, ho, hr⟩ := exists_of_forall₂ hf mn hm
    rw [hr.read.name]
    exact hs.names o (delivered_mem ho)
  · intro mn hm
    obtain ⟨o, ho, hr⟩ := exists_of_forall₂ hf mn hm
    have hone : meshSizeBound mn ≤ 2 ^ 31 := by
      have := List.single_le_sum (fun _ _ => Nat.zero_le _) _ (List.mem_map_of_mem (f := meshSizeBound) hm)
      omega
    obtain ⟨v, n, u, vt, nt, ut, e, sv, sn, su, lv, ln, lu, rv, rn, ru⟩ := readFrom_triangles hr
    have hel : v.length + n.length + u.length ≤ 2 ^ 31 := by
      rw [meshSizeBound, e] at hone
      simp only [elements, elementCount] at hone
      omega
    have hv : mn.1.vertices = some v := by rw [e]
    have hvt : mn.1.vertexTriangles = some vt := by rw [e]
    refine ⟨?_, ?_, ?_, ?_, ?_, ?_, ?_⟩
    · intro l hl
      rw [hv] at hl
      cases hl
      refine ⟨M, δ, ⟨?_, hs.range, fun x hx => hs.inner x (sv.subset hx), hs.least, hs.most, ?_, ?_, ?_, hs.bits⟩⟩
      · rintro rfl
        rcases forall₂_faces hf mn hm with h | ⟨o', ho', hr', hne⟩
        · exact hs.some (hlast mn h hv)
        · obtain ⟨v', n', u', vt', nt', ut', e', -, -, -, lv', -, -, rv', -⟩ := readFrom_triangles hr'
          rw [e'] at hv hvt
          cases hv
          cases vt' with
          | nil =>
            rw [List.length_nil] at lv'
            exact hne (List.length_eq_zero_iff.mp (by omega))
          | cons i l => exact absurd (rv' i List.mem_cons_self).1 (by simp)
      · intro t ht hne
        rw [hvt] at ht
        cases ht
        have := List.length_pos_iff.mpr hne
        omega
      · intro t ht i hi
        rw [hvt] at ht
        cases ht
        exact (rv i hi).1
      · intro t ht i j a c he ha hc
        obtain ⟨f, hf', hfe⟩ := edge_faceEdge ht hv he ha hc
        rw [hr.read.faces] at hf'
        exact hs.edges o (delivered_mem ho) f hf' a c hfe
    · intro l hl i hi
      rw [hvt] at hl
      cases hl
      exact lt_of_lt_of_le (rv i hi).1 (by omega)
    · intro l hl i hi
      rw [e] at hl
      cases hl
      exact lt_of_lt_of_le (rn i hi).1 (by omega)
    · intro l hl i hi
      rw [e] at hl
      cases hl
      exact lt_of_lt_of_le (ru i hi).1 (by omega)
    · intro l hl
      rw [e] at hl
      cases hl
    · intro c hc
      rw [e] at hc
      cases hc
    · exact lt_of_le_of_lt (size_readFrom hr).1 (hs.segments o (delivered_mem ho))

end Tmf
