import Verif.Lemmas.ExactBits
import Verif.Lemmas.Verify
import Verif.Lemmas.Ieee
/-
C28: what `verify` accepts and reports.
-/

namespace Tmf.Props
open Spec
variable {fo : FloatOps}

/-- C28, one direction: a valid mesh is accepted. -/
theorem C28_valid_accepted (m : Mesh fo.F) (hs : SmallArrays m) (h : Valid fo m) : m.verify fo = .ok () := by
  rw [verify_ok, foundErrors_nil, verifyVertices_none hs.vertices, verifyNormals_none hs.normals,
    verifyUvs_none hs.uvs (fun l hl p hp h0 => absurd h0 (by rw [((h.uvs l hl p hp).1).1]; simp))]
  have weaken : ∀ {α : Type} {d : Option (List α)} {t : Option (List Nat)}, IndicesValid d t → IndicesPass d t := by
    intro α d t hv l hl
    obtain ⟨d', hd, hi⟩ := hv l hl
    exact ⟨d', hd, fun i h => Nat.le_of_lt (hi i h)⟩
  exact ⟨weaken h.vertexIndices, ⟨weaken h.normalIndices, h.normals⟩, weaken h.uvIndices⟩

/-- C28 as it stands: `verify` accepts exactly the meshes described by `Passes`, which differs from
`Valid` in three points: an index may equal the length of its array, uvs may have any value, tangent
indices are not looked at. -/
theorem C28_accepts_exactly_partial (law : UvLaw fo) (m : Mesh fo.F) (hs : SmallArrays m) :
    m.verify fo = .ok () ↔ Passes fo m := by
  rw [verify_ok, foundErrors_nil, verifyVertices_none hs.vertices, verifyNormals_none hs.normals,
    verifyUvs_none hs.uvs (fun _ _ p _ => law p.1)]
  constructor
  · rintro ⟨hv, ⟨hn, hl⟩, hu⟩; exact ⟨hv, hn, hu, hl⟩
  · rintro ⟨hv, hn, hu, hl⟩; exact ⟨hv, ⟨hn, hl⟩, hu⟩

/-- C28: every reported error names a problem the mesh has, and each of the three parts that fails
its check is reported (once). -/
theorem C28_reports_partial (law : UvLaw fo) (m : Mesh fo.F) (hs : SmallArrays m) (s : IntegrityStatus fo.F)
    (h : m.verify fo = .err s) :
    (∀ e ∈ reported s, Accurate fo m e) ∧
    (¬ IndicesPass m.vertices m.vertexTriangles → .vertices ∈ (reported s).map partOf) ∧
    (¬ (IndicesPass m.normals m.normalTriangles ∧ ∀ l, m.normals = some l → ∀ n ∈ l, UnitLength fo n) →
      .normals ∈ (reported s).map partOf) ∧
    (¬ IndicesPass m.uvs m.uvTriangles → .uvs ∈ (reported s).map partOf) ∧
    ((reported s).map partOf).Nodup := by
  rw [verify_err h]
  have hv := @verifyVertices_some fo.F fo m
  have hn := @verifyNormals_some fo m
  have hu := @verifyUvs_some fo m
  have hv0 := verifyVertices_none hs.vertices
  have hn0 := verifyNormals_none hs.normals
  have hu0 := verifyUvs_none hs.uvs (fun _ _ p _ => law p.1)
  unfold foundErrors
  refine ⟨?_, ?_, ?_, ?_, ?_⟩
  · intro e he
    simp only [List.mem_append, Option.mem_toList, Option.mem_def] at he
    rcases he with (he | he) | he
    · exact (hv hs.vertices he).2
    · exact (hn hs.normals he).2
    · exact (hu hs.uvs he).2
  · intro hp
    cases e : verifyVertices m with
    | none => exact absurd (hv0.mp e) hp
    | some x => simp [(hv hs.vertices e).1]
  · intro hp
    cases e : verifyNormals fo m with
    | none => exact absurd (hn0.mp e) hp
    | some x => simp [(hn hs.normals e).1]
  · intro hp
    cases e : verifyUvs fo m with
    | none => exact absurd (hu0.mp e) hp
    | some x => simp [(hu hs.uvs e).1]
  · have pv : ∀ e, verifyVertices m = some e → partOf e = .vertices := fun e he => (hv hs.vertices he).1
    have pn : ∀ e, verifyNormals fo m = some e → partOf e = .normals := fun e he => (hn hs.normals he).1
    have pu : ∀ e, verifyUvs fo m = some e → partOf e = .uvs := fun e he => (hu hs.uvs he).1
    exact parts_nodup pv pn pu

/-- C28 is false: an index equal to the length of its array is accepted, for every vertex array. -/
theorem C28_index_violated (vs : List (Vec3 fo.F)) (h : vs.length < 2 ^ 32) :
    ∃ m : Mesh fo.F, SmallArrays m ∧ m.verify fo = .ok () ∧ ¬ Valid fo m := by
  refine ⟨{ (Mesh.empty : Mesh fo.F) with vertices := some vs, vertexTriangles := some [vs.length] }, ⟨?_, ?_, ?_⟩, ?_, ?_⟩
  · intro l hl; cases hl; exact h
  · intro l hl; cases hl
  · intro l hl; cases hl
  · rw [verify_ok]
    simp [foundErrors, verifyVertices, verifyNormals, verifyUvs, Mesh.empty, indicesInsideArray, Nat.mod_eq_of_lt h]
  · intro hv
    obtain ⟨d, hd, hi⟩ := hv.vertexIndices _ rfl
    cases hd
    exact absurd (hi vs.length (by simp)) (by omega)

/-- C28 is false: uvs outside [0,1] are accepted, whatever their values. -/
theorem C28_uv_violated (law : UvLaw fo) {x y : fo.F} (h : fo.lt (fo.lit 1 0) x = true) :
    ∃ m : Mesh fo.F, SmallArrays m ∧ m.verify fo = .ok () ∧ ¬ Valid fo m := by
  have hs : SmallArrays { (Mesh.empty : Mesh fo.F) with uvs := some [(x, y)] } := by
    refine ⟨?_, ?_, ?_⟩
    · intro l hl; cases hl
    · intro l hl; cases hl
    · intro l hl; cases hl; show 1 < 2 ^ 32; decide
  refine ⟨_, hs, (C28_accepts_exactly_partial law _ hs).mpr ⟨?_, ?_, ?_, ?_⟩, ?_⟩
  · intro t ht; cases ht
  · intro t ht; cases ht
  · intro t ht; cases ht
  · intro l hl; cases hl
  · intro hv
    have := ((hv.uvs _ rfl (x, y) (by simp)).1).2
    rw [h] at this; cases this

/-- C28 is false: a tangent index array without tangents is accepted. -/
theorem C28_tangent_violated (t : List Nat) :
    ∃ m : Mesh fo.F, SmallArrays m ∧ m.verify fo = .ok () ∧ ¬ Valid fo m := by
  refine ⟨{ (Mesh.empty : Mesh fo.F) with tangentTriangles := some t }, ⟨?_, ?_, ?_⟩, rfl, ?_⟩
  · intro l hl; cases hl
  · intro l hl; cases hl
  · intro l hl; cases hl
  · intro hv
    obtain ⟨d, hd, _⟩ := hv.tangentIndices t rfl
    cases hd

/-- C28 is false: not all problems are reported. A mesh whose normal is not a unit vector and whose
normal index is far outside gets only the first of the two errors. -/
theorem C28_report_violated {n : Vec3 fo.F} (h : ¬ UnitLength fo n) :
    ∃ (m : Mesh fo.F) (e : Integrity fo.F), m.verify fo = .err (.single e) ∧
      Accurate fo m (.indexOutsideNormalArray 7 1) ∧ e ≠ .indexOutsideNormalArray 7 1 := by
  refine ⟨{ (Mesh.empty : Mesh fo.F) with normals := some [n], normalTriangles := some [7] }, .normalsNotNormalized, ?_, ?_, ?_⟩
  · have : ([n].any (notUnit fo)) = true := any_notUnit.mpr ⟨n, by simp, h⟩
    have hv : verifyNormals fo { (Mesh.empty : Mesh fo.F) with normals := some [n], normalTriangles := some [7] } =
        some .normalsNotNormalized := by
      unfold verifyNormals
      simp only
      rw [if_pos this]
    unfold Mesh.verify
    rw [hv]
    rfl
  · exact ⟨[n], [7], rfl, rfl, rfl, by simp, by decide⟩
  · simp

/-- IEEE arithmetic meets the law the theorems above assume. -/
theorem C28_law_ieee (lib : Ieee.Libm) : UvLaw (Ieee.ops lib) := Ieee.uvLaw (Ieee.orderLaws lib)

/-- A libm for examples; `verify` does not call it. -/
def noLibm : Ieee.Libm := ⟨id, id, id, Ieee.ceilLog2⟩

/-- A small IEEE number for examples. -/
def ieee (n : Nat) : (Ieee.ops noLibm).F := Ieee.ofNat n

/-- A triangle with a normal and a uv. -/
def plainMesh : Mesh (Ieee.ops noLibm).F :=
  { (Mesh.empty : Mesh (Ieee.ops noLibm).F) with
    vertices := some [(ieee 0, ieee 0, ieee 0), (ieee 1, ieee 0, ieee 0), (ieee 0, ieee 5, ieee 0)]
    vertexTriangles := some [0, 1, 2]
    normals := some [(ieee 0, ieee 0, ieee 1)]
    normalTriangles := some [0, 0, 0]
    uvs := some [(ieee 0, ieee 1)] }

instance (n : Vec3 (Ieee.ops noLibm).F) : Decidable (UnitLength (Ieee.ops noLibm) n) := by
  unfold UnitLength; infer_instance

instance (x : (Ieee.ops noLibm).F) : Decidable (InUnit (Ieee.ops noLibm) x) := by
  unfold InUnit; infer_instance

/-- The mesh is valid. -/
theorem plainMesh_valid : SmallArrays plainMesh ∧ Valid (Ieee.ops noLibm) plainMesh := by
  refine ⟨⟨?_, ?_, ?_⟩, ⟨?_, ?_, ?_, ?_, ?_, ?_⟩⟩
  · intro l hl; cases hl; show 3 < 2 ^ 32; decide
  · intro l hl; cases hl; show 1 < 2 ^ 32; decide
  · intro l hl; cases hl; show 1 < 2 ^ 32; decide
  · intro t ht; cases ht; exact ⟨_, rfl, by decide⟩
  · intro t ht; cases ht; exact ⟨_, rfl, by decide⟩
  · intro t ht; cases ht
  · intro t ht; cases ht
  · intro l hl; cases hl; intro n hn; cases List.mem_singleton.mp hn; decide +kernel
  · intro l hl; cases hl; intro p hp; cases List.mem_singleton.mp hp; constructor <;> decide +kernel

example : plainMesh.verify (Ieee.ops noLibm) = .ok () :=
  C28_valid_accepted plainMesh plainMesh_valid.1 plainMesh_valid.2

/-- The same mesh with a normal of length 2 and an index far outside. -/
def brokenMesh : Mesh (Ieee.ops noLibm).F :=
  { plainMesh with normals := some [(ieee 0, ieee 2, ieee 0)], vertexTriangles := some [0, 1, 9] }

/-- Both problems are reported. -/
example : brokenMesh.verify (Ieee.ops noLibm) =
    .err (.composite [.indexOutsideVertexArray 9 3, .normalsNotNormalized]) := by
  have h : ([((ieee 0, ieee 2, ieee 0) : Vec3 (Ieee.ops noLibm).F)].any (notUnit (Ieee.ops noLibm))) = true :=
    any_notUnit.mpr ⟨(ieee 0, ieee 2, ieee 0), by simp, by decide +kernel⟩
  have hn : verifyNormals (Ieee.ops noLibm) brokenMesh = some .normalsNotNormalized := by
    unfold verifyNormals brokenMesh; simp only; rw [if_pos h]
  unfold Mesh.verify
  rw [hn]
  rfl

/-- 2.0 is outside [0,1], so `C28_uv_violated` applies; a normal of length 2 for
`C28_report_violated`. -/
example : (Ieee.ops noLibm).lt ((Ieee.ops noLibm).lit 1 0) (ieee 2) = true := by decide +kernel
example : ¬ UnitLength (Ieee.ops noLibm) (ieee 0, ieee 2, ieee 0) := by decide +kernel

end Tmf.Props
