import Verif.Props.AnyBuild
import Verif.Props.Verify
import Verif.Lemmas.IndexWidth
/-
C69: the features `long_indices` and `short_indices`.
-/

namespace Tmf.Props

open Tmf Tmf.Spec

variable (fo : FloatOps) (fb : F64Bytes fo)

/-- C69: with 32 bits the reader and the writer are those of the default build. -/
theorem C69_default (b : Build) (prec : PrecisionInfo fo.F) (meshes : List (Mesh fo.F × List UInt8)) (s : Source) (m : Mesh fo.F) :
    readTmfIn 32 fo fb b s = readTmf fo fb b s ∧ tmfBytesIn 32 fo fb b prec meshes = tmfBytes fo fb b prec meshes ∧
      m.verifyIn 32 fo = m.verify fo :=
  ⟨readTmfIn_default fo fb b s, tmfBytesIn_default meshes, rfl⟩

/-- C69: reading any source with a wider and a narrower type of index ends in the same way: both accept
it, both report the same error, or both panic. When accepted, the meshes are the same but for the indices
and the custom integers, which have lost their upper bits without any error. -/
theorem C69_cut {j k : Nat} (h : j ≤ k) (b : Build) (s : Source) :
    Both (List.Forall₂ fun x y => CutMesh j x.1 y.1 ∧ y.2 = x.2) (readTmfIn k fo fb b s) (readTmfIn j fo fb b s) :=
  readTmfIn_cut fo fb h b s

theorem forall₂_cut_eq {j : Nat} {F : Type} {l l' : List (Mesh F × List UInt8)}
    (h : List.Forall₂ (fun x y => CutMesh j x.1 y.1 ∧ y.2 = x.2) l l') (hl : ∀ mn ∈ l, MeshIn j mn.1) : l' = l := by
  induction h with
  | nil => rfl
  | cons h _ ih =>
    rw [ih fun mn hmn => hl mn (List.mem_cons_of_mem _ hmn)]
    congr 1
    exact Prod.ext (h.1.eq_of_in (hl _ List.mem_cons_self)) h.2

/-- C69: if all that was read fits in the narrower type, the narrower build reads exactly the same. -/
theorem C69_same {j k : Nat} (h : j ≤ k) (b : Build) (s : Source) {out : List (Mesh fo.F × List UInt8)}
    (hr : readTmfIn k fo fb b s = .ok out) (hm : ∀ mn ∈ out, MeshIn j mn.1) : readTmfIn j fo fb b s = .ok out := by
  have := C69_cut fo fb h b s
  rw [hr] at this
  cases hj : readTmfIn j fo fb b s with
  | ok out' =>
    rw [hj] at this
    cases this with
    | ok h => rw [forall₂_cut_eq h hm]
  | err e => rw [hj] at this; cases this
  | panic => rw [hj] at this; cases this

/-- C69: two builds whose types hold all indices of the meshes write the same bytes. -/
theorem C69_bytes {j k : Nat} (b : Build) (prec : PrecisionInfo fo.F) {meshes : List (Mesh fo.F × List UInt8)}
    (hj : ∀ mn ∈ meshes, ArraysIn j mn.1) (hk : ∀ mn ∈ meshes, ArraysIn k mn.1) :
    tmfBytesIn j fo fb b prec meshes = tmfBytesIn k fo fb b prec meshes :=
  tmfBytesIn_eq hj hk

variable {fo} in
theorem arraysIn_holds {m : Mesh fo.F} (h : MeshHolds m) : ArraysIn 32 m where
  vertex l e i hi := lt_trans ((h.vertexTriangles l e).2 i hi) (by decide)
  normal l e i hi := lt_trans ((h.normalTriangles l e).2 i hi) (by decide)
  uv l e i hi := lt_trans ((h.uvTriangles l e).2 i hi) (by decide)
  tangent l e i hi := lt_trans ((h.tangentTriangles l e).2 i hi) (by decide)

variable {fo} in
theorem customIn_same {k : Nat} {c c' : CustomData fo.F} (h : SameCustom c c') (hc : CustomIn k c) : CustomIn k c' := by
  cases h with
  | index => exact hc
  | integer => exact hc
  | float => trivial
  | color => trivial

variable {fo} in
theorem meshIn_back {k : Nat} {x y : Mesh fo.F × List UInt8} (h : CameBack fo x y) (hm : MeshIn k x.1) : MeshIn k y.1 where
  arrays := ⟨fun l e => hm.arrays.vertex l (h.indices.vertex ▸ e), fun l e => hm.arrays.normal l (h.indices.normal ▸ e),
    fun l e => hm.arrays.uv l (h.indices.uv ▸ e), fun l e => hm.arrays.tangent l (h.indices.tangent ▸ e)⟩
  custom c hc := by
    obtain ⟨i, hi, rfl⟩ := List.mem_iff_getElem.mp hc
    have hl := h.custom.length_eq
    have hi' : i < x.1.customData.reverse.length := by omega
    have := (List.forall₂_iff_get.mp h.custom).2 i hi' hi
    exact customIn_same this.2 (hm.custom _ (List.mem_reverse.mp (List.getElem_mem hi')))

/-- C69: files go between builds with different types of index. Meshes inside the limits of the format,
saved by a build with `j` bits, are loaded by a build with `k` bits exactly as by the default build, if both
types hold all indices and custom integers. -/
theorem C69_saved {j k : Nat} (hk : k ≤ 64) {b b' : Build} {prec : PrecisionInfo fo.F} (hS : ByteSettings prec)
    {meshes : List (Mesh fo.F × List UInt8)} {bytes : List UInt8} (h : tmfBytesIn j fo fb b prec meshes = .ok bytes)
    (hl : LimitsAny fo fb b prec meshes) (hj : ∀ mn ∈ meshes, ArraysIn j mn.1) (hm : ∀ mn ∈ meshes, MeshIn k mn.1)
    (hb : bytes.length ≤ 2 ^ 31) (junk : List UInt8) (sched : List Nat) :
    tmfBytes fo fb b prec meshes = .ok bytes ∧
      readTmfIn k fo fb b' ⟨bytes ++ junk, sched, false⟩ = readTmf fo fb b' ⟨bytes ++ junk, sched, false⟩ := by
  have h32 : tmfBytes fo fb b prec meshes = .ok bytes := by
    rw [← tmfBytesIn_default, ← tmfBytesIn_eq hj fun mn hmn => arraysIn_holds (hl.holds mn hmn), h]
  refine ⟨h32, ?_⟩
  have h64 := readTmfIn_saved (b' := b') h32 hl hS hb junk sched
  have hcut := C69_cut fo fb hk b' ⟨bytes ++ junk, sched, false⟩
  rw [h64] at hcut
  cases hr : readTmf fo fb b' ⟨bytes ++ junk, sched, false⟩ with
  | ok out =>
    refine C69_same fo fb hk b' _ (h64.trans hr) fun mn hmn => ?_
    obtain ⟨i, hi, rfl⟩ := List.mem_iff_getElem.mp hmn
    have hf := cameBack fo fb prec hS h32 hl hb hr
    have hl := hf.length_eq
    exact meshIn_back ((List.forall₂_iff_get.mp hf).2 i (by omega) hi) (hm _ (List.getElem_mem _))
  | err e =>
    rw [hr] at hcut
    generalize readTmfIn k fo fb b' ⟨bytes ++ junk, sched, false⟩ = o at hcut
    cases hcut
    rfl
  | panic =>
    rw [hr] at hcut
    generalize readTmfIn k fo fb b' ⟨bytes ++ junk, sched, false⟩ = o at hcut
    cases hcut
    rfl

/-- C69: what a build with a narrower type makes of a file it cannot represent: it accepts the file when the
default build does, and every index is what is left of the saved one. -/
theorem C69_saved_cut {k : Nat} (hk : k ≤ 32) {b b' : Build} {prec : PrecisionInfo fo.F} (hS : ByteSettings prec)
    {meshes : List (Mesh fo.F × List UInt8)} {bytes : List UInt8} (h : tmfBytes fo fb b prec meshes = .ok bytes)
    (hl : LimitsAny fo fb b prec meshes) (hb : bytes.length ≤ 2 ^ 31) (junk : List UInt8) (sched : List Nat)
    {out : List (Mesh fo.F × List UInt8)} (hr : readTmf fo fb b' ⟨bytes ++ junk, sched, false⟩ = .ok out) :
    ∃ out', readTmfIn k fo fb b' ⟨bytes ++ junk, sched, false⟩ = .ok out' ∧ List.Forall₂ (fun mn mn' =>
      mn'.2 = mn.2 ∧ mn'.1.vertexTriangles = mn.1.vertexTriangles.map (cut k) ∧
        mn'.1.normalTriangles = mn.1.normalTriangles.map (cut k) ∧ mn'.1.uvTriangles = mn.1.uvTriangles.map (cut k) ∧
        mn'.1.tangentTriangles = mn.1.tangentTriangles.map (cut k)) meshes out' := by
  have hcut := C69_cut fo fb hk b' ⟨bytes ++ junk, sched, false⟩
  have hf := cameBack fo fb prec hS h hl hb hr
  rw [readTmfIn_default, hr] at hcut
  generalize readTmfIn k fo fb b' ⟨bytes ++ junk, sched, false⟩ = o at hcut
  cases hcut with
  | @ok _ out' hc =>
    refine ⟨out', rfl, ?_⟩
    clear h hl hr
    induction hf generalizing out' with
    | nil => cases hc; exact .nil
    | cons h1 _ ih =>
      cases hc with
      | cons h2 hc =>
        refine .cons ⟨h2.2.trans h1.name, ?_, ?_, ?_, ?_⟩ (ih hc)
        · rw [h2.1.vertexTriangles, h1.indices.vertex]
        · rw [h2.1.normalTriangles, h1.indices.normal]
        · rw [h2.1.uvTriangles, h1.indices.uv]
        · rw [h2.1.tangentTriangles, h1.indices.tangent]

/-- C69: with `long_indices` an array of indices up to `2 ^ 63` survives, unless its largest index takes
exactly 32 bits. -/
theorem C69_long_array (b b' : Build) {l : List Nat} (hl : l.length ≤ 2 ^ 31)
    (hm : ∃ m, Largest l m ∧ (m < 2 ^ 31 ∨ 2 ^ 32 ≤ m ∧ m < 2 ^ 63)) :
    ∃ bytes, saveTriangles b l (maxIndex l) = .ok bytes ∧ readTrianglesIn 64 b' ⟨true⟩ bytes = .ok l ∧
      readDefaultTrianglesIn 64 b' ⟨true⟩ bytes = .ok l := by
  obtain ⟨m, h1, h2⟩ := hm
  obtain rfl := h1.unique (largest_maxIndex l)
  obtain ⟨bytes, h, hr⟩ := readLong_saved b b' l (m := maxIndex l) (by omega) (custom_max h2) (fun i hi => le_maxIndex hi) hl
  have := hr []
  rw [List.append_nil] at this
  exact ⟨bytes, h, this⟩

/-- C69: `verify` with a `k`-bit type is the default one if the lengths of all arrays fit in both. -/
theorem C69_verify {k : Nat} {m : Mesh fo.F} (hs : SmallArrays m) (hv : ∀ l, m.vertices = some l → l.length < 2 ^ k)
    (hn : ∀ l, m.normals = some l → l.length < 2 ^ k) (hu : ∀ l, m.uvs = some l → l.length < 2 ^ k) :
    m.verifyIn k fo = m.verify fo := by
  have e1 : verifyVerticesIn k m = verifyVertices m := by
    rw [verifyVerticesIn, verifyVertices]
    cases h : m.vertices with
    | none => rfl
    | some l => simp only [Nat.mod_eq_of_lt (hv l h), Nat.mod_eq_of_lt (hs.vertices l h)]; rfl
  have e2 : verifyNormalsIn k fo m = verifyNormals fo m := by
    rw [verifyNormalsIn, verifyNormals]
    cases h : m.normals with
    | none => rfl
    | some l => simp only [Nat.mod_eq_of_lt (hn l h), Nat.mod_eq_of_lt (hs.normals l h)]; rfl
  have e3 : verifyUvsIn k fo m = verifyUvs fo m := by
    rw [verifyUvsIn, verifyUvs]
    cases h : m.uvs with
    | none => rfl
    | some l => simp only [Nat.mod_eq_of_lt (hu l h), Nat.mod_eq_of_lt (hs.uvs l h)]; rfl
  rw [Mesh.verifyIn, Mesh.verify, e1, e2, e3]
  rfl

/-- C69 fails in `verify` with `short_indices`: a valid mesh with 65536 vertices, all of which an index can
name, is refused as soon as it uses any but the first, since the length of the array becomes 0. -/
theorem C69_verify_violated (vs : List (Vec3 fo.F)) (h : vs.length = 2 ^ 16) {t : List Nat} (ht : ∀ i ∈ t, i < 2 ^ 16)
    (hne : ∃ i ∈ t, i ≠ 0) :
    Valid fo { (Mesh.empty : Mesh fo.F) with vertices := some vs, vertexTriangles := some t } ∧
      ∃ i ∈ t, ({ (Mesh.empty : Mesh fo.F) with vertices := some vs, vertexTriangles := some t }).verifyIn 16 fo =
        .err (.single (.indexOutsideVertexArray i 0)) := by
  refine ⟨⟨?_, ?_, ?_, ?_, ?_, ?_⟩, ?_⟩
  · intro l e
    obtain rfl := Option.some.inj e
    exact ⟨vs, rfl, fun i hi => by rw [h]; exact ht i hi⟩
  iterate 5 · intro l e; cases e
  have hi : ∃ i ∈ t, indicesInsideArray t 0 = some i := by
    clear ht
    induction t with
    | nil => obtain ⟨i, hi, -⟩ := hne; cases hi
    | cons a t ih =>
      rw [indicesInsideArray]
      by_cases ha : a > 0
      · exact ⟨a, List.mem_cons_self, if_pos ha⟩
      · rw [if_neg ha]
        obtain ⟨i, hi, hn⟩ := hne
        rcases List.mem_cons.mp hi with rfl | hi
        · omega
        · obtain ⟨x, hx, e⟩ := ih ⟨i, hi, hn⟩
          exact ⟨x, List.mem_cons_of_mem _ hx, e⟩
  obtain ⟨i, hi, e⟩ := hi
  refine ⟨i, hi, ?_⟩
  have e1 : verifyVerticesIn 16 { (Mesh.empty : Mesh fo.F) with vertices := some vs, vertexTriangles := some t } =
      some (.indexOutsideVertexArray i 0) := by
    rw [verifyVerticesIn]
    simp only [h, Nat.mod_self, e]
  rw [Mesh.verifyIn, e1]
  rfl

/-! ### Examples -/

variable (prec : PrecisionInfo fo.F)

/-- A triangle whose first corner is vertex 65536. -/
def farMesh : Mesh fo.F × List UInt8 :=
  ({ (Mesh.empty : Mesh fo.F) with vertexTriangles := some [65536, 1, 2] }, [65])

theorem farMesh_encoded (b : Build) : encodeMesh fo fb b prec (farMesh fo).1 =
    .ok [⟨.vertexTriangle, .none, [17] ++ leBytes 8 3 ++ leBytes 8 1 ++ [127, 255, 128, 0, 0, 0, 32]⟩] := by
  cases b <;> rfl

/-- Its file, as the format describes it. -/
def farBytes : List UInt8 :=
  fileBytes 2 [⟨[65], [⟨2, 0, [17] ++ leBytes 8 3 ++ leBytes 8 1 ++ [127, 255, 128, 0, 0, 0, 32]⟩]⟩]

theorem farMesh_saved (b : Build) : tmfBytes fo fb b prec [farMesh fo] = .ok farBytes := by
  rw [tmfBytes_of fo fb b prec (enc := [[⟨.vertexTriangle, .none,
    [17] ++ leBytes 8 3 ++ leBytes 8 1 ++ [127, 255, 128, 0, 0, 0, 32]⟩]]) (by rw [Outcome.mapAll, farMesh_encoded]; rfl)]
  rfl

theorem farMesh_limits (b : Build) : LimitsAny fo fb b prec [farMesh fo] where
  count := show 1 < 2 ^ 32 by decide
  names := by
    intro mn h
    rcases List.mem_singleton.mp h with rfl
    exact ⟨show 1 < 2 ^ 16 by decide, ⟨['A'], rfl⟩⟩
  holds := by
    intro mn h
    rcases List.mem_singleton.mp h with rfl
    constructor <;> simp [LengthFits, IndicesFit, farMesh, Mesh.empty]
  segments := by
    intro mn h segs hs
    rcases List.mem_singleton.mp h with rfl
    rw [farMesh_encoded] at hs
    cases hs
    decide

theorem farMesh_read (b b' : Build) (hS : ByteSettings prec) : ∃ out, readTmf fo fb b' ⟨farBytes ++ [], [], false⟩ = .ok out :=
  (C49_accepted_iff fo fb prec (b' := b') hS (farMesh_saved fo fb prec b) (farMesh_limits fo fb prec b) (by decide) [] []).mpr (by
    intro mn hmn
    rcases List.mem_singleton.mp hmn with rfl
    constructor <;> simp [farMesh, Mesh.empty])

/-- C69 fails for files that need more bits: a build with `short_indices` loads a triangle with corner 65536
without an error, with corner 0 in its place. -/
theorem C69_short_violated (b b' : Build) (hS : ByteSettings prec) : ∃ out out',
    tmfBytes fo fb b prec [farMesh fo] = .ok farBytes ∧ readTmf fo fb b' ⟨farBytes, [], false⟩ = .ok out ∧
      out.map (fun mn => mn.1.vertexTriangles) = [some [65536, 1, 2]] ∧
      readTmfIn 16 fo fb b' ⟨farBytes, [], false⟩ = .ok out' ∧
      out'.map (fun mn => mn.1.vertexTriangles) = [some [0, 1, 2]] := by
  obtain ⟨out, hr⟩ := farMesh_read fo fb prec b b' hS
  obtain ⟨out', hr', hf'⟩ := C69_saved_cut fo fb (k := 16) (by decide) hS (farMesh_saved fo fb prec b) (farMesh_limits fo fb prec b)
    (by decide) [] [] hr
  have hf := C10_any_build fo fb prec hS (farMesh_saved fo fb prec b) (farMesh_limits fo fb prec b) (by decide) hr
  rw [List.append_nil] at hr hr'
  refine ⟨out, out', farMesh_saved fo fb prec b, hr, ?_, hr', ?_⟩
  · cases hf with
    | cons h hf => cases hf; rw [List.map_singleton, h.vertex]; rfl
  · cases hf' with
    | cons h hf => cases hf; rw [List.map_singleton, h.2.1]; rfl

theorem indexMesh_in (k : Nat) (hk : 2 ≤ k) : MeshIn k (indexMesh fo).1 := by
  have h4 : 4 ≤ 2 ^ k := by
    calc 4 = 2 ^ 2 := rfl
      _ ≤ 2 ^ k := Nat.pow_le_pow_right (by decide) hk
  refine ⟨⟨?_, ?_, ?_, ?_⟩, ?_⟩
  · rintro l ⟨rfl⟩ i hi
    simp at hi
    omega
  · rintro l ⟨rfl⟩ i hi
    simp at hi
    omega
  · rintro l ⟨⟩
  · rintro l ⟨⟩
  · intro c hc; cases hc

/-- Saved with `short_indices`, loaded with `long_indices`, followed by other bytes. -/
example (b b' : Build) (hS : ByteSettings prec) : tmfBytesIn 16 fo fb b prec [indexMesh fo] = .ok indexMeshBytes ∧
    readTmfIn 64 fo fb b' ⟨indexMeshBytes ++ [7], [2], false⟩ = readTmf fo fb b' ⟨indexMeshBytes ++ [7], [2], false⟩ := by
  have hin : ∀ k, 2 ≤ k → ∀ mn ∈ [indexMesh fo], MeshIn k mn.1 := by
    intro k hk mn hmn
    rcases List.mem_singleton.mp hmn with rfl
    exact indexMesh_in fo k hk
  have h : tmfBytesIn 16 fo fb b prec [indexMesh fo] = .ok indexMeshBytes := by
    rw [C69_bytes fo fb b prec (fun mn h => (hin 16 (by decide) mn h).arrays) (fun mn h => (hin 32 (by decide) mn h).arrays),
      (C69_default fo fb b prec _ ⟨[], [], false⟩ (indexMesh fo).1).2.1]
    exact indexMesh_saved fo fb b prec
  exact ⟨h, (C69_saved fo fb (le_refl 64) hS h (indexMesh_limitsAny fo fb prec b) (fun mn h => (hin 16 (by decide) mn h).arrays)
    (hin 64 (by decide)) (by decide) [7] [2]).2⟩

/-- Indices no smaller type could hold. -/
example (b b' : Build) : ∃ bytes, saveTriangles b [5000000000, 0, 4294967296] 5000000000 = .ok bytes ∧
    readTrianglesIn 64 b' ⟨true⟩ bytes = .ok [5000000000, 0, 4294967296] ∧
    readDefaultTrianglesIn 64 b' ⟨true⟩ bytes = .ok [5000000000, 0, 4294967296] :=
  C69_long_array b b' (l := [5000000000, 0, 4294967296]) (by decide) ⟨5000000000, ⟨by decide, .inl (by decide)⟩, .inr (by decide)⟩

/-- A mesh `verify` treats alike with all types. -/
example : (farMesh fo).1.verifyIn 16 fo = .err (.single .vertexArrayMissing) := by
  rw [C69_verify fo ⟨by rintro l ⟨⟩, by rintro l ⟨⟩, by rintro l ⟨⟩⟩ (by rintro l ⟨⟩) (by rintro l ⟨⟩) (by rintro l ⟨⟩)]
  rfl

example (x : fo.F) : ∃ i ∈ [0, 1, 2], ({ (Mesh.empty : Mesh fo.F) with
    vertices := some (List.replicate (2 ^ 16) (x, x, x)), vertexTriangles := some [0, 1, 2] }).verifyIn 16 fo = .err (.single (.indexOutsideVertexArray i 0)) :=
  (C69_verify_violated fo _ (List.length_replicate ..) (by decide) ⟨1, by decide, by decide⟩).2

end Tmf.Props
