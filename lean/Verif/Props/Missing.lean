import Verif.Lemmas.Missing
import Verif.Props.FileAccuracy
import Verif.Props.Endless
import Verif.Props.VertexDrift
/-
C112: what becomes of vertices with NaN for a coordinate. They are stored without complaint and come back as ordinary numbers.
-/

set_option exponentiation.threshold 2000

namespace Tmf.Props
open Spec Ieee

variable {lib : Libm} {fb : F64Bytes (ops lib)}

/-- C112: where coordinates of vertices other than the last are NaN and all others are numbers up to `2^120`, the segment
is stored, and each NaN comes back as the number given in `Filled`. With up to 24 bits, the numbers of all vertices but the last come back
within a step, whether there are NaNs beside them or not. -/
theorem C112_filled {b : Build} {l : List (Vec3 (Val b32))} {pr e : Val b32} {M : ℚ} {s : VBox (Val b32)} (hs : vertexBox (ops lib) l = .ok s)
    (hl : l.length ≤ 2 ^ 31) (hp : Patchy M l) (hM : M ≤ 2 ^ 120) (hx : Writable b (s.precs (ops lib) pr e).1)
    (hy : Writable b (s.precs (ops lib) pr e).2.1) (hz : Writable b (s.precs (ops lib) pr e).2.2) :
    ∃ bytes l', saveVertices (ops lib) fb b l pr e = .ok bytes ∧ readVertices (ops lib) fb bytes = .ok l' ∧ List.Forall₂ (Filled l) l l' ∧
      ((s.precs (ops lib) pr e).1 ≤ 24 → (s.precs (ops lib) pr e).2.1 ≤ 24 → (s.precs (ops lib) pr e).2.2 ≤ 24 →
        List.Forall₂ (fun v v' => v ∈ l.dropLast → Beside (s.precs (ops lib) pr e) M v v') l l') := by
  obtain ⟨bytes, hw, h⟩ := readVertices_writable (fo := ops lib) (fb := fb) (b := b) (l := l) (precision := pr) (edge := e) hs hx hy hz hl
  have hb := box_sides hp hs
  have c1 : ∀ x ∈ l.map fun v => v.1, Plain M x := fun x hx => by obtain ⟨v, hv, rfl⟩ := List.mem_map.mp hx; exact (hp.all v hv).1
  have c2 : ∀ x ∈ l.map fun v => v.2.1, Plain M x := fun x hx => by obtain ⟨v, hv, rfl⟩ := List.mem_map.mp hx; exact (hp.all v hv).2.1
  have c3 : ∀ x ∈ l.map fun v => v.2.2, Plain M x := fun x hx => by obtain ⟨v, hv, rfl⟩ := List.mem_map.mp hx; exact (hp.all v hv).2.2
  have d1 : ∀ x ∈ l.dropLast.map fun v => v.1, Plain M x := fun x hx => by
    obtain ⟨v, hv, rfl⟩ := List.mem_map.mp hx; exact (hp.all v (List.mem_of_mem_dropLast hv)).1
  have d2 : ∀ x ∈ l.dropLast.map fun v => v.2.1, Plain M x := fun x hx => by
    obtain ⟨v, hv, rfl⟩ := List.mem_map.mp hx; exact (hp.all v (List.mem_of_mem_dropLast hv)).2.1
  have both : ∀ {xs ys : List (Val b32)}, (∀ x ∈ xs, Plain M x) → (∀ x ∈ ys, Plain M x) → ∀ x ∈ xs ++ ys, Plain M x :=
    fun h1 h2 x hx => (List.mem_append.mp hx).elim (h1 x) (h2 x)
  have s1 := least_size hb.minX c1
  have s2 := least_size hb.minY (both c3 d2)
  have s3 := least_size hb.minZ (both c3 c2)
  have t1 := greatest_size hb.maxX (both d1 c2)
  have t2 := greatest_size hb.maxY (both c1 c2)
  have t3 := greatest_size hb.maxZ c3
  have p1 : 1 ≤ (s.precs (ops lib) pr e).1 := le_max_right _ _
  have p2 : 1 ≤ (s.precs (ops lib) pr e).2.1 := le_max_right _ _
  have p3 : 1 ≤ (s.precs (ops lib) pr e).2.2 := le_max_right _ _
  have hx := hx.le
  have hy := hy.le
  have hz := hz.le
  refine ⟨bytes, _, hw, h, ?_, ?_⟩
  · rw [List.forall₂_map_right_iff, List.forall₂_same]
    intro v _
    rw [quantVertex_ops lib]
    refine ⟨fun e => ?_, fun e => ?_, fun e => ?_⟩ <;> dsimp only <;> rw [e]
    · exact least_other hb.minX (coordQ_nan p1 hx hb.minX.finite hb.maxX.finite s1 t1 hM)
    · exact least_other hb.minY (coordQ_nan p2 hy hb.minY.finite hb.maxY.finite s2 t2 hM)
    · exact least_other hb.minZ (coordQ_nan p3 hz hb.minZ.finite hb.maxZ.finite s3 t3 hM)
  · intro q1 q2 q3
    rw [List.forall₂_map_right_iff, List.forall₂_same]
    intro v hv hd
    rw [quantVertex_ops lib]
    have i1 : v.1 ∈ l.map fun v => v.1 := List.mem_map_of_mem (f := fun v : Vec3 (Val b32) => v.1) hv
    have i2 : v.2.1 ∈ l.map fun v => v.2.1 := List.mem_map_of_mem (f := fun v : Vec3 (Val b32) => v.2.1) hv
    have i3 : v.2.2 ∈ l.map fun v => v.2.2 := List.mem_map_of_mem (f := fun v : Vec3 (Val b32) => v.2.2) hv
    have j1 : v.1 ∈ l.dropLast.map fun v => v.1 := List.mem_map_of_mem (f := fun v : Vec3 (Val b32) => v.1) hd
    have j2 : v.2.1 ∈ l.dropLast.map fun v => v.2.1 := List.mem_map_of_mem (f := fun v : Vec3 (Val b32) => v.2.1) hd
    refine ⟨fun f => ?_, fun f => ?_, fun f => ?_⟩
    · exact coordQ_beside p1 q1 f hb.minX.finite hb.maxX.finite (hb.minX.le _ i1 f) (hb.maxX.ge _ (List.mem_append_left _ j1) f) s1 t1 hM
    · exact coordQ_beside p2 q2 f hb.minY.finite hb.maxY.finite (hb.minY.le _ (List.mem_append_right _ j2) f)
        (hb.maxY.ge _ (List.mem_append_right _ i2) f) s2 t2 hM
    · exact coordQ_beside p3 q3 f hb.minZ.finite hb.maxZ.finite (hb.minZ.le _ (List.mem_append_left _ i3) f) (hb.maxZ.ge _ i3 f) s3 t3 hM

/-- A piece of vertices and what is loaded for it: each NaN filled in, the numbers beside it within a step. -/
structure PieceFilled (lib : Libm) (pr e : Val b32) (M : ℚ) (p p' : List (Vec3 (Val b32))) : Prop where
  filled : List.Forall₂ (Filled p) p p'
  beside : ∀ s, vertexBox (ops lib) p = .ok s → (s.precs (ops lib) pr e).1 ≤ 24 → (s.precs (ops lib) pr e).2.1 ≤ 24 →
    (s.precs (ops lib) pr e).2.2 ≤ 24 → List.Forall₂ (fun v v' => v ∈ p.dropLast → Beside (s.precs (ops lib) pr e) M v v') p p'

theorem piece_filled (fb : F64Bytes (ops lib)) {pr e : Val b32} {M : ℚ} {p : List (Vec3 (Val b32))} (hl : p.length ≤ 2 ^ 31)
    (hp : Patchy M p) (hM : M ≤ 2 ^ 120) (hw : ∀ s, vertexBox (ops lib) p = .ok s → (s.precs (ops lib) pr e).1 ≤ 30 ∧
      (s.precs (ops lib) pr e).2.1 ≤ 30 ∧ (s.precs (ops lib) pr e).2.2 ≤ 30) : PieceFilled lib pr e M p (quantVertices (ops lib) pr e p) := by
  cases p with
  | nil => exact ⟨.nil, fun s hs => by cases hs⟩
  | cons v0 p =>
    obtain ⟨s, hs⟩ : ∃ s, vertexBox (ops lib) (v0 :: p) = .ok s := ⟨_, vertexBox_ops lib v0 p⟩
    obtain ⟨hx, hy, hz⟩ := hw s hs
    obtain ⟨bytes, l', hw, hr, hk, hk'⟩ := C112_filled (fb := fb) (b := .wrapping) (pr := pr) (e := e) hs hl hp hM (.inl hx) (.inl hy) (.inl hz)
    obtain ⟨bytes', hw', hr'⟩ := readVertices_saved (fo := ops lib) (fb := fb) (b := .wrapping) (l := v0 :: p) (precision := pr) (edge := e)
      hs hx hy hz hl
    rw [hw] at hw'
    cases hw'
    have := hr' []
    rw [List.append_nil, hr] at this
    cases this
    refine ⟨hk, fun s' hs' => ?_⟩
    rw [hs] at hs'
    cases hs'
    exact hk'

/-- C112 for whole files: every build loads what was saved, and in every piece of a vertex array with NaNs, but none in its last
vertex, they come back as the numbers given in `Filled`. -/
theorem C112_file {b b' : Build} {prec : PrecisionInfo (Val b32)} {meshes : List (Mesh (Val b32) × List UInt8)} {bytes : List UInt8}
    (h : tmfBytes (ops lib) fb b prec meshes = .ok bytes) (hl : LimitsLow (ops lib) fb b prec meshes) (hb : bytes.length ≤ 2 ^ 31)
    (junk : List UInt8) (sched : List Nat) :
    ∃ out, readTmf (ops lib) fb b' ⟨bytes ++ junk, sched, false⟩ = .ok out ∧
      List.Forall₂ (fun mn mn' => ∀ l, mn.1.vertices = some l →
        ∃ e pieces pieces', calcShortestEdge (ops lib) mn.1.vertexTriangles mn.1.vertices = .ok e ∧
          optVertices (ops lib) b l = .ok pieces ∧ pieces.flatten = l ∧ mn'.1.vertices = some pieces'.flatten ∧
          List.Forall₂ (fun p p' => ∀ M, Patchy M p → M ≤ 2 ^ 120 → PieceFilled lib prec.vertex e M p p') pieces pieces') meshes out := by
  obtain ⟨out, e, hf⟩ := readTmf_low (b' := b') h hl hb junk sched
  refine ⟨out, e, forall₂_imp hf ?_⟩
  rintro mn hmn mn' ⟨_, edge, he, hm, hcut⟩ l hml
  obtain ⟨qs, hq, hc⟩ := hcut l hml
  have hlen := (hl.fits mn hmn).vertices l hml
  refine ⟨edge, qs, qs.map (quantVertices (ops lib) prec.vertex edge), he, hq, hc, ?_, forall₂_map fun p hp M hP hM => ?_⟩
  · rw [hm]
    simp only [loadedMesh, hml, Option.map_some, loadedVertices, hq, List.flatMap_def]
  · have hsub := List.sublist_flatten_of_mem hp
    rw [hc] at hsub
    exact piece_filled fb (le_trans hsub.length_le hlen) hP hM
      fun s hs => (saved_narrow h hl mn hmn).vertices l edge qs p s hml he hq hp hs

/-! ### An example -/

/-- Three vertices. The `y` of the second is NaN. -/
def holedVertices : List (Vec3 (Val b32)) := [(vZero, vZero, vZero), (vOne, .nan, vZero), (vOne, vOne, vZero)]

theorem holed_box : boxOf (vZero, vZero, vZero) [(vOne, .nan, vZero), (vOne, vOne, vZero)] =
    ⟨vZero, vOne, vZero, vOne, vZero, vZero⟩ := by decide +kernel

theorem holed_bits (hlog : AccurateLog2 lib) : vertexBits lib ⟨vZero, vOne, vZero, vOne, vZero, vZero⟩ (lit 1 1) (lit 1 1) = (7, 7, 7) := by
  rw [vertexBits, bits_clear hlog] <;> decide +kernel

theorem holed_patchy : Patchy 1 holedVertices where
  all := by
    have z : Plain 1 vZero := .inr ⟨rfl, by rw [valueOf_vZero]; norm_num⟩
    have o : Plain 1 vOne := .inr ⟨rfl, by rw [valueOf_vOne]; norm_num⟩
    intro v hv
    simp only [holedVertices, List.mem_cons, List.not_mem_nil, or_false] at hv
    rcases hv with rfl | rfl | rfl
    · exact ⟨z, z, z⟩
    · exact ⟨o, .inl rfl, z⟩
    · exact ⟨o, o, z⟩
  last := by
    intro v hv
    cases hv
    exact ⟨rfl, rfl, rfl⟩

theorem holed_widths (hlog : AccurateLog2 lib) {s : VBox (Val b32)} (hs : vertexBox (ops lib) holedVertices = .ok s) :
    s.precs (ops lib) (lit 1 1) (lit 1 1) = (7, 7, 7) := by
  rw [holedVertices, vertexBox_ops, holed_box] at hs
  cases hs
  rw [precs_ops lib, holed_bits hlog]

/-- A mesh of these vertices. -/
def holedMesh : Mesh (Val b32) := { (Mesh.empty : Mesh (Val b32)) with vertices := some holedVertices }

theorem holed_flat : ∀ v ∈ holedVertices, v.2.2 = vZero := by
  intro v hv
  simp only [holedVertices, List.mem_cons, List.not_mem_nil, or_false] at hv
  rcases hv with rfl | rfl | rfl <;> rfl

/-- The shortest edge of a mesh without triangles. -/
theorem creep_edge_none (l : List (Vec3 (Val b32))) : calcShortestEdge (ops lib) none (some l) = .ok (lit 1 1 : Val b32) := rfl

theorem holed_fits : MeshFits creepPrec holedMesh := by
  refine ⟨?_, ?_, ?_, ?_, ?_, ?_, ?_, ?_, ?_, ?_, ?_⟩ <;> simp [LengthFits, IndicesFit, holedMesh, holedVertices, Mesh.empty]

theorem holed_limits (hlog : AccurateLog2 lib) : LimitsLow (ops lib) fb .wrapping creepPrec [(holedMesh, [65])] where
  count := show 1 < 2 ^ 32 by decide
  names := by
    intro mn h
    rcases List.mem_singleton.mp h with rfl
    exact ⟨show 1 < 2 ^ 16 by decide, ⟨['A'], rfl⟩⟩
  fits := by
    intro mn h
    rcases List.mem_singleton.mp h with rfl
    exact holed_fits
  segments := by
    intro mn h segs hs
    rcases List.mem_singleton.mp h with rfl
    refine lt_of_le_of_lt (encodeMesh_count (orderLaws lib) holed_fits hs) ?_
    norm_num [segmentBound, mostPieces, indexPieces, onePiece, holedMesh, holedVertices, Mesh.empty]
  low := by
    right
    intro mn h
    rcases List.mem_singleton.mp h with rfl
    refine ⟨(fun h => nomatch h), (fun h => nomatch h), (fun h => nomatch h), (fun c hc => nomatch hc), ?_⟩
    intro l edge pieces piece s hl he hp hm hs
    cases hl
    cases flat_cut holed_flat hp
    cases List.mem_singleton.mp hm
    replace he := (creep_edge_none holedVertices).symm.trans he
    cases he
    rw [show creepPrec.vertex = lit 1 1 from rfl, holed_widths hlog hs]
    decide

theorem holed_saved (fb : F64Bytes (ops lib)) : ∃ bytes, tmfBytes (ops lib) fb .wrapping creepPrec [(holedMesh, [65])] = .ok bytes := by
  refine C29_saved_partial (orderLaws lib) .wrapping _ _ ?_ ?_ ?_ ?_ ?_
  · intro mn hm
    cases List.mem_singleton.mp hm
    refine ⟨rfl, ⟨?_, ?_, ?_⟩, ?_, ?_, ?_, ?_, ?_⟩
    · intro l hl; cases hl; show 3 < 2 ^ 32; decide
    · intro l hl; cases hl
    · intro l hl; cases hl
    · intro t ht; cases ht
    · intro t ht; cases ht
    · intro t ht; cases ht
    · intro t ht; cases ht
    · intro c hc; cases hc
  · intro mn hm; cases List.mem_singleton.mp hm; simp [holedMesh, holedVertices]
  · intro mn hm vs t hv ht
    cases List.mem_singleton.mp hm
    cases ht
  · intro mn hm
    cases List.mem_singleton.mp hm
    refine ⟨show isFinite (lit 1 1 : Val b32) = true by decide +kernel, fun vs t hv ht _ => ?_⟩
    cases ht
  · intro h; cases h

/-- The hypotheses of `C112_filled` and `C112_file` can be met. With the default settings, the vertex `(1, NaN, 0)` comes back with 0 for `y`. -/
example (hlog : AccurateLog2 lib) : ∃ bytes l' v, tmfBytes (ops lib) fb .wrapping (PrecisionInfo.default (ops lib)) [(holedMesh, [65])] = .ok bytes ∧
    (∀ b' junk sched, ∃ m, readTmf (ops lib) fb b' ⟨bytes ++ junk, sched, false⟩ = .ok [m] ∧ m.1.vertices = some l') ∧
    l'[1]? = some v ∧ isFinite v.2.1 = true ∧ valueOf v.2.1 = 0 := by
  rw [C91_bits hlog]
  obtain ⟨bytes, hb⟩ := holed_saved fb
  have hlen : bytes.length ≤ 2 ^ 31 := by
    refine le_trans (C56_linear (orderLaws lib) ⟨show 7 < 256 by decide, show 14 < 256 by decide, show 7 < 256 by decide⟩ ?_ hb) ?_
    · intro mn h
      rcases List.mem_singleton.mp h with rfl
      exact holed_fits
    · norm_num [meshSizeBound, segmentBound, mostPieces, indexPieces, onePiece, elements, elementCount, customLoad, customCount, holedMesh,
        holedVertices, Mesh.empty]
  have hw : ∀ s, vertexBox (ops lib) holedVertices = .ok s → (s.precs (ops lib) (lit 1 1) (lit 1 1)).1 ≤ 30 ∧
      (s.precs (ops lib) (lit 1 1) (lit 1 1)).2.1 ≤ 30 ∧ (s.precs (ops lib) (lit 1 1) (lit 1 1)).2.2 ≤ 30 :=
    fun s hs => by rw [holed_widths hlog hs]; decide
  have hk := (piece_filled fb (M := 1) (p := holedVertices) (show 3 ≤ 2 ^ 31 by decide) holed_patchy (by norm_num) hw).filled
  have hr : ∀ b' junk sched, ∃ m, readTmf (ops lib) fb b' ⟨bytes ++ junk, sched, false⟩ = .ok [m] ∧
      m.1.vertices = some (quantVertices (ops lib) (lit 1 1) (lit 1 1) holedVertices) := by
    intro b' junk sched
    obtain ⟨out, hr, hf⟩ := readTmf_low (b' := b') hb (holed_limits hlog) hlen junk sched
    obtain ⟨m, rfl, -, edge, he, hm, hcut⟩ := forall₂_one hf
    refine ⟨m, hr, ?_⟩
    replace he := (creep_edge_none holedVertices).symm.trans he
    cases he
    obtain ⟨qs, hq, -⟩ := hcut holedVertices rfl
    cases flat_cut holed_flat hq
    rw [hm]
    show some (loadedVertices (ops lib) .wrapping (lit 1 1) (lit 1 1) holedVertices) = _
    rw [loadedVertices, hq]
    simp
  generalize quantVertices (ops lib) (lit 1 1) (lit 1 1) holedVertices = l' at *
  rcases hk with _ | ⟨-, _ | ⟨h, -⟩⟩
  rename_i v _
  refine ⟨bytes, _, v, hb, hr, rfl, ?_⟩
  have hy := h.y rfl
  refine ⟨hy.finite, ?_⟩
  obtain ⟨x, hx, hf, e⟩ := hy.among
  rw [← e]
  simp only [holedVertices, List.map_cons, List.map_nil, List.dropLast, List.cons_append, List.nil_append, List.mem_cons, List.not_mem_nil,
    or_false] at hx
  rcases hx with rfl | rfl | rfl | rfl | rfl
  · exact valueOf_vZero
  · exact valueOf_vZero
  · exact valueOf_vZero
  · exact valueOf_vZero
  · cases hf

end Tmf.Props
