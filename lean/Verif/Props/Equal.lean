import Verif.Spec.Equal
import Verif.Props.VertexDrift
import Verif.Spec.Order
/-
C105: elements of an array that are equal come back equal. True of normals, tangents, uv coordinates (even
for different meshes and files, `C105_alone`) and custom data. Of vertices it is true within a piece only:
two equal vertices on both sides of a cut come back at different places (`C105_vertices_violated`), which
opens a seam.
-/

set_option exponentiation.threshold 2000

namespace Tmf.Props
open Spec Ieee

theorem equalStay_map {α : Type} (f : α → α) (l : List α) : EqualStay l (l.map f) where
  length := List.length_map f
  equal := by
    intro i j x x' y' hi hj hi' hj'
    rw [List.getElem?_map, hi] at hi'
    rw [List.getElem?_map, hj] at hj'
    cases hi'
    cases hj'
    rfl

theorem equalStay_vertices (fo : FloatOps) (precision edge : fo.F) (l : List (Vec3 fo.F)) :
    EqualStay l (quantVertices fo precision edge l) := by
  cases l with
  | nil => exact equalStay_map (fun x => x) []
  | cons v l => exact equalStay_map _ (v :: l)

section
variable {fo : FloatOps} {fb : F64Bytes fo} {b b' : Build} {prec : PrecisionInfo fo.F}
  {meshes : List (Mesh fo.F × List UInt8)} {bytes : List UInt8}

/-- C105 for normals, uv coordinates and tangents: for given settings there is one rule that says how each
element comes back, whatever else is in the array, the mesh and the file, and whichever builds are used. -/
theorem C105_alone (fo : FloatOps) (prec : PrecisionInfo fo.F) :
    ∃ (fn : Vec3 fo.F → Vec3 fo.F) (fu : Vec2 fo.F → Vec2 fo.F) (ft : Tangent fo.F → Tangent fo.F),
      ∀ (fb : F64Bytes fo) (b b' : Build) (meshes : List (Mesh fo.F × List UInt8)) (bytes : List UInt8),
        tmfBytes fo fb b prec meshes = .ok bytes → LimitsLow fo fb b prec meshes → bytes.length ≤ 2 ^ 31 →
        ∀ junk sched, ∃ out, readTmf fo fb b' ⟨bytes ++ junk, sched, false⟩ = .ok out ∧
          List.Forall₂ (fun mn mn' => mn'.1.normals = mn.1.normals.map (List.map fn) ∧
            mn'.1.uvs = mn.1.uvs.map (List.map fu) ∧ mn'.1.tangents = mn.1.tangents.map (List.map ft)) meshes out := by
  refine ⟨quantNormal fo prec.normal, quantUv fo prec.uv, quantTangent fo prec.tangent,
    fun fb b b' meshes bytes h hl hb junk sched => ?_⟩
  obtain ⟨out, e, hf⟩ := readTmf_low (b' := b') h hl hb junk sched
  refine ⟨out, e, forall₂_imp hf ?_⟩
  rintro mn _ mn' ⟨_, edge, _, hm, _⟩
  rw [hm]
  exact ⟨rfl, rfl, rfl⟩

/-- C105 for normals, uv coordinates, tangents and custom data of a mesh; the entries of custom data come
back in reverse order. -/
theorem C105_arrays (h : tmfBytes fo fb b prec meshes = .ok bytes) (hl : LimitsLow fo fb b prec meshes)
    (hb : bytes.length ≤ 2 ^ 31) (junk : List UInt8) (sched : List Nat) :
    ∃ out, readTmf fo fb b' ⟨bytes ++ junk, sched, false⟩ = .ok out ∧
      List.Forall₂ (fun mn mn' =>
        (∀ l, mn.1.normals = some l → ∃ l', mn'.1.normals = some l' ∧ EqualStay l l') ∧
        (∀ l, mn.1.uvs = some l → ∃ l', mn'.1.uvs = some l' ∧ EqualStay l l') ∧
        (∀ l, mn.1.tangents = some l → ∃ l', mn'.1.tangents = some l' ∧ EqualStay l l') ∧
        List.Forall₂ (fun c c' => c'.name = c.name ∧ EqualCustom c.data c'.data)
          mn.1.customData.reverse mn'.1.customData) meshes out := by
  obtain ⟨out, e, hf⟩ := readTmf_low (b' := b') h hl hb junk sched
  refine ⟨out, e, forall₂_imp hf ?_⟩
  rintro mn _ mn' ⟨_, edge, _, hm, _⟩
  rw [hm]
  refine ⟨fun l h => ⟨_, by simp only [loadedMesh, h, Option.map_some]; rfl, equalStay_map _ l⟩,
    fun l h => ⟨_, by simp only [loadedMesh, h, Option.map_some]; rfl, equalStay_map _ l⟩,
    fun l h => ⟨_, by simp only [loadedMesh, h, Option.map_some]; rfl, equalStay_map _ l⟩, ?_⟩
  show List.Forall₂ _ mn.1.customData.reverse (mn.1.customData.reverse.map (CustomSeg.loaded fo))
  refine forall₂_map fun c _ => ⟨rfl, ?_⟩
  obtain ⟨name, d⟩ := c
  constructor
  · intro data p hd
    dsimp only at hd
    subst hd
    exact ⟨_, _, rfl, equalStay_map _ data⟩
  · intro data p hd
    dsimp only at hd
    subst hd
    exact ⟨_, _, rfl, equalStay_map _ data⟩

/-- C105 for vertices: within the pieces that the array is cut into (the full claim is for the whole
array, see `C105_vertices_violated`). -/
theorem C105_vertices_partial (h : tmfBytes fo fb b prec meshes = .ok bytes) (hl : LimitsLow fo fb b prec meshes)
    (hb : bytes.length ≤ 2 ^ 31) (junk : List UInt8) (sched : List Nat) :
    ∃ out, readTmf fo fb b' ⟨bytes ++ junk, sched, false⟩ = .ok out ∧
      List.Forall₂ (fun mn mn' => ∀ l, mn.1.vertices = some l → ∃ l', mn'.1.vertices = some l' ∧ l'.length = l.length ∧
        ∃ qs qs', optVertices fo b l = .ok qs ∧ qs.flatten = l ∧ qs'.flatten = l' ∧ List.Forall₂ EqualStay qs qs')
        meshes out := by
  obtain ⟨out, e, hf⟩ := readTmf_low (b' := b') h hl hb junk sched
  refine ⟨out, e, forall₂_imp hf ?_⟩
  rintro mn _ mn' ⟨_, edge, _, hm, hcut⟩ l hml
  obtain ⟨qs, hq, hqs⟩ := hcut l hml
  have hp : List.Forall₂ EqualStay qs (qs.map (quantVertices fo prec.vertex edge)) :=
    forall₂_map fun q _ => equalStay_vertices fo _ _ q
  rw [hm]
  refine ⟨loadedVertices fo b prec.vertex edge l, by simp only [loadedMesh, hml, Option.map_some], ?_, qs,
    qs.map (quantVertices fo prec.vertex edge), hq, hqs, by rw [loadedVertices, hq]; rfl, hp⟩
  rw [loadedVertices, hq, ← hqs]
  dsimp only
  rw [List.length_flatMap, List.length_flatten]
  exact congrArg List.sum (List.map_congr_left fun q _ => (equalStay_vertices fo _ _ q).length)

end

/-! ### Two equal vertices on both sides of a cut -/

variable {lib : Libm}

/-- `2^16`. -/
def vFar : Val b32 := .fin false (2 ^ 165) (by decide +kernel)

/-- A point on the diagonal. -/
def diag (x : Val b32) : Vec3 (Val b32) := (x, x, x)

/-- The vertices; the third and the fourth are the same point. -/
def seam : List (Vec3 (Val b32)) := [diag vZero, diag vOne, diag vHalf, diag vHalf, diag vFar, diag vFar]

/-- `expand_vertex_span` for f32. -/
def spanStep (span : Span (Val b32)) (p : Vec3 (Val b32)) : Span (Val b32) :=
  ((Ieee.min span.1.1 p.1, Ieee.min span.1.2.1 p.2.1, Ieee.min span.1.2.2 p.2.2),
   (Ieee.max span.2.1 p.1, Ieee.max span.2.2.1 p.2.1, Ieee.max span.2.2.2 p.2.2))

theorem expandSpan_ops : expandSpan (ops lib) = spanStep := rfl

/-- `inside_span` for f32. -/
def spanHas (span : Span (Val b32)) (p : Vec3 (Val b32)) : Bool :=
  Ieee.lt span.1.1 p.1 && Ieee.lt p.1 span.2.1 && Ieee.lt span.1.2.1 p.2.1 && Ieee.lt p.2.1 span.2.2.1
    && Ieee.lt span.1.2.2 p.2.2 && Ieee.lt p.2.2 span.2.2.2

theorem insideSpan_ops : insideSpan (ops lib) = spanHas := rfl

/-- The number of steps of 1/100 in an interval. -/
def hundredths (lo hi : Val b32) : Val b32 := div (lit 1 0) (div (lit 1 2) (sub hi lo))

theorem diag_bits (hlog : AccurateLog2 lib) {b : Build} {lo hi : Val b32} {k : Nat} (hc : clear (hundredths lo hi) = true)
    (hk : exactBits (hundredths lo hi) = k) (h : 3 * k < 256) :
    rangeToVertexBitCount (ops lib) b (diag lo, diag hi) (lit 1 2) = .ok (3 * k) := by
  have e : bitsFor lib (hundredths lo hi) = k := by rw [bits_clear hlog hc, hk]
  show (addU8 b (bitsFor lib (hundredths lo hi)) (bitsFor lib (hundredths lo hi)) >>= fun s =>
    addU8 b s (bitsFor lib (hundredths lo hi))) = _
  have add : ∀ {x y}, x + y < 256 → addU8 b x y = .ok (x + y) := fun h => if_pos h
  rw [e, add (by omega), Outcome.bind_ok, add (by omega)]
  congr 1
  omega

theorem hundredths_zero : clear (hundredths vZero vZero) = true ∧ exactBits (hundredths vZero vZero) = 0 := by decide +kernel
theorem hundredths_one : clear (hundredths vZero vOne) = true ∧ exactBits (hundredths vZero vOne) = 7 := by decide +kernel
theorem hundredths_half : clear (hundredths vZero vHalf) = true ∧ exactBits (hundredths vZero vHalf) = 6 := by decide +kernel
theorem hundredths_far : clear (hundredths vZero vFar) = true ∧ exactBits (hundredths vZero vFar) = 23 := by decide +kernel

theorem seam_span_start : (diag (lit 0 0), diag (lit 0 0)) = (diag vZero, diag vZero) := by decide +kernel
theorem seam_span_zz : spanStep (diag vZero, diag vZero) (diag vZero) = (diag vZero, diag vZero) := by decide +kernel
theorem seam_span_zo : spanStep (diag vZero, diag vZero) (diag vOne) = (diag vZero, diag vOne) := by decide +kernel
theorem seam_span_oh : spanStep (diag vZero, diag vOne) (diag vHalf) = (diag vZero, diag vOne) := by decide +kernel
theorem seam_span_zh : spanStep (diag vZero, diag vZero) (diag vHalf) = (diag vZero, diag vHalf) := by decide +kernel
theorem seam_span_hf : spanStep (diag vZero, diag vHalf) (diag vFar) = (diag vZero, diag vFar) := by decide +kernel
theorem seam_span_of : spanStep (diag vZero, diag vOne) (diag vFar) = (diag vZero, diag vFar) := by decide +kernel
theorem seam_span_ff : spanStep (diag vZero, diag vFar) (diag vFar) = (diag vZero, diag vFar) := by decide +kernel

theorem seam_inside : spanHas (diag vZero, diag vZero) (diag vZero) = false ∧
    spanHas (diag vZero, diag vZero) (diag vOne) = false ∧ spanHas (diag vZero, diag vOne) (diag vHalf) = true ∧
    spanHas (diag vZero, diag vZero) (diag vHalf) = false ∧ spanHas (diag vZero, diag vHalf) (diag vFar) = false ∧
    spanHas (diag vZero, diag vOne) (diag vFar) = false ∧ spanHas (diag vZero, diag vFar) (diag vFar) = false := by decide +kernel

theorem seam_start : zeroSpan (ops lib) = (diag vZero, diag vZero) := seam_span_start

theorem seam_cut (hlog : AccurateLog2 lib) (b : Build) : optVertices (ops lib) b seam =
    .ok [[diag vZero, diag vOne, diag vHalf], [diag vHalf, diag vFar, diag vFar]] := by
  obtain ⟨i1, i2, i3, i4, i5, i6, i7⟩ := seam_inside
  have b0 := diag_bits hlog (b := b) hundredths_zero.1 hundredths_zero.2 (by decide)
  have b1 := diag_bits hlog (b := b) hundredths_one.1 hundredths_one.2 (by decide)
  have bh := diag_bits hlog (b := b) hundredths_half.1 hundredths_half.2 (by decide)
  have bf := diag_bits hlog (b := b) hundredths_far.1 hundredths_far.2 (by decide)
  have t1 : findBestVertexSplit (ops lib) b seam (lit 1 2) = .ok (some 3) := by
    simp only [findBestVertexSplit, seam_start, expandSpan_ops, insideSpan_ops, seam, List.foldl_cons, List.foldl_nil, vertexScan,
      seam_span_zz, seam_span_zo, seam_span_oh, seam_span_of, seam_span_ff, i1, i2, i3, i6, i7, b0, b1, bf, Outcome.bind_ok, if_true, Bool.false_eq_true, if_false, subU8]
    rfl
  have t2 : findBestVertexSplit (ops lib) b [diag vZero, diag vOne, diag vHalf] (lit 1 2) = .ok none := by
    simp only [findBestVertexSplit, seam_start, expandSpan_ops, insideSpan_ops, List.foldl_cons, List.foldl_nil, vertexScan,
      seam_span_zz, seam_span_zo, seam_span_oh, i1, i2, i3, b0, b1, Outcome.bind_ok, if_true, Bool.false_eq_true, if_false, subU8]
    rfl
  have t3 : findBestVertexSplit (ops lib) b [diag vHalf, diag vFar, diag vFar] (lit 1 2) = .ok none := by
    simp only [findBestVertexSplit, seam_start, expandSpan_ops, insideSpan_ops, List.foldl_cons, List.foldl_nil, vertexScan,
      seam_span_zh, seam_span_hf, seam_span_ff, i4, i5, i7, bh, bf, Outcome.bind_ok, Bool.false_eq_true, if_false]
    rfl
  have t1' : findBestVertexSplit (ops lib) b seam ((ops lib).lit 1 2) = .ok (some 3) := t1
  have t2' : findBestVertexSplit (ops lib) b [diag vZero, diag vOne, diag vHalf] ((ops lib).lit 1 2) = .ok none := t2
  have t3' : findBestVertexSplit (ops lib) b [diag vHalf, diag vFar, diag vFar] ((ops lib).lit 1 2) = .ok none := t3
  have d1 : seam.take 3 = [diag vZero, diag vOne, diag vHalf] := rfl
  have d2 : seam.drop 3 = [diag vHalf, diag vFar, diag vFar] := rfl
  show optVerticesFuel (ops lib) b 7 seam = _
  rw [optVerticesFuel, t1', Outcome.bind_ok]
  dsimp only
  rw [d1, d2, optVerticesFuel, t2', Outcome.bind_ok]
  dsimp only
  rw [Outcome.bind_ok, optVerticesFuel, t3', Outcome.bind_ok]
  rfl

theorem seam_box : boxOf (diag vZero) [diag vOne, diag vHalf] = ⟨vZero, vOne, vZero, vOne, vZero, vOne⟩ ∧
    boxOf (diag vHalf) [diag vFar, diag vFar] = ⟨vHalf, vFar, vHalf, vFar, vHalf, vFar⟩ := by decide +kernel

theorem seam_bits_near (hlog : AccurateLog2 lib) :
    vertexBits lib ⟨vZero, vOne, vZero, vOne, vZero, vOne⟩ (lit 1 1) (lit 1 1) = (7, 7, 7) := by
  rw [vertexBits, bits_clear hlog] <;> decide +kernel

theorem seam_bits_far (hlog : AccurateLog2 lib) :
    vertexBits lib ⟨vHalf, vFar, vHalf, vFar, vHalf, vFar⟩ (lit 1 1) (lit 1 1) = (23, 23, 23) := by
  rw [vertexBits, bits_clear hlog] <;> decide +kernel

theorem seam_coords : lt (coordQ 7 vZero vOne vHalf) vHalf = true ∧ isFinite (coordQ 7 vZero vOne vHalf) = true ∧
    coordQ 23 vHalf vFar vHalf = vHalf := by decide +kernel

/-- The mesh of these vertices. -/
def seamMesh : Mesh (Val b32) := { Mesh.empty with vertices := some seam }

theorem valueOf_vFar : valueOf vFar = 2 ^ 16 := by
  rw [vFar, valueOf_pos, show b32.scale = 149 from rfl]; norm_num

theorem seam_within : ∀ v ∈ seam, VecWithin (2 ^ 16) v := by
  have d : ∀ x, isFinite x = true → |valueOf x| ≤ 2 ^ 16 → VecWithin (2 ^ 16) (diag x) :=
    fun x hf hx => ⟨⟨hf, hf, hf⟩, hx, hx, hx⟩
  intro v hv
  simp only [seam, List.mem_cons, List.not_mem_nil, or_false] at hv
  rcases hv with rfl | rfl | rfl | rfl | rfl | rfl
  · exact d _ rfl (by rw [valueOf_vZero]; norm_num)
  · exact d _ rfl (by rw [valueOf_vOne]; norm_num)
  · exact d _ rfl (by rw [valueOf_vHalf']; norm_num)
  · exact d _ rfl (by rw [valueOf_vHalf']; norm_num)
  · exact d _ rfl (by rw [valueOf_vFar]; norm_num)
  · exact d _ rfl (by rw [valueOf_vFar]; norm_num)

theorem seam_saveable : Saveable 30 creepPrec [(seamMesh, [65])] where
  finite := tenth_exact.1
  vertex := show valueOf (lit 1 1 : Val b32) ≤ _ by rw [tenth_exact.2]; norm_num
  normal := show 7 ≤ 30 by decide
  uv := show 14 ≤ 30 by decide
  tangent := show 7 ≤ 30 by decide
  names := by
    intro mn h
    rcases List.mem_singleton.mp h with rfl
    exact ⟨show 1 < 2 ^ 16 by decide, ⟨['A'], rfl⟩⟩
  mesh := by
    intro mn h
    rcases List.mem_singleton.mp h with rfl
    refine ⟨?_, ?_, ?_, ?_, ?_, ?_, ?_⟩
    · intro l hl
      cases hl
      refine ⟨2 ^ 16, 1 / 10, by simp [seam], by norm_num, seam_within, by norm_num, le_refl _, ?_, ?_, ?_, ?_⟩
      · intro t ht; cases ht
      · intro t ht; cases ht
      · intro t ht; cases ht
      · rw [show creepPrec.vertex = lit 1 1 from rfl, tenth_exact.2]; norm_num
    · intro l hl; cases hl
    · intro l hl; cases hl
    · intro l hl; cases hl
    · intro l hl; cases hl
    · intro c hc; cases hc
    · show segmentBound seamMesh < 2 ^ 16
      decide
  size := by decide

theorem C105_witness (hlog : AccurateLog2 lib) (hmono : MonotoneLog2 lib) (fb : F64Bytes (ops lib)) :
    ∃ (m m' : Mesh (Val b32)) (bytes : List UInt8) (l l' : List (Vec3 (Val b32))) (v u w : Vec3 (Val b32)),
      Saveable 30 (PrecisionInfo.default (ops lib)) [(m, [65])] ∧
      (∀ b, tmfBytes (ops lib) fb b (PrecisionInfo.default (ops lib)) [(m, [65])] = .ok bytes) ∧
      (∀ b' junk sched, readTmf (ops lib) fb b' ⟨bytes ++ junk, sched, false⟩ = .ok [(m', [65])]) ∧
      m.vertices = some l ∧ m'.vertices = some l' ∧ l[2]? = some v ∧ l[3]? = some v ∧ l'[2]? = some u ∧ l'[3]? = some w ∧
      valueOf u.1 < valueOf w.1 ∧
      |valueOf v.1| < 1 := by
  rw [C91_bits hlog]
  obtain ⟨bytes, out, hb, -, hr, hf⟩ := saveable_loaded (fb := fb) hlog hmono (by decide) (le_refl 30) seam_saveable
  obtain ⟨⟨m', name⟩, rfl, hn, edge, he, hm, -⟩ := forall₂_one hf
  dsimp only at hn hm
  subst hn
  have he' : calcShortestEdge (ops lib) none (some seam) = .ok edge := he
  have he'' : calcShortestEdge (ops lib) none (some seam) = .ok (lit 1 1 : Val b32) := rfl
  rw [he''] at he'
  cases he'
  have hv : m'.vertices = some (quantVertices (ops lib) (lit 1 1) (lit 1 1) [diag vZero, diag vOne, diag vHalf] ++
      quantVertices (ops lib) (lit 1 1) (lit 1 1) [diag vHalf, diag vFar, diag vFar]) := by
    rw [hm]
    show some (loadedVertices (ops lib) .checked (lit 1 1) (lit 1 1) seam) = _
    rw [loadedVertices, seam_cut hlog]
    dsimp only
    rw [List.flatMap_cons, List.flatMap_cons, List.flatMap_nil, List.append_nil]
  have q1 : quantVertices (ops lib) (lit 1 1) (lit 1 1) [diag vZero, diag vOne, diag vHalf] =
      [diag vZero, diag vOne, diag vHalf].map fun v => (coordQ 7 vZero vOne v.1, coordQ 7 vZero vOne v.2.1, coordQ 7 vZero vOne v.2.2) := by
    rw [quantVertices, vertexBox_ops, seam_box.1]
    dsimp only
    rw [precs_ops lib, seam_bits_near hlog]
    exact List.map_congr_left fun v _ => quantVertex_ops lib _ _ v
  have q2 : quantVertices (ops lib) (lit 1 1) (lit 1 1) [diag vHalf, diag vFar, diag vFar] =
      [diag vHalf, diag vFar, diag vFar].map fun v => (coordQ 23 vHalf vFar v.1, coordQ 23 vHalf vFar v.2.1, coordQ 23 vHalf vFar v.2.2) := by
    rw [quantVertices, vertexBox_ops, seam_box.2]
    dsimp only
    rw [precs_ops lib, seam_bits_far hlog]
    exact List.map_congr_left fun v _ => quantVertex_ops lib _ _ v
  rw [q1, q2, List.map_cons, List.map_cons, List.map_cons, List.map_nil, List.map_cons] at hv
  refine ⟨seamMesh, m', bytes, seam, _, diag vHalf, (coordQ 7 vZero vOne vHalf, coordQ 7 vZero vOne vHalf, coordQ 7 vZero vOne vHalf),
    (coordQ 23 vHalf vFar vHalf, coordQ 23 vHalf vFar vHalf, coordQ 23 vHalf vFar vHalf), seam_saveable, hb, hr, rfl, hv, rfl, rfl, ?_, ?_, ?_, ?_⟩
  · simp only [List.cons_append, List.getElem?_cons_succ, List.getElem?_cons_zero, diag]
  · simp only [List.cons_append, List.nil_append, List.getElem?_cons_succ, List.getElem?_cons_zero, diag]
  · dsimp only
    rw [seam_coords.2.2]
    exact (lt_value seam_coords.2.1 (show isFinite vHalf = true from rfl)).mp seam_coords.1
  · show |valueOf vHalf| < 1
    rw [valueOf_vHalf', abs_of_nonneg (by norm_num)]
    norm_num

/-- C105 is false for vertices: with the default settings, the third and the fourth vertex of this mesh,
which are the same point, come back as different points in every build. -/
theorem C105_vertices_violated (hlog : AccurateLog2 lib) (hmono : MonotoneLog2 lib) (fb : F64Bytes (ops lib)) :
    ∃ (m m' : Mesh (Val b32)) (bytes : List UInt8) (l l' : List (Vec3 (Val b32))) (v u w : Vec3 (Val b32)),
      Saveable 30 (PrecisionInfo.default (ops lib)) [(m, [65])] ∧
      (∀ b, tmfBytes (ops lib) fb b (PrecisionInfo.default (ops lib)) [(m, [65])] = .ok bytes) ∧
      (∀ b' junk sched, readTmf (ops lib) fb b' ⟨bytes ++ junk, sched, false⟩ = .ok [(m', [65])]) ∧
      m.vertices = some l ∧ m'.vertices = some l' ∧ l[2]? = some v ∧ l[3]? = some v ∧ l'[2]? = some u ∧ l'[3]? = some w ∧
      valueOf u.1 < valueOf w.1 := by
  obtain ⟨m, m', bytes, l, l', v, u, w, hs, hb, hr, hm, hm', h2, h3, h2', h3', hlt, -⟩ := C105_witness hlog hmono fb
  exact ⟨m, m', bytes, l, l', v, u, w, hs, hb, hr, hm, hm', h2, h3, h2', h3', hlt⟩

/-- C104 is false for vertices of different pieces: of two equal coordinates, one comes back smaller. -/
theorem C104_pieces_violated (hlog : AccurateLog2 lib) (hmono : MonotoneLog2 lib) (fb : F64Bytes (ops lib)) :
    ∃ (m m' : Mesh (Val b32)) (bytes : List UInt8) (l l' : List (Vec3 (Val b32))),
      Saveable 30 (PrecisionInfo.default (ops lib)) [(m, [65])] ∧
      (∀ b, tmfBytes (ops lib) fb b (PrecisionInfo.default (ops lib)) [(m, [65])] = .ok bytes) ∧
      (∀ b' junk sched, readTmf (ops lib) fb b' ⟨bytes ++ junk, sched, false⟩ = .ok [(m', [65])]) ∧
      m.vertices = some l ∧ m'.vertices = some l' ∧ ¬ KeepsOrder (fun v => v.1) (fun v => |valueOf v.1| < 1) l l' := by
  obtain ⟨m, m', bytes, l, l', v, u, w, hs, hb, hr, hm, hm', h2, h3, h2', h3', hlt, hv⟩ := C105_witness hlog hmono fb
  exact ⟨m, m', bytes, l, l', hs, hb, hr, hm, hm', fun h =>
    absurd (h.order 3 2 v w v u h3 h3' h2 h2' hv hv (le_refl _)) (not_le.mpr hlt)⟩

/-! ### Examples -/

/-- Three uv coordinates, two of them equal. -/
def twinMesh : Mesh (Val b32) := { Mesh.empty with uvs := some [(nine64, vOne), (vZero, vZero), (nine64, vOne)] }

theorem twin_saveable : Saveable 30 creepPrec [(twinMesh, [65])] where
  finite := tenth_exact.1
  vertex := show valueOf (lit 1 1 : Val b32) ≤ _ by rw [tenth_exact.2]; norm_num
  normal := show 7 ≤ 30 by decide
  uv := show 14 ≤ 30 by decide
  tangent := show 7 ≤ 30 by decide
  names := by
    intro mn h
    rcases List.mem_singleton.mp h with rfl
    exact ⟨show 1 < 2 ^ 16 by decide, ⟨['A'], rfl⟩⟩
  mesh := by
    intro mn h
    rcases List.mem_singleton.mp h with rfl
    refine ⟨?_, ?_, ?_, ?_, ?_, ?_, ?_⟩
    · intro l hl; cases hl
    · intro l hl; cases hl
    · intro l hl; cases hl
    · intro l hl; cases hl
    · intro l hl; cases hl
    · intro c hc; cases hc
    · show segmentBound twinMesh < 2 ^ 16
      decide
  size := by decide

/-- The first and the last of these uv coordinates come back equal. -/
example (fb : F64Bytes (ops someLibm)) : ∃ bytes mn l' x y z,
    tmfBytes (ops someLibm) fb .checked creepPrec [(twinMesh, [65])] = .ok bytes ∧
    readTmf (ops someLibm) fb .wrapping ⟨bytes ++ [], [], false⟩ = .ok [mn] ∧
    mn.1.uvs = some l' ∧ l' = [x, y, z] ∧ x = z := by
  obtain ⟨bytes, h⟩ := saveable_saved (fb := fb) someLibm_log2 someLibm_monotone (by decide) (le_refl 30) twin_saveable
  obtain ⟨out, e, hf⟩ := C105_arrays (b' := .wrapping) (h .checked) (saveable_limits twin_saveable) (saveable_size twin_saveable (h .checked)) [] []
  obtain ⟨mn, rfl, -, hu, -⟩ := forall₂_one hf
  obtain ⟨l', hl', he⟩ := hu [(nine64, vOne), (vZero, vZero), (nine64, vOne)] rfl
  obtain ⟨x, y, z, rfl⟩ : ∃ x y z, l' = [x, y, z] := by
    have := he.length
    match l', this with
    | [x, y, z], _ => exact ⟨x, y, z, rfl⟩
  exact ⟨bytes, mn, _, x, y, z, h .checked, e, hl', rfl, he.equal 0 2 _ _ _ rfl rfl rfl rfl⟩

/-- The mesh of `C105_vertices_violated` meets the hypotheses of `C105_vertices_partial`. -/
example (fb : F64Bytes (ops someLibm)) : ∃ bytes, tmfBytes (ops someLibm) fb .checked creepPrec [(seamMesh, [65])] = .ok bytes ∧
    LimitsLow (ops someLibm) fb .checked creepPrec [(seamMesh, [65])] ∧ bytes.length ≤ 2 ^ 31 := by
  obtain ⟨bytes, h⟩ := saveable_saved (fb := fb) someLibm_log2 someLibm_monotone (by decide) (le_refl 30) seam_saveable
  exact ⟨bytes, h .checked, saveable_limits seam_saveable, saveable_size seam_saveable (h .checked)⟩

end Tmf.Props
