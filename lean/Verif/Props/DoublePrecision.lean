import Verif.Lemmas.DoubleOps
import Verif.Lemmas.SavedWidths
import Verif.Lemmas.SegmentCount
import Verif.Props.FileSize
import Verif.Props.SaveOk
import Verif.Spec.DoublePrecision
/-
C67: saving and loading with the feature `double_precision`.
-/

set_option exponentiation.threshold 2000

namespace Tmf.Props
open Spec Ieee

variable {lib : Libm64} {fb : F64Bytes (ops64 lib)} {b b' : Build} {prec : PrecisionInfo (Val b64)}
  {meshes : List (Mesh (Val b64) × List UInt8)} {bytes : List UInt8}

/-- C67, uv coordinates: every coordinate from 0 to 1 comes back at most one step below, with every width the
program can write. -/
theorem C67_uvs (h : tmfBytes (ops64 lib) fb b prec meshes = .ok bytes) (hl : LimitsLow (ops64 lib) fb b prec meshes)
    (hb : bytes.length ≤ 2 ^ 31) (hp1 : 1 ≤ prec.uv) (junk : List UInt8) (sched : List Nat) :
    ∃ out, readTmf (ops64 lib) fb b' ⟨bytes ++ junk, sched, false⟩ = .ok out ∧
      List.Forall₂ (fun mn mn' => mn'.2 = mn.2 ∧ ∀ l, mn.1.uvs = some l → prec.uv ≤ 30 ∧ ∃ l', mn'.1.uvs = some l' ∧
        l'.length = l.length ∧ ((∀ uv ∈ l, UnitValue uv.1 ∧ UnitValue uv.2) →
          List.Forall₂ (fun uv uv' => StepBelow prec.uv uv.1 uv'.1 ∧ StepBelow prec.uv uv.2 uv'.2) l l')) meshes out := by
  obtain ⟨out, e, hf⟩ := readTmf_low (b' := b') h hl hb junk sched
  refine ⟨out, e, forall₂_imp hf ?_⟩
  rintro mn hmn mn' ⟨hname, edge, he, hm, hcut⟩
  refine ⟨hname, fun l hml => ?_⟩
  have hp := (saved_narrow h hl mn hmn).uvs l hml
  refine ⟨hp, l.map (quantUv (ops64 lib) prec.uv), by rw [hm]; simp only [loadedMesh, hml, Option.map_some], by rw [List.length_map],
    fun hu => forall₂_map fun uv huv => ?_⟩
  exact Double.quantUv_step lib hp1 hp (hu uv huv).1 (hu uv huv).2

/-! ### Custom data -/

theorem extent_range64 {data : List (Val b64)} {lo hi : ℚ} (he : Extent data lo hi) (hlo : |lo| ≤ 2 ^ 120) (hhi : |hi| ≤ 2 ^ 120) :
    (Double.rangeOf data).1 ∈ data ∧ (Double.rangeOf data).2 ∈ data ∧ valueOf (Double.rangeOf data).1 = lo ∧
      valueOf (Double.rangeOf data).2 = hi := by
  obtain ⟨x0, hx0, e0⟩ := he.lo_mem
  obtain ⟨x1, hx1, e1⟩ := he.hi_mem
  have hbig : (2 : ℚ) ^ 120 < maxV b64 := lt_of_lt_of_le (by norm_num) maxV64
  have hsmall : ∀ x ∈ data, isFinite x = true ∧ |valueOf x| < maxV b64 := by
    intro x hx
    obtain ⟨a, c⟩ := he.bounds x hx
    rw [abs_le] at hlo hhi
    exact ⟨he.finite x hx, lt_of_le_of_lt (abs_le.mpr ⟨by linarith, by linarith⟩) hbig⟩
  obtain ⟨m1, m2, hb⟩ := Double.rangeOf_value (List.ne_nil_of_mem hx0) hsmall
  have v1 : valueOf (Double.rangeOf data).1 = lo := le_antisymm (by rw [← e0]; exact (hb x0 hx0).1) (he.bounds _ m1).1
  have v2 : valueOf (Double.rangeOf data).2 = hi := le_antisymm (he.bounds _ m2).2 (by rw [← e1]; exact (hb x1 hx1).2)
  exact ⟨m1, m2, v1, v2⟩

theorem custom_kept64 {d : CustomData (Val b64)} (hd : LowCustom (ops64 lib) d) :
    KeptCustom64 (floatPrec (ops64 lib)) (colorPrec (ops64 lib)) d (d.loaded (ops64 lib)) := by
  cases d with
  | index l m => exact .index l m _
  | integer l m => exact .integer l m _
  | float data p =>
    have hp : floatPrec (ops64 lib) data p ≤ 30 := hd
    have hp1 : 1 ≤ floatPrec (ops64 lib) data p := le_max_right _ _
    refine .float data _ p _ (by rw [List.length_map]) ⟨hp1, hp⟩ fun lo hi he hlt hlo hhi => ?_
    obtain ⟨m1, m2, v1, v2⟩ := extent_range64 he hlo hhi
    rw [Double.floatRange_ops lib]
    refine forall₂_map fun x hx => ?_
    have hbx := he.bounds x hx
    have := Double.quantFloat_near lib (r := Double.rangeOf data) (M := Max.max |lo| |hi|) hp1 (le_trans hp (by decide)) (he.finite x hx)
      (he.finite _ m1) (he.finite _ m2) (by rw [v1]; exact hbx.1) (by rw [v2]; exact hbx.2) (by rw [v1, v2]; exact hlt)
      (by rw [v1]; exact le_max_left _ _) (by rw [v2]; exact le_max_right _ _) (max_le hlo hhi)
    rwa [v1, v2] at this
  | color data p =>
    have hp : colorPrec (ops64 lib) p ≤ 30 := hd
    refine .color data _ p _ (by rw [List.length_map]) hp fun hp1 hu => forall₂_map fun c hc => ?_
    obtain ⟨h1, h2, h3, h4⟩ := hu c hc
    exact ⟨Double.quantChannel_step lib hp1 hp h1, Double.quantChannel_step lib hp1 hp h2, Double.quantChannel_step lib hp1 hp h3,
      Double.quantChannel_step lib hp1 hp h4⟩

/-- C67, custom data: every piece comes back, in reversed order and under its name. -/
theorem C67_custom (h : tmfBytes (ops64 lib) fb b prec meshes = .ok bytes) (hl : LimitsLow (ops64 lib) fb b prec meshes)
    (hb : bytes.length ≤ 2 ^ 31) (junk : List UInt8) (sched : List Nat) :
    ∃ out, readTmf (ops64 lib) fb b' ⟨bytes ++ junk, sched, false⟩ = .ok out ∧
      List.Forall₂ (fun mn mn' => List.Forall₂ (fun c c' => c'.name = c.name ∧
        KeptCustom64 (floatPrec (ops64 lib)) (colorPrec (ops64 lib)) c.data c'.data)
        mn.1.customData.reverse mn'.1.customData) meshes out := by
  obtain ⟨out, e, hf⟩ := readTmf_low (b' := b') h hl hb junk sched
  refine ⟨out, e, forall₂_imp hf ?_⟩
  rintro mn hmn mn' ⟨_, edge, he, hm, hcut⟩
  rw [hm]
  show List.Forall₂ _ mn.1.customData.reverse (mn.1.customData.reverse.map (CustomSeg.loaded (ops64 lib)))
  exact forall₂_map fun c hc => ⟨rfl, custom_kept64 ((saved_narrow h hl mn hmn).custom c (List.mem_reverse.mp hc))⟩

/-! ### Vertices -/

/-- One piece of a vertex array and what it comes back as: all its vertices but the last near their originals, and
the last one if it is inside the box `s` of the piece. -/
structure PieceKept64 (lib : Libm64) (pr e : Val b64) (M : ℚ) (p p' : List (Vec3 (Val b64))) : Prop where
  length : p'.length = p.length
  box : p ≠ [] → ∃ s, vertexBox (ops64 lib) p = .ok s ∧ (∀ v ∈ p.dropLast, Double.Inside s v) ∧
    (s.precs (ops64 lib) pr e).1 ≤ 30 ∧ (s.precs (ops64 lib) pr e).2.1 ≤ 30 ∧ (s.precs (ops64 lib) pr e).2.2 ≤ 30 ∧
    List.Forall₂ (fun v v' => Double.Inside s v → NearVertex64 p (s.precs (ops64 lib) pr e) M v v') p p'

theorem axisStep64_mono {p : Nat} {lo hi lo' hi' M : ℚ} (h1 : lo' ≤ lo) (h2 : hi ≤ hi') :
    axisStep64 p lo hi M ≤ axisStep64 p lo' hi' M := by
  have hm : (0 : ℚ) ≤ 2 ^ p - 1 := by
    have : (1 : ℚ) ≤ 2 ^ p := one_le_pow₀ (by norm_num)
    linarith
  have : (hi - lo) / (2 ^ p - 1) ≤ (hi' - lo') / (2 ^ p - 1) := div_le_div_of_nonneg_right (by linarith) hm
  rw [axisStep64, axisStep64]
  have := max_le_max this (le_refl (1 / 999999 : ℚ))
  linarith

theorem vertices_near64 {l : List (Vec3 (Val b64))} {p : Nat × Nat × Nat} {M : ℚ} {s : VBox (Val b64)}
    (hs : vertexBox (ops64 lib) l = .ok s) (hfin : ∀ v ∈ l, Double.FiniteVec v)
    (hM : ∀ v ∈ l, |valueOf v.1| ≤ M ∧ |valueOf v.2.1| ≤ M ∧ |valueOf v.2.2| ≤ M) (hM2 : M ≤ 2 ^ 120)
    (p1 : 1 ≤ p.1) (p2 : 1 ≤ p.2.1) (p3 : 1 ≤ p.2.2) (hx : p.1 ≤ 53) (hy : p.2.1 ≤ 53) (hz : p.2.2 ≤ 53) :
    ∀ v ∈ l, Double.Inside s v → NearVertex64 l p M v (quantVertex (ops64 lib) s p v) := by
  obtain ⟨bf, hin, hall, b1, b2, b3, b4⟩ := Double.vertexBox_spec lib hs hfin
  have m1 : ∀ v ∈ l, -M ≤ valueOf v.1 ∧ valueOf v.1 ≤ M := fun v hv => abs_le.mp (hM v hv).1
  have m2 : ∀ v ∈ l, -M ≤ valueOf v.2.1 ∧ valueOf v.2.1 ≤ M := fun v hv => abs_le.mp (hM v hv).2.1
  have m3 : ∀ v ∈ l, -M ≤ valueOf v.2.2 ∧ valueOf v.2.2 ≤ M := fun v hv => abs_le.mp (hM v hv).2.2
  intro v hv hi
  obtain ⟨fx, fy, fz⟩ := hfin v hv
  have bx1 := b1 (-M) (fun w hw => (m1 w hw).1)
  have bx2 := b2 M (fun w hw => ⟨(m1 w hw).2, (m2 w hw).2⟩)
  have by1 := b3 (-M) (fun w hw => ⟨(m2 w hw).1, (m3 w hw).1⟩)
  have bz2 := b4 M (fun w hw => (m3 w hw).2)
  have ax : ∀ {mn mx x : ℚ}, mn ≤ x → x ≤ mx → -M ≤ mn → mx ≤ M → |mn| ≤ M ∧ |mx| ≤ M := by
    intro mn mx x h1 h2 h3 h4
    exact ⟨abs_le.mpr ⟨h3, by linarith⟩, abs_le.mpr ⟨by linarith, h4⟩⟩
  rw [Double.quantVertex_ops lib]
  have cx := Double.coordQ_near p1 hx fx bf.minX bf.maxX hi.minX hi.maxX (ax hi.minX hi.maxX bx1 bx2.1).1
    (ax hi.minX hi.maxX bx1 bx2.1).2 hM2
  have cy := Double.coordQ_near p2 hy fy bf.minY bf.maxY hi.minY hi.maxY (ax hi.minY hi.maxY by1.1 bx2.2).1
    (ax hi.minY hi.maxY by1.1 bx2.2).2 hM2
  have cz := Double.coordQ_near p3 hz fz bf.minZ bf.maxZ hi.minZ hi.maxZ (ax hi.minZ hi.maxZ by1.2 bz2).1
    (ax hi.minZ hi.maxZ by1.2 bz2).2 hM2
  refine ⟨fun lo hi' hw => ⟨cx.1, le_trans cx.2 ?_⟩, fun lo hi' hw => ⟨cy.1, le_trans cy.2 ?_⟩,
    fun lo hi' hw => ⟨cz.1, le_trans cz.2 ?_⟩⟩
  · exact axisStep64_mono (b1 lo (fun w h => (hw w h).1)) (b2 hi' (fun w h => (hw w h).2)).1
  · exact axisStep64_mono (b3 lo (fun w h => ⟨(hw w h).1, (hw w h).2.1⟩)).1 (b2 hi' (fun w h => (hw w h).2.2)).2
  · exact axisStep64_mono (b3 lo (fun w h => ⟨(hw w h).1, (hw w h).2.1⟩)).2 (b4 hi' (fun w h => (hw w h).2.2))

theorem quantVertices_len64 (pr e : Val b64) (p : List (Vec3 (Val b64))) :
    (quantVertices (ops64 lib) pr e p).length = p.length := by
  cases p with
  | nil => rfl
  | cons v p => rw [quantVertices, vertexBox]; exact List.length_map ..

/-- C67, vertices. They are cut into consecutive pieces (as `optVertices` does); every piece comes back with the
same length, every vertex but the last of the piece near its original, and the last one too if it is inside the
bounding box of the piece. -/
theorem C67_vertices (h : tmfBytes (ops64 lib) fb b prec meshes = .ok bytes) (hl : LimitsLow (ops64 lib) fb b prec meshes)
    (hb : bytes.length ≤ 2 ^ 31) (junk : List UInt8) (sched : List Nat) :
    ∃ out, readTmf (ops64 lib) fb b' ⟨bytes ++ junk, sched, false⟩ = .ok out ∧
      List.Forall₂ (fun mn mn' => ∀ l M, mn.1.vertices = some l → (∀ v ∈ l, Double.FiniteVec v) →
        (∀ v ∈ l, |valueOf v.1| ≤ M ∧ |valueOf v.2.1| ≤ M ∧ |valueOf v.2.2| ≤ M) → M ≤ 2 ^ 120 →
        ∃ e pieces pieces', calcShortestEdge (ops64 lib) mn.1.vertexTriangles mn.1.vertices = .ok e ∧
          optVertices (ops64 lib) b l = .ok pieces ∧ pieces.flatten = l ∧ mn'.1.vertices = some pieces'.flatten ∧
          List.Forall₂ (PieceKept64 lib prec.vertex e M) pieces pieces') meshes out := by
  obtain ⟨out, e, hf⟩ := readTmf_low (b' := b') h hl hb junk sched
  refine ⟨out, e, forall₂_imp hf ?_⟩
  rintro mn hmn mn' ⟨_, edge, he, hm, hcut⟩ l M hml hfin hM hM2
  obtain ⟨qs, hq, hc⟩ := hcut l hml
  refine ⟨edge, qs, qs.map (quantVertices (ops64 lib) prec.vertex edge), he, hq, hc, ?_, forall₂_map fun p hp => ?_⟩
  · rw [hm]
    simp only [loadedMesh, hml, Option.map_some, loadedVertices, hq, List.flatMap_def]
  · have hsub := List.sublist_flatten_of_mem hp
    rw [hc] at hsub
    have hfin' := fun v hv => hfin v (hsub.subset hv)
    refine ⟨quantVertices_len64 _ _ _, fun hne => ?_⟩
    obtain ⟨s, hs⟩ : ∃ s, vertexBox (ops64 lib) p = .ok s := by
      cases p with
      | nil => exact absurd rfl hne
      | cons v p => exact ⟨_, rfl⟩
    obtain ⟨w1, w2, w3⟩ := (saved_narrow h hl mn hmn).vertices l edge qs p s hml he hq hp hs
    refine ⟨s, hs, (Double.vertexBox_spec lib hs hfin').2.1, w1, w2, w3, ?_⟩
    rw [quantVertices, hs]
    exact forall₂_map fun v hv => vertices_near64 hs hfin' (fun v hv => hM v (hsub.subset hv)) hM2 (le_max_right _ _)
      (le_max_right _ _) (le_max_right _ _) (le_trans w1 (by decide)) (le_trans w2 (by decide)) (le_trans w3 (by decide)) v hv

/-! ### An example -/

section Example

/-- A libm that makes every width 30 bits. -/
def thirty : Libm64 := ⟨id, id, id, fun _ => ofNat 30⟩

theorem thirty_ceil : ceilU8 (ofNat 30 : Val b64) = 30 := by decide +kernel

seal ceilU8 ofNat in
theorem thirty_bits (x : Val b64) : (ops64 thirty).log2CeilU8 x = 30 := thirty_ceil

def wZero : Val b64 := .fin false 0 (by decide +kernel)
def wOne : Val b64 := .fin false (2 ^ 1074) (by decide +kernel)
def wFive : Val b64 := .fin false (5 * 2 ^ 1074) (by decide +kernel)
def wQuarter : Val b64 := .fin false (2 ^ 1072) (by decide +kernel)

theorem valueOf_wZero : valueOf wZero = 0 := by
  rw [wZero, valueOf_fin]; simp
theorem valueOf_wOne : valueOf wOne = 1 := by
  rw [wOne, valueOf_fin, show b64.scale = 1074 from rfl]; norm_num [sgn]
theorem valueOf_wFive : valueOf wFive = 5 := by
  rw [wFive, valueOf_fin, show b64.scale = 1074 from rfl]; norm_num [sgn]
theorem valueOf_wQuarter : valueOf wQuarter = 1 / 4 := by
  rw [wQuarter, valueOf_fin, show b64.scale = 1074 from rfl]; norm_num [sgn]

def corners : List (Vec3 (Val b64)) := [(wFive, wZero, wZero), (wZero, wOne, wZero), (wZero, wZero, wZero)]

/-- Three points, a uv and custom data. -/
def tile : Mesh (Val b64) :=
  { (Mesh.empty : Mesh (Val b64)) with
    vertices := some corners, uvs := some [(wOne, wQuarter)], uvTriangles := some [0, 0, 0]
    customData := [⟨[102], .float [wOne, wQuarter, wFive] wQuarter⟩, ⟨[99], .color [(wOne, wOne, wQuarter, wZero)] wQuarter⟩] }

def tilePrec : PrecisionInfo (Val b64) := ⟨wQuarter, 7, 30, 7⟩

theorem tile_fits : MeshFits tilePrec tile := by
  refine ⟨?_, ?_, ?_, ?_, ?_, ?_, ?_, ?_, ?_, ?_, ?_⟩ <;> try simp [LengthFits, IndicesFit, tile, Mesh.empty, corners]
  exact ⟨.float _ _ _ (by simp) (by simp), .color _ _ _ (by simp) (by simp)⟩

theorem tile_float (l : List (Val b64)) (p : Val b64) : floatPrec (ops64 thirty) l p = 30 := by
  rw [floatPrec, thirty_bits]; rfl

theorem tile_color (p : Val b64) : colorPrec (ops64 thirty) p = 30 := by
  rw [colorPrec, thirty_bits]

theorem tile_precs (s : VBox (Val b64)) (pr e : Val b64) : s.precs (ops64 thirty) pr e = (30, 30, 30) := by
  rw [VBox.precs, thirty_bits, thirty_bits]; simp

theorem tile_limits (fb : F64Bytes (ops64 thirty)) : LimitsLow (ops64 thirty) fb .wrapping tilePrec [(tile, [65])] where
  count := show 1 < 2 ^ 32 by decide
  names := by
    intro mn h
    rcases List.mem_singleton.mp h with rfl
    exact ⟨show 1 < 2 ^ 16 by decide, ⟨['A'], rfl⟩⟩
  fits := by
    intro mn h
    rcases List.mem_singleton.mp h with rfl
    exact tile_fits
  segments := by
    intro mn h segs hs
    rcases List.mem_singleton.mp h with rfl
    refine lt_of_le_of_lt (encodeMesh_count (Double.orderLaws64 thirty) tile_fits hs) ?_
    norm_num [segmentBound, mostPieces, indexPieces, onePiece, tile, Mesh.empty, corners]
  low := .inr (by
    intro mn h
    rcases List.mem_singleton.mp h with rfl
    refine ⟨fun h => (by cases h), fun _ => show 30 ≤ 30 by decide, fun h => (by cases h), ?_, ?_⟩
    · intro c hc
      simp only [tile, List.mem_cons, List.not_mem_nil, or_false] at hc
      rcases hc with rfl | rfl
      · exact (tile_float _ _).le
      · exact (tile_color _).le
    · intro l edge pieces piece s _ _ _ _ _
      rw [tile_precs]
      decide)

theorem tenth_finite : isFinite (lit 1 1 : Val b64) = true := by decide +kernel

seal lit isFinite in
theorem tile_edge : EdgeFinite (ops64 thirty) tile := ⟨tenth_finite, fun vs t _ ht => by cases ht⟩

theorem tile_verify : tile.verify (ops64 thirty) = .ok () := by
  have hu : uvLoop (ops64 thirty) [(wOne, wQuarter)] = none := by decide +kernel
  have h1 : verifyVertices tile = none := by rfl
  have h2 : verifyNormals (ops64 thirty) tile = none := rfl
  have h3 : verifyUvs (ops64 thirty) tile = none := by
    rw [verifyUvs]
    dsimp only [tile]
    rw [hu]
    rfl
  rw [Mesh.verify, h1, h2, h3]
  rfl

theorem tile_saved (fb : F64Bytes (ops64 thirty)) :
    ∃ bytes, tmfBytes (ops64 thirty) fb .wrapping tilePrec [(tile, [65])] = .ok bytes ∧ bytes.length ≤ 2 ^ 31 := by
  have : ∃ bytes, tmfBytes (ops64 thirty) fb .wrapping tilePrec [(tile, [65])] = .ok bytes := by
    refine C29_saved_partial (Double.orderLaws64 thirty) .wrapping _ _ ?_ ?_ ?_ ?_ ?_
    · intro mn hm
      cases List.mem_singleton.mp hm
      refine ⟨tile_verify, ⟨?_, ?_, ?_⟩, ?_, ?_, ?_, ?_, ?_⟩
      · intro l hl; cases hl; show 3 < 2 ^ 32; decide
      · intro l hl; cases hl
      · intro l hl; cases hl; show 1 < 2 ^ 32; decide
      · intro t ht; cases ht
      · intro t ht; cases ht
      · intro t ht; cases ht; decide
      · intro t ht; cases ht
      · intro c hc
        simp only [tile, List.mem_cons, List.not_mem_nil, or_false] at hc
        rcases hc with rfl | rfl <;> (intro l k h; rcases h with h | h <;> cases h)
    · intro mn hm; cases List.mem_singleton.mp hm; simp [tile, corners]
    · intro mn hm vs t hv ht
      cases List.mem_singleton.mp hm
      cases ht
    · intro mn hm
      cases List.mem_singleton.mp hm
      exact tile_edge
    · intro h; cases h
  obtain ⟨bytes, h⟩ := this
  refine ⟨bytes, h, le_trans (C56_linear (Double.orderLaws64 thirty) ⟨by decide, by decide, by decide⟩ (fun mn hm => ?_) h) ?_⟩
  · cases List.mem_singleton.mp hm
    exact tile_fits
  · norm_num [meshSizeBound, segmentBound, mostPieces, indexPieces, onePiece, elements, elementCount, customLoad, customCount, tile, Mesh.empty, corners]

theorem unit_wOne : UnitValue wOne := ⟨rfl, by rw [valueOf_wOne]; norm_num, by rw [valueOf_wOne]⟩
theorem unit_wQuarter : UnitValue wQuarter := ⟨rfl, by rw [valueOf_wQuarter]; norm_num, by rw [valueOf_wQuarter]; norm_num⟩
theorem unit_wZero : UnitValue wZero := ⟨rfl, by rw [valueOf_wZero], by rw [valueOf_wZero]; norm_num⟩

theorem only {α β : Type} {R : α → β → Prop} {a : α} {out : List β} (h : List.Forall₂ R [a] out) : ∃ c, out = [c] ∧ R a c := by
  cases h with
  | cons h h0 => cases h0; exact ⟨_, rfl, h⟩

/-- Saved with 30 bits, the uv coordinates 1 and 1/4 come back at most one step lower; with f32 numbers the 1 would come back
as 0 (`C36_one_violated`). -/
example (fb : F64Bytes (ops64 thirty)) (b' : Build) : ∃ bytes mn uv,
    tmfBytes (ops64 thirty) fb .wrapping tilePrec [(tile, [65])] = .ok bytes ∧
    readTmf (ops64 thirty) fb b' ⟨bytes ++ [], [], false⟩ = .ok [mn] ∧ mn.1.uvs = some [uv] ∧
    StepBelow 30 wOne uv.1 ∧ StepBelow 30 wQuarter uv.2 := by
  obtain ⟨bytes, h, hb⟩ := tile_saved fb
  obtain ⟨out, e, hf⟩ := C67_uvs (b' := b') h (tile_limits fb) hb (show 1 ≤ 30 by decide) [] []
  obtain ⟨mn, rfl, _, hm⟩ := only hf
  obtain ⟨_, l', hl', _, hk⟩ := hm _ rfl
  obtain ⟨uv, rfl, hk'⟩ := only (hk (fun n hn => by rcases List.mem_singleton.mp hn with rfl; exact ⟨unit_wOne, unit_wQuarter⟩))
  exact ⟨bytes, mn, uv, h, e, hl', hk'⟩

theorem extent_tile : Extent [wOne, wQuarter, wFive] (1 / 4) 5 where
  finite := by
    intro x hx
    simp only [List.mem_cons, List.not_mem_nil, or_false] at hx
    rcases hx with rfl | rfl | rfl <;> rfl
  bounds := by
    intro x hx
    simp only [List.mem_cons, List.not_mem_nil, or_false] at hx
    rcases hx with rfl | rfl | rfl <;> simp only [valueOf_wOne, valueOf_wQuarter, valueOf_wFive] <;> norm_num
  lo_mem := ⟨wQuarter, by simp, valueOf_wQuarter⟩
  hi_mem := ⟨wFive, by simp, valueOf_wFive⟩

/-- The custom data comes back as colour and floats. -/
example (fb : F64Bytes (ops64 thirty)) (b' : Build) : ∃ bytes mn c f,
    tmfBytes (ops64 thirty) fb .wrapping tilePrec [(tile, [65])] = .ok bytes ∧
    readTmf (ops64 thirty) fb b' ⟨bytes ++ [], [], false⟩ = .ok [mn] ∧ mn.1.customData = [c, f] ∧ c.name = [99] ∧ f.name = [102] ∧
    (∃ r p', c.data = .color [r] p' ∧ ColorBelow 30 (wOne, wOne, wQuarter, wZero) r) ∧
    ∃ data' p', f.data = .float data' p' ∧
      List.Forall₂ (fun x y => |valueOf y - valueOf x| ≤ 1 / 2 ^ 27) [wOne, wQuarter, wFive] data' := by
  obtain ⟨bytes, h, hb⟩ := tile_saved fb
  obtain ⟨out, e, hf⟩ := C67_custom (b' := b') h (tile_limits fb) hb [] []
  obtain ⟨mn, rfl, hm⟩ := only hf
  have hm' : List.Forall₂ (fun c c' => c'.name = c.name ∧
      KeptCustom64 (floatPrec (ops64 thirty)) (colorPrec (ops64 thirty)) c.data c'.data)
      [(⟨[99], .color [(wOne, wOne, wQuarter, wZero)] wQuarter⟩ : CustomSeg (Val b64)),
        ⟨[102], .float [wOne, wQuarter, wFive] wQuarter⟩] mn.1.customData := hm
  generalize hcd : mn.1.customData = cd at hm'
  cases hm' with
  | @cons _ c _ _ h1 hm' =>
  obtain ⟨f, rfl, h2⟩ := only hm'
  refine ⟨bytes, mn, c, f, h, e, hcd, h1.1, h2.1, ?_, ?_⟩
  · have hk := h1.2
    dsimp only at hk
    generalize c.data = d at hk ⊢
    cases hk with
    | color _ data' _ p' _ _ hk =>
      rw [tile_color] at hk
      obtain ⟨r, rfl, hr⟩ := only (hk (by decide) (fun c hc => by
        rcases List.mem_singleton.mp hc with rfl
        exact ⟨unit_wOne, unit_wOne, unit_wQuarter, unit_wZero⟩))
      exact ⟨r, p', rfl, hr⟩
  · have hk := h2.2
    dsimp only at hk
    generalize f.data = d at hk ⊢
    cases hk with
    | float _ data' _ p' _ _ hk =>
      rw [tile_float] at hk
      have hw := hk _ _ extent_tile (by norm_num) (by rw [abs_of_nonneg] <;> norm_num) (by rw [abs_of_nonneg] <;> norm_num)
      refine ⟨data', p', rfl, hw.imp fun x y hxy => le_trans hxy.2 ?_⟩
      rw [abs_of_nonneg (by norm_num), abs_of_nonneg (by norm_num), max_eq_right (by norm_num)]
      have : (1 : ℚ) / 2 ^ 1073 ≤ 1 / 2 ^ 40 := by
        rw [one_div_le_one_div (by positivity) (by positivity)]
        exact pow_le_pow_right₀ (by norm_num) (by norm_num)
      generalize (1 : ℚ) / 2 ^ 1073 = t at this ⊢
      norm_num at this ⊢
      linarith

theorem corners_mem : ∀ v ∈ corners, v = (wFive, wZero, wZero) ∨ v = (wZero, wOne, wZero) ∨ v = (wZero, wZero, wZero) := by
  intro v hv
  simpa [corners] using hv

/-- The vertices come back, cut into pieces of 30 bits. -/
example (fb : F64Bytes (ops64 thirty)) (b' : Build) : ∃ bytes mn pieces pieces' e,
    tmfBytes (ops64 thirty) fb .wrapping tilePrec [(tile, [65])] = .ok bytes ∧
    readTmf (ops64 thirty) fb b' ⟨bytes ++ [], [], false⟩ = .ok [mn] ∧ pieces.flatten = corners ∧
    mn.1.vertices = some pieces'.flatten ∧ List.Forall₂ (PieceKept64 thirty wQuarter e 5) pieces pieces' := by
  obtain ⟨bytes, h, hb⟩ := tile_saved fb
  obtain ⟨out, e, hf⟩ := C67_vertices (b' := b') h (tile_limits fb) hb [] []
  obtain ⟨mn, rfl, hm⟩ := only hf
  obtain ⟨edge, ps, ps', he, hc, hq, hv, hk⟩ := hm corners 5 rfl
    (fun v hv => by rcases corners_mem v hv with rfl | rfl | rfl <;> exact ⟨rfl, rfl, rfl⟩)
    (fun v hv => by
      rcases corners_mem v hv with rfl | rfl | rfl <;> simp only [valueOf_wZero, valueOf_wFive, valueOf_wOne] <;> norm_num)
    (by norm_num)
  exact ⟨bytes, mn, ps, ps', edge, h, e, hq, hv, hk⟩

end Example

end Tmf.Props
