import Verif.Lemmas.Order
import Verif.Props.FileAccuracy
/-
C104: saving keeps the order of numbers. Of two numbers of one array (on one axis), the smaller one does
not come back larger. For uv coordinates and colours in [0,1], float data, and the vertices of one piece
inside its box; with 25 bits or more, only below the upper end of the range, which comes back as the
lower one (`C104_uvs_violated`), and the last vertex of a piece may be outside the box
(`C104_vertices_violated`).
-/

set_option exponentiation.threshold 2000

namespace Tmf.Props
open Spec Ieee

variable {lib : Libm} {fb : F64Bytes (ops lib)} {b b' : Build} {prec : PrecisionInfo (Val b32)}
  {meshes : List (Mesh (Val b32) × List UInt8)} {bytes : List UInt8}

/-! ### UVs -/

theorem uvs_order {p : Nat} (hp1 : 1 ≤ p) (hp : p ≤ 31) (l : List (Vec2 (Val b32))) :
    KeepsOrder Prod.fst (fun uv => Storable p uv.1) l (l.map (quantUv (ops lib) p)) ∧
    KeepsOrder Prod.snd (fun uv => Storable p uv.2) l (l.map (quantUv (ops lib) p)) := by
  constructor
  · refine keepsOrder_map fun x _ y _ hx hy h => ?_
    rw [quantUv_unitQ lib hp1, quantUv_unitQ lib hp1]
    exact unitQ_mono hp1 hp hx.1 hy.1 h hy.2
  · refine keepsOrder_map fun x _ y _ hx hy h => ?_
    rw [quantUv_unitQ lib hp1, quantUv_unitQ lib hp1]
    exact unitQ_mono hp1 hp hx.1 hy.1 h hy.2

/-- C104 for the uv coordinates of whole files: those in [0,1] (with 25 bits or more, below 1) keep their
order (the full claim is for every uv coordinate in [0,1], see `C104_uvs_violated`). -/
theorem C104_uvs_partial (h : tmfBytes (ops lib) fb b prec meshes = .ok bytes) (hl : LimitsLow (ops lib) fb b prec meshes)
    (hb : bytes.length ≤ 2 ^ 31) (hp1 : 1 ≤ prec.uv) (junk : List UInt8) (sched : List Nat) :
    ∃ out, readTmf (ops lib) fb b' ⟨bytes ++ junk, sched, false⟩ = .ok out ∧
      List.Forall₂ (fun mn mn' => ∀ l, mn.1.uvs = some l → ∃ l', mn'.1.uvs = some l' ∧
        KeepsOrder Prod.fst (fun uv => Storable prec.uv uv.1) l l' ∧
        KeepsOrder Prod.snd (fun uv => Storable prec.uv uv.2) l l') meshes out := by
  obtain ⟨out, e, hf⟩ := readTmf_low (b' := b') h hl hb junk sched
  refine ⟨out, e, forall₂_imp hf ?_⟩
  rintro mn hmn mn' ⟨_, edge, _, hm, _⟩ l hml
  have hp := (saved_narrow h hl mn hmn).uvs l hml
  rw [hm]
  exact ⟨l.map (quantUv (ops lib) prec.uv), by simp only [loadedMesh, hml, Option.map_some], uvs_order hp1 (by omega) l⟩

/-- The uv coordinates 9/64 and 1 stored in 7 bits. -/
example : KeepsOrder Prod.fst (fun uv => Storable 7 uv.1) [(nine64, vZero), (vOne, nine64)]
      ([(nine64, vZero), (vOne, nine64)].map (quantUv (ops lib) 7)) ∧ Storable 7 nine64 ∧ Storable 7 vOne ∧
    valueOf nine64 ≤ valueOf vOne :=
  ⟨(uvs_order (by decide) (by decide) _).1, storable_nine64 7,
    ⟨⟨rfl, by rw [valueOf_vOne]; norm_num, by rw [valueOf_vOne]⟩, .inl (by decide)⟩, by rw [valueOf_nine64, valueOf_vOne]; norm_num⟩

/-- With 25 bits or more, 1 comes back below 9/64. -/
theorem C104_uvs_violated {p : Nat} (h1 : 25 ≤ p) (h2 : Writable b p) :
    UnitValue nine64 ∧ UnitValue vOne ∧ valueOf nine64 < valueOf vOne ∧
    ∃ bytes x y, saveUvs (ops lib) b [(nine64, nine64), (vOne, vOne)] p = .ok bytes ∧
      readUvs (ops lib) bytes = .ok [(x, x), (y, y)] ∧ valueOf y < valueOf x := by
  have h31 := h2.le
  refine ⟨(storable_nine64 p).1, ⟨rfl, by rw [valueOf_vOne]; norm_num, by rw [valueOf_vOne]⟩, by
    rw [valueOf_nine64, valueOf_vOne]; norm_num, ?_⟩
  obtain ⟨bytes, hs, hr⟩ := readUvs_writable (fo := ops lib) (b := b) (l := [(nine64, nine64), (vOne, vOne)]) h2
    (by show 2 ≤ 2 ^ 31; decide)
  rw [List.map_cons, List.map_cons, List.map_nil, quantUv_unitQ lib (by omega), quantUv_unitQ lib (by omega)] at hr
  dsimp only at hr
  refine ⟨bytes, _, _, hs, hr, ?_⟩
  rw [unitQ_one_wide p (Nat.lt_succ_of_le h31) h1, valueOf_vZero]
  obtain ⟨_, _, hb⟩ := unitQ_stepBelow (by omega) h31 (storable_nine64 p).1 (storable_nine64 p).2
  rw [valueOf_nine64] at hb
  have h3 : (2 : ℚ) ^ 25 ≤ 2 ^ p := pow_le_pow_right₀ (by norm_num) h1
  have : (1 : ℚ) / (2 ^ p - 1) ≤ 1 / 64 :=
    one_div_le_one_div_of_le (by norm_num) (by linarith [show (65 : ℚ) ≤ 2 ^ 25 by norm_num])
  linarith

example : 25 ≤ 27 ∧ Writable .checked 27 := ⟨by decide, .inl (by decide)⟩

/-! ### Custom data -/

/-- A number of a float array with the extent `lo`, `hi`, stored in `p` bits, that is not lost at the upper end. -/
def FloatBelow (p : Nat) (lo hi : ℚ) (x : Val b32) : Prop := p ≤ 24 ∨ valueOf x - lo ≤ (1 - 1 / 2 ^ 21) * (hi - lo)

/-- Custom data that keep their order: floats (not constant), and the four channels of colours. -/
structure OrderedCustom (lib : Libm) (d d' : CustomData (Val b32)) : Prop where
  float : ∀ data p, d = .float data p → ∃ data' p', d' = .float data' p' ∧
    ∀ lo hi, Extent data lo hi → lo < hi → |lo| ≤ 2 ^ 120 → |hi| ≤ 2 ^ 120 →
      KeepsOrder (fun x => x) (FloatBelow (floatPrec (ops lib) data p) lo hi) data data'
  color : ∀ data p, d = .color data p → 1 ≤ colorPrec (ops lib) p → ∃ data' p', d' = .color data' p' ∧
    KeepsOrder (fun c => c.1) (fun c => Storable (colorPrec (ops lib) p) c.1) data data' ∧
    KeepsOrder (fun c => c.2.1) (fun c => Storable (colorPrec (ops lib) p) c.2.1) data data' ∧
    KeepsOrder (fun c => c.2.2.1) (fun c => Storable (colorPrec (ops lib) p) c.2.2.1) data data' ∧
    KeepsOrder (fun c => c.2.2.2) (fun c => Storable (colorPrec (ops lib) p) c.2.2.2) data data'

theorem floats_order {data : List (Val b32)} {prec : Val b32} {lo hi : ℚ} (he : Extent data lo hi) (hlt : lo < hi)
    (hlo : |lo| ≤ 2 ^ 120) (hhi : |hi| ≤ 2 ^ 120) (hp : floatPrec (ops lib) data prec ≤ 31) :
    KeepsOrder (fun x => x) (FloatBelow (floatPrec (ops lib) data prec) lo hi) data
      (data.map (quantFloat (ops lib) (floatRange (ops lib) data) (floatPrec (ops lib) data prec))) := by
  have hp1 : 1 ≤ floatPrec (ops lib) data prec := le_max_right _ _
  rw [floatRange_ops lib]
  generalize floatPrec (ops lib) data prec = p at *
  obtain ⟨m1, m2, v1, v2⟩ := extent_range he hlo hhi
  refine keepsOrder_map fun x hx y hy _ hoy h => ?_
  rw [quantFloat_ops lib, quantFloat_ops lib]
  refine floatQ_mono hp1 hp (he.finite x hx) (he.finite y hy) (he.finite _ m1) (he.finite _ m2) ?_ h ?_ ?_ ?_ ?_ ?_
  · rw [v1]; exact (he.bounds x hx).1
  · rw [v2]; exact (he.bounds y hy).2
  · rw [v1, v2]; exact hlt
  · rw [v1]; exact hlo
  · rw [v2]; exact hhi
  · rw [v1, v2]; exact hoy

theorem channel_order {p : Nat} (hp1 : 1 ≤ p) (hp : p ≤ 31) {data : List (Vec4 (Val b32))} (sel : Vec4 (Val b32) → Val b32)
    (hs : ∀ c, sel (quantColor (ops lib) p c) = quantChannel (ops lib) p (sel c)) :
    KeepsOrder sel (fun c => Storable p (sel c)) data (data.map (quantColor (ops lib) p)) := by
  refine keepsOrder_map fun x _ y _ hx hy h => ?_
  rw [hs, hs]
  exact channel_mono lib hp1 hp hx.1 hy.1 h hy.2

/-- C104 for the custom data of whole files (the full claim is for every array, see `C104_uvs_violated`
for the upper end with 25 bits or more). -/
theorem C104_custom_partial (h : tmfBytes (ops lib) fb b prec meshes = .ok bytes) (hl : LimitsLow (ops lib) fb b prec meshes)
    (hb : bytes.length ≤ 2 ^ 31) (junk : List UInt8) (sched : List Nat) :
    ∃ out, readTmf (ops lib) fb b' ⟨bytes ++ junk, sched, false⟩ = .ok out ∧
      List.Forall₂ (fun mn mn' => List.Forall₂ (fun c c' => c'.name = c.name ∧ OrderedCustom lib c.data c'.data)
        mn.1.customData.reverse mn'.1.customData) meshes out := by
  obtain ⟨out, e, hf⟩ := readTmf_low (b' := b') h hl hb junk sched
  refine ⟨out, e, forall₂_imp hf ?_⟩
  rintro mn hmn mn' ⟨_, edge, he, hm, hcut⟩
  rw [hm]
  show List.Forall₂ _ mn.1.customData.reverse (mn.1.customData.reverse.map (CustomSeg.loaded (ops lib)))
  refine forall₂_map fun c hc => ⟨rfl, ?_⟩
  have hw := (saved_narrow h hl mn hmn).custom c (List.mem_reverse.mp hc)
  obtain ⟨name, d⟩ := c
  constructor
  · intro data p hd
    dsimp only at hd
    subst hd
    have hw : floatPrec (ops lib) data p ≤ 30 := hw
    exact ⟨_, _, rfl, fun lo hi he hlt hlo hhi => floats_order he hlt hlo hhi (by omega)⟩
  · intro data p hd hp1
    dsimp only at hd
    subst hd
    have hw : colorPrec (ops lib) p ≤ 30 := hw
    have h31 : colorPrec (ops lib) p ≤ 31 := by omega
    exact ⟨_, _, rfl, channel_order hp1 h31 _ (fun _ => rfl), channel_order hp1 h31 _ (fun _ => rfl),
      channel_order hp1 h31 _ (fun _ => rfl), channel_order hp1 h31 _ (fun _ => rfl)⟩

/-! ### Vertices -/

/-- A coordinate of a vertex that is not lost at the upper end of the box. -/
def CoordBelow (p : Nat) (lo hi : ℚ) (x : Val b32) : Prop :=
  p ≤ 24 ∨ (1 / 999999 ≤ hi - lo ∧ valueOf x - lo ≤ (1 - 1 / 2 ^ 21) * (hi - lo))

/-- One piece of a vertex array and what it comes back as: on each axis, the vertices inside the box
keep their order, and all but the last are inside. -/
structure PieceOrdered (lib : Libm) (pr e : Val b32) (p p' : List (Vec3 (Val b32))) : Prop where
  length : p'.length = p.length
  box : p ≠ [] → ∃ s, vertexBox (ops lib) p = .ok s ∧ (∀ v ∈ p.dropLast, Inside s v) ∧
    KeepsOrder (fun v => v.1)
      (fun v => Inside s v ∧ CoordBelow (s.precs (ops lib) pr e).1 (valueOf s.minX) (valueOf s.maxX) v.1) p p' ∧
    KeepsOrder (fun v => v.2.1)
      (fun v => Inside s v ∧ CoordBelow (s.precs (ops lib) pr e).2.1 (valueOf s.minY) (valueOf s.maxY) v.2.1) p p' ∧
    KeepsOrder (fun v => v.2.2)
      (fun v => Inside s v ∧ CoordBelow (s.precs (ops lib) pr e).2.2 (valueOf s.minZ) (valueOf s.maxZ) v.2.2) p p'

theorem piece_order {pr e : Val b32} {p : List (Vec3 (Val b32))} (hfin : ∀ v ∈ p, FiniteVec v)
    (hM : ∀ v ∈ p, |valueOf v.1| ≤ 2 ^ 120 ∧ |valueOf v.2.1| ≤ 2 ^ 120 ∧ |valueOf v.2.2| ≤ 2 ^ 120)
    (hw : ∀ s, vertexBox (ops lib) p = .ok s → (s.precs (ops lib) pr e).1 ≤ 30 ∧
      (s.precs (ops lib) pr e).2.1 ≤ 30 ∧ (s.precs (ops lib) pr e).2.2 ≤ 30) :
    PieceOrdered lib pr e p (quantVertices (ops lib) pr e p) := by
  refine ⟨quantVertices_len pr e p, fun hne => ?_⟩
  obtain ⟨s, hs⟩ : ∃ s, vertexBox (ops lib) p = .ok s := by
    cases p with
    | nil => exact absurd rfl hne
    | cons v p => exact ⟨_, vertexBox_ops lib v p⟩
  obtain ⟨bf, hin, -, b1, b2, b3, b4⟩ := vertexBox_spec lib hs hfin
  refine ⟨s, hs, hin, ?_⟩
  obtain ⟨hx, hy, hz⟩ := hw s hs
  have p1 : 1 ≤ (s.precs (ops lib) pr e).1 := le_max_right _ _
  have p2 : 1 ≤ (s.precs (ops lib) pr e).2.1 := le_max_right _ _
  have p3 : 1 ≤ (s.precs (ops lib) pr e).2.2 := le_max_right _ _
  rw [quantVertices, hs]
  dsimp only
  generalize s.precs (ops lib) pr e = w at *
  have m1 : ∀ v ∈ p, -2 ^ 120 ≤ valueOf v.1 ∧ valueOf v.1 ≤ 2 ^ 120 := fun v hv => abs_le.mp (hM v hv).1
  have m2 : ∀ v ∈ p, -2 ^ 120 ≤ valueOf v.2.1 ∧ valueOf v.2.1 ≤ 2 ^ 120 := fun v hv => abs_le.mp (hM v hv).2.1
  have m3 : ∀ v ∈ p, -2 ^ 120 ≤ valueOf v.2.2 ∧ valueOf v.2.2 ≤ 2 ^ 120 := fun v hv => abs_le.mp (hM v hv).2.2
  have bx1 := b1 _ (fun w hw => (m1 w hw).1)
  have bx2 := b2 _ (fun w hw => ⟨(m1 w hw).2, (m2 w hw).2⟩)
  have by1 := b3 _ (fun w hw => ⟨(m2 w hw).1, (m3 w hw).1⟩)
  have bz2 := b4 _ (fun w hw => (m3 w hw).2)
  have ax : ∀ {mn mx x : ℚ}, mn ≤ x → x ≤ mx → -2 ^ 120 ≤ mn → mx ≤ 2 ^ 120 → |mn| ≤ 2 ^ 120 ∧ |mx| ≤ 2 ^ 120 := by
    intro mn mx x h1 h2 h3 h4
    exact ⟨abs_le.mpr ⟨h3, by linarith⟩, abs_le.mpr ⟨by linarith, h4⟩⟩
  refine ⟨keepsOrder_map fun v hv v' hv' ho ho' h => ?_, keepsOrder_map fun v hv v' hv' ho ho' h => ?_,
    keepsOrder_map fun v hv v' hv' ho ho' h => ?_⟩ <;> rw [quantVertex_ops lib, quantVertex_ops lib]
  · have a := ax ho.1.minX ho.1.maxX bx1 bx2.1
    exact coordQ_mono p1 (by omega) (hfin v hv).1 (hfin v' hv').1 bf.minX bf.maxX ho.1.minX h ho'.1.maxX a.1 a.2 ho'.2
  · have a := ax ho.1.minY ho.1.maxY by1.1 bx2.2
    exact coordQ_mono p2 (by omega) (hfin v hv).2.1 (hfin v' hv').2.1 bf.minY bf.maxY ho.1.minY h ho'.1.maxY a.1 a.2 ho'.2
  · have a := ax ho.1.minZ ho.1.maxZ by1.2 bz2
    exact coordQ_mono p3 (by omega) (hfin v hv).2.2 (hfin v' hv').2.2 bf.minZ bf.maxZ ho.1.minZ h ho'.1.maxZ a.1 a.2 ho'.2

/-- C104 for the vertices of whole files, piece by piece (the full claim is for all vertices, see
`C104_vertices_violated`). -/
theorem C104_vertices_partial (h : tmfBytes (ops lib) fb b prec meshes = .ok bytes) (hl : LimitsLow (ops lib) fb b prec meshes)
    (hb : bytes.length ≤ 2 ^ 31) (junk : List UInt8) (sched : List Nat) :
    ∃ out, readTmf (ops lib) fb b' ⟨bytes ++ junk, sched, false⟩ = .ok out ∧
      List.Forall₂ (fun mn mn' => ∀ l, mn.1.vertices = some l → (∀ v ∈ l, FiniteVec v) →
        (∀ v ∈ l, |valueOf v.1| ≤ 2 ^ 120 ∧ |valueOf v.2.1| ≤ 2 ^ 120 ∧ |valueOf v.2.2| ≤ 2 ^ 120) →
        ∃ e pieces pieces', calcShortestEdge (ops lib) mn.1.vertexTriangles mn.1.vertices = .ok e ∧
          optVertices (ops lib) b l = .ok pieces ∧ pieces.flatten = l ∧ mn'.1.vertices = some pieces'.flatten ∧
          List.Forall₂ (PieceOrdered lib prec.vertex e) pieces pieces') meshes out := by
  obtain ⟨out, e, hf⟩ := readTmf_low (b' := b') h hl hb junk sched
  refine ⟨out, e, forall₂_imp hf ?_⟩
  rintro mn hmn mn' ⟨_, edge, he, hm, hcut⟩ l hml hfin hM
  obtain ⟨qs, hq, hc⟩ := hcut l hml
  refine ⟨edge, qs, qs.map (quantVertices (ops lib) prec.vertex edge), he, hq, hc, ?_, forall₂_map fun p hp => ?_⟩
  · rw [hm]
    simp only [loadedMesh, hml, Option.map_some, loadedVertices, hq, List.flatMap_def]
  · have hsub := List.sublist_flatten_of_mem hp
    rw [hc] at hsub
    exact piece_order (fun v hv => hfin v (hsub.subset hv)) (fun v hv => hM v (hsub.subset hv))
      fun s hs => (saved_narrow h hl mn hmn).vertices l edge qs p s hml he hq hp hs

theorem coordQ_swapped : lt (coordQ 4 vZero vOne vFive) (coordQ 4 vZero vOne vOne) = true ∧
    isFinite (coordQ 4 vZero vOne vFive) = true ∧ isFinite (coordQ 4 vZero vOne vOne) = true := by
  decide +kernel

/-- C104 is false for the last vertex of a piece: of the vertices `(0,0,0), (1,0,0), (5,0,0)`, the last
comes back to the left of the second. -/
theorem C104_vertices_violated (hlog : AccurateLog2 lib) :
    ∃ bytes u v w, saveVertices (ops lib) fb b [(vZero, vZero, vZero), (vOne, vZero, vZero), (vFive, vZero, vZero)]
        (lit 1 1) vOne = .ok bytes ∧
      readVertices (ops lib) fb bytes = .ok [u, v, w] ∧ valueOf vOne < valueOf vFive ∧ valueOf w.1 < valueOf v.1 := by
  have hb : vertexBox (ops lib) [(vZero, vZero, vZero), (vOne, vZero, vZero), (vFive, vZero, vZero)] =
      .ok ⟨vZero, vOne, vZero, vFive, vZero, vZero⟩ := by rw [vertexBox_ops, box_flat]
  have hp : (⟨vZero, vOne, vZero, vFive, vZero, vZero⟩ : VBox (Val b32)).precs (ops lib) (lit 1 1) vOne = (4, 6, 6) := by
    rw [precs_ops lib, bits_flat lib hlog]
  obtain ⟨bytes, hw, hr⟩ := readVertices_saved (fo := ops lib) (fb := fb) (b := b) (precision := lit 1 1) (edge := vOne)
    hb (by rw [hp]; decide) (by rw [hp]; decide) (by rw [hp]; decide) (by show 3 ≤ 2 ^ 31; decide)
  have h := hr []
  rw [List.append_nil, quantVertices, hb] at h
  dsimp only at h
  rw [hp, List.map_cons, List.map_cons, List.map_cons, List.map_nil, quantVertex_ops lib, quantVertex_ops lib,
    quantVertex_ops lib] at h
  refine ⟨bytes, _, _, _, hw, h, by rw [valueOf_vOne, valueOf_vFive]; norm_num, ?_⟩
  exact (lt_value coordQ_swapped.2.1 coordQ_swapped.2.2).mp coordQ_swapped.1

/-! ### An example -/

/-- The custom floats 1, 9/64, 3/2 of `kit` come back as numbers `x`, `y`, `z` with `y ≤ x ≤ z`. -/
example (hlog : AccurateLog2 lib) (fb : F64Bytes (ops lib)) (b' : Build) : ∃ bytes mn x y z p rest,
    tmfBytes (ops lib) fb .wrapping kitPrec [(kit, [65])] = .ok bytes ∧
    readTmf (ops lib) fb b' ⟨bytes ++ [], [], false⟩ = .ok [mn] ∧
    mn.1.customData = [rest, ⟨[102], .float [x, y, z] p⟩] ∧ valueOf y ≤ valueOf x ∧ valueOf x ≤ valueOf z := by
  obtain ⟨bytes, h, hb⟩ := kit_saved fb
  obtain ⟨out, e, hf⟩ := C104_custom_partial (b' := b') h (kit_limits hlog fb) hb [] []
  obtain ⟨mn, rfl, hm⟩ := forall₂_one hf
  obtain ⟨c, d, hcd, -, hd⟩ := forall₂_two (a := (⟨[99], .color [(nine64, nine64, nine64, nine64)] vQuarter⟩ : CustomSeg (Val b32)))
    (b := ⟨[102], .float [vOne, nine64, threeHalves] (lit 1 2)⟩) hm
  obtain ⟨name, d⟩ := d
  obtain ⟨rfl, hd⟩ := hd
  obtain ⟨data', p', hd', ho⟩ := hd.float _ _ rfl
  dsimp only at hd'
  subst hd'
  have ho := ho _ _ extent_example (by norm_num) (by rw [abs_of_nonneg] <;> norm_num) (by rw [abs_of_nonneg] <;> norm_num)
  obtain ⟨x, y, z, rfl⟩ : ∃ x y z, data' = [x, y, z] := by
    have := ho.length
    match data', this with
    | [x, y, z], _ => exact ⟨x, y, z, rfl⟩
  have ok : ∀ v, FloatBelow (floatPrec (ops lib) [vOne, nine64, threeHalves] (lit 1 2)) (9 / 64) (3 / 2) v := fun v =>
    .inl (by rw [kit_float hlog]; decide)
  refine ⟨bytes, mn, x, y, z, p', c, h, e, hcd, ?_, ?_⟩
  · exact ho.order 1 0 nine64 y vOne x rfl rfl rfl rfl (ok _) (ok _) (by
      show valueOf nine64 ≤ valueOf vOne
      rw [valueOf_nine64, valueOf_vOne]; norm_num)
  · exact ho.order 0 2 vOne x threeHalves z rfl rfl rfl rfl (ok _) (ok _) (by
      show valueOf vOne ≤ valueOf threeHalves
      rw [valueOf_threeHalves, valueOf_vOne]; norm_num)

/-- The second vertex of `kit` is to the left of the first, and comes back not to the right of it. -/
example (hlog : AccurateLog2 lib) (fb : F64Bytes (ops lib)) (b' : Build) : ∃ bytes mn u v w,
    tmfBytes (ops lib) fb .wrapping kitPrec [(kit, [65])] = .ok bytes ∧
    readTmf (ops lib) fb b' ⟨bytes ++ [], [], false⟩ = .ok [mn] ∧ mn.1.vertices = some [u, v, w] ∧ valueOf v.1 ≤ valueOf u.1 := by
  obtain ⟨bytes, h, hb⟩ := kit_saved fb
  obtain ⟨out, e, hf⟩ := C104_vertices_partial (b' := b') h (kit_limits hlog fb) hb [] []
  obtain ⟨mn, rfl, hm⟩ := forall₂_one hf
  obtain ⟨edge, ps, ps', he, hc, _, hv, hk⟩ := hm turned rfl
    (fun v hv => by rcases turned_mem v hv with rfl | rfl | rfl <;> exact ⟨rfl, rfl, rfl⟩)
    (fun v hv => by
      rcases turned_mem v hv with rfl | rfl | rfl <;> simp only [valueOf_vZero, valueOf_vFive, valueOf_vOne] <;> norm_num)
  cases flat_cut kit_flat hc
  have he' : calcShortestEdge (ops lib) (some [0, 1, 2]) (some turned) = .ok edge := he
  rw [turned_edge] at he'
  cases he'
  obtain ⟨p', rfl, hk'⟩ := forall₂_one hk
  obtain ⟨hlen, hbox⟩ := hk'
  obtain ⟨s, hs, hin, hn, -, -⟩ := hbox (by simp [turned])
  rw [turned_box] at hs
  cases hs
  rw [show kitPrec.vertex = lit 1 1 from rfl, turned_precs hlog] at hn
  match p', hlen with
  | [u, v, w], _ =>
    refine ⟨bytes, mn, u, v, w, h, e, hv, ?_⟩
    exact hn.order 1 0 (vZero, vOne, vZero) v (vFive, vZero, vZero) u rfl rfl rfl rfl
      ⟨hin _ (by simp [turned]), .inl (by decide)⟩ ⟨hin _ (by simp [turned]), .inl (by decide)⟩ (by
        show valueOf vZero ≤ valueOf vFive
        rw [valueOf_vZero, valueOf_vFive]; norm_num)

end Tmf.Props
