import Verif.Lemmas.F64Bits
import Verif.Lemmas.SavedWidths
import Verif.Props.Edges
import Verif.Props.FileSize
import Verif.Props.NormalAngle
import Verif.Props.SaveOk
/-
C36, C37, C38, C40, C54 for whole files: what `read_tmf` returns for a file `write_tmf` wrote, number
by number. The writer may be of either build; without overflow checks the widths must be at most 30
bits (`LimitsLow`), with them a wider number is a panic. So the width of a number in a file is at most 30
bits, and with 25 bits or more the numbers at the upper end of their range are lost (`C36_one_violated`,
`C37_top_violated`, `C38_up_violated`, `C40_float_top_violated`); the others come back as with fewer bits.
-/

set_option exponentiation.threshold 2000

namespace Tmf.Props
open Spec Ieee

variable {lib : Libm} {fb : F64Bytes (ops lib)} {b b' : Build} {prec : PrecisionInfo (Val b32)}
  {meshes : List (Mesh (Val b32) × List UInt8)} {bytes : List UInt8}

/-! ### C36 -/

/-- C36 for whole files: uv coordinates come back at most one step below the original. -/
theorem C36_file_partial (h : tmfBytes (ops lib) fb b prec meshes = .ok bytes) (hl : LimitsLow (ops lib) fb b prec meshes)
    (hb : bytes.length ≤ 2 ^ 31) (hp1 : 1 ≤ prec.uv) (junk : List UInt8) (sched : List Nat) :
    ∃ out, readTmf (ops lib) fb b' ⟨bytes ++ junk, sched, false⟩ = .ok out ∧
      List.Forall₂ (fun mn mn' => ∀ l, mn.1.uvs = some l →
        (∀ uv ∈ l, Storable prec.uv uv.1 ∧ Storable prec.uv uv.2) → ∃ l', mn'.1.uvs = some l' ∧
        List.Forall₂ (fun uv uv' => StepBelow prec.uv uv.1 uv'.1 ∧ StepBelow prec.uv uv.2 uv'.2) l l') meshes out := by
  obtain ⟨out, e, hf⟩ := readTmf_low (b' := b') h hl hb junk sched
  refine ⟨out, e, forall₂_imp hf ?_⟩
  rintro mn hmn mn' ⟨_, edge, _, hm, _⟩ l hml hu
  have hp := (saved_narrow h hl mn hmn).uvs l hml
  rw [hm]
  refine ⟨l.map (quantUv (ops lib) prec.uv), by simp only [loadedMesh, hml, Option.map_some], forall₂_map fun uv huv => ?_⟩
  obtain ⟨h1, h2⟩ := hu uv huv
  rw [quantUv_unitQ lib hp1]
  exact ⟨unitQ_stepBelow hp1 (by omega) h1.1 h1.2, unitQ_stepBelow hp1 (by omega) h2.1 h2.2⟩

/-! ### C38 -/

/-- C38 for the normals of whole files. With 25 bits or more, they must not lie along an axis (`OffAxes`). -/
theorem C38_file_partial (hlib : AccurateLibm lib) (h : tmfBytes (ops lib) fb b prec meshes = .ok bytes)
    (hl : LimitsLow (ops lib) fb b prec meshes) (hb : bytes.length ≤ 2 ^ 31) (hp1 : 1 ≤ prec.normal)
    (junk : List UInt8) (sched : List Nat) :
    ∃ out, readTmf (ops lib) fb b' ⟨bytes ++ junk, sched, false⟩ = .ok out ∧
      List.Forall₂ (fun mn mn' => ∀ l, mn.1.normals = some l →
        (∀ n ∈ l, UnitNormal n ∧ (25 ≤ prec.normal → OffAxes n)) → ∃ l', mn'.1.normals = some l' ∧ List.Forall₂ (KeptNormal prec.normal) l l') meshes out := by
  obtain ⟨out, e, hf⟩ := readTmf_low (b' := b') h hl hb junk sched
  refine ⟨out, e, forall₂_imp hf ?_⟩
  rintro mn hmn mn' ⟨_, edge, _, hm, _⟩ l hml hu
  rw [hm]
  refine ⟨l.map (quantNormal (ops lib) prec.normal), by simp only [loadedMesh, hml, Option.map_some], ?_⟩
  rcases (saved_narrow h hl mn hmn).normals l hml with rfl | hp
  · exact .nil
  · exact forall₂_map fun n hn => normal_kept_wide hlib hp1 (by omega) (hu n hn).1 (hu n hn).2

/-- C38 for the tangents of whole files, in the same way. -/
theorem C38_file_tangents_partial (hlib : AccurateLibm lib) (h : tmfBytes (ops lib) fb b prec meshes = .ok bytes)
    (hl : LimitsLow (ops lib) fb b prec meshes) (hb : bytes.length ≤ 2 ^ 31) (hp1 : 1 ≤ prec.tangent)
    (junk : List UInt8) (sched : List Nat) :
    ∃ out, readTmf (ops lib) fb b' ⟨bytes ++ junk, sched, false⟩ = .ok out ∧
      List.Forall₂ (fun mn mn' => ∀ l, mn.1.tangents = some l →
        (∀ t ∈ l, UnitNormal t.1 ∧ (25 ≤ prec.tangent → OffAxes t.1)) → ∃ l', mn'.1.tangents = some l' ∧ List.Forall₂ (fun t t' => KeptNormal prec.tangent t.1 t'.1) l l') meshes out := by
  obtain ⟨out, e, hf⟩ := readTmf_low (b' := b') h hl hb junk sched
  refine ⟨out, e, forall₂_imp hf ?_⟩
  rintro mn hmn mn' ⟨_, edge, _, hm, _⟩ l hml hu
  rw [hm]
  refine ⟨l.map (quantTangent (ops lib) prec.tangent), by simp only [loadedMesh, hml, Option.map_some], ?_⟩
  rcases (saved_narrow h hl mn hmn).tangents l hml with rfl | hp
  · exact .nil
  · exact forall₂_map fun t ht => normal_kept_wide hlib hp1 (by omega) (hu t ht).1 (hu t ht).2

/-! ### C40 -/

theorem floats_quant (fb : F64Bytes (ops lib)) {data : List (Val b32)} {p : Val b32} {lo hi : ℚ} (he : Extent data lo hi)
    (hlt : lo < hi) (hlo : |lo| ≤ 2 ^ 120) (hhi : |hi| ≤ 2 ^ 120) (hp : floatPrec (ops lib) data p ≤ 30)
    (hl : data.length ≤ 2 ^ 31) :
    ∃ data' p', quantFloats (ops lib) data p = .float data' p' ∧
      List.Forall₂ (fun x x' => (25 ≤ floatPrec (ops lib) data p → valueOf x - lo ≤ (1 - 1 / 2 ^ 21) * (hi - lo)) →
        Within ((hi - lo) / (2 ^ floatPrec (ops lib) data p - 1) + Max.max |lo| |hi| / 2 ^ 19 + 1 / 2 ^ 148) x x') data data' := by
  obtain ⟨bytes, data', p', hw, hr, hk⟩ := C40_float_wide_partial lib (fb := fb) (b := .wrapping) he hlt hlo hhi (.inl hp) hl
  obtain ⟨bytes', hw', hr'⟩ := readFloats_saved (fo := ops lib) (fb := fb) (b := .wrapping) (data := data) (prec := p)
    hp hl
  rw [hw] at hw'
  cases hw'
  have := hr' []
  rw [List.append_nil, hr] at this
  cases this
  exact ⟨_, _, rfl, hk⟩

theorem colors_quant {data : List (Vec4 (Val b32))} {p : Val b32} (hp1 : 1 ≤ colorPrec (ops lib) p)
    (hp : colorPrec (ops lib) p ≤ 30) (hl : data.length ≤ 2 ^ 31)
    (hu : ∀ c ∈ data, Storable (colorPrec (ops lib) p) c.1 ∧ Storable (colorPrec (ops lib) p) c.2.1 ∧
      Storable (colorPrec (ops lib) p) c.2.2.1 ∧ Storable (colorPrec (ops lib) p) c.2.2.2) :
    ∃ data' p', quantColors (ops lib) data p = .color data' p' ∧
      List.Forall₂ (fun c c' => StepBelow (colorPrec (ops lib) p) c.1 c'.1 ∧
        StepBelow (colorPrec (ops lib) p) c.2.1 c'.2.1 ∧ StepBelow (colorPrec (ops lib) p) c.2.2.1 c'.2.2.1 ∧
        StepBelow (colorPrec (ops lib) p) c.2.2.2 c'.2.2.2) data data' := by
  obtain ⟨bytes, data', p', hw, hr, hk⟩ := C40_color_partial lib (b := .wrapping) (b' := .wrapping) hp1 (.inl hp) hl hu
  obtain ⟨bytes', hw', hr'⟩ := readColors_saved (fo := ops lib) (b := .wrapping) (b' := .wrapping) (data := data) (prec := p) hp hl
  rw [hw] at hw'
  cases hw'
  have := hr' []
  rw [List.append_nil, hr] at this
  cases this
  exact ⟨_, _, rfl, hk⟩

/-- Custom data as it comes back: indices and integers exactly, floats within one step of their range
and rounding (not constant; with 25 bits or more, not at the upper end), colours at most one step below. -/
inductive KeptCustom (lib : Libm) : CustomData (Val b32) → CustomData (Val b32) → Prop
  | index (l : List Nat) (m m' : Nat) : KeptCustom lib (.index l m) (.index l m')
  | integer (l : List Nat) (m m' : Nat) : KeptCustom lib (.integer l m) (.integer l m')
  | float (data data' : List (Val b32)) (p p' : Val b32) (hlen : data'.length = data.length)
      (h : ∀ lo hi, Extent data lo hi → lo < hi → |lo| ≤ 2 ^ 120 → |hi| ≤ 2 ^ 120 →
        List.Forall₂ (fun x x' => (25 ≤ floatPrec (ops lib) data p → valueOf x - lo ≤ (1 - 1 / 2 ^ 21) * (hi - lo)) →
          Within ((hi - lo) / (2 ^ floatPrec (ops lib) data p - 1) + Max.max |lo| |hi| / 2 ^ 19 + 1 / 2 ^ 148) x x') data data') : KeptCustom lib (.float data p) (.float data' p')
  | color (data data' : List (Vec4 (Val b32))) (p p' : Val b32) (hlen : data'.length = data.length)
      (h : 1 ≤ colorPrec (ops lib) p →
        (∀ c ∈ data, Storable (colorPrec (ops lib) p) c.1 ∧ Storable (colorPrec (ops lib) p) c.2.1 ∧
          Storable (colorPrec (ops lib) p) c.2.2.1 ∧ Storable (colorPrec (ops lib) p) c.2.2.2) →
        List.Forall₂ (fun c c' => StepBelow (colorPrec (ops lib) p) c.1 c'.1 ∧
          StepBelow (colorPrec (ops lib) p) c.2.1 c'.2.1 ∧ StepBelow (colorPrec (ops lib) p) c.2.2.1 c'.2.2.1 ∧
          StepBelow (colorPrec (ops lib) p) c.2.2.2 c'.2.2.2) data data') : KeptCustom lib (.color data p) (.color data' p')

theorem custom_kept (fb : F64Bytes (ops lib)) {c : CustomSeg (Val b32)} (hc : CustomFits c) (hp : LowCustom (ops lib) c.data) :
    KeptCustom lib c.data (c.data.loaded (ops lib)) := by
  cases hc with
  | index name l m => exact .index l m _
  | integer name l m => exact .integer l m _
  | float name l p hn hl =>
    refine .float l _ p _ (by rw [List.length_map]) fun lo hi he hlt hlo hhi => ?_
    obtain ⟨data', p', e, hk⟩ := floats_quant fb he hlt hlo hhi hp hl
    rw [quantFloats] at e
    cases e
    exact hk
  | color name l p hn hl =>
    refine .color l _ p _ (by rw [List.length_map]) fun hp1 hu => ?_
    obtain ⟨data', p', e, hk⟩ := colors_quant hp1 hp hl hu
    rw [quantColors] at e
    cases e
    exact hk

/-- C40 for whole files: every piece of custom data comes back, in reversed order and under its name,
with the accuracy of `C40_float_wide_partial` and `C40_color_partial`. -/
theorem C40_file_partial (h : tmfBytes (ops lib) fb b prec meshes = .ok bytes) (hl : LimitsLow (ops lib) fb b prec meshes)
    (hb : bytes.length ≤ 2 ^ 31) (junk : List UInt8) (sched : List Nat) :
    ∃ out, readTmf (ops lib) fb b' ⟨bytes ++ junk, sched, false⟩ = .ok out ∧
      List.Forall₂ (fun mn mn' => List.Forall₂ (fun c c' => c'.name = c.name ∧ KeptCustom lib c.data c'.data)
        mn.1.customData.reverse mn'.1.customData) meshes out := by
  obtain ⟨out, e, hf⟩ := readTmf_low (b' := b') h hl hb junk sched
  refine ⟨out, e, forall₂_imp hf ?_⟩
  rintro mn hmn mn' ⟨_, edge, he, hm, hcut⟩
  rw [hm]
  show List.Forall₂ _ mn.1.customData.reverse (mn.1.customData.reverse.map (CustomSeg.loaded (ops lib)))
  exact forall₂_map fun c hc => ⟨rfl, custom_kept fb ((hl.fits mn hmn).custom c (List.mem_reverse.mp hc))
    ((saved_narrow h hl mn hmn).custom c (List.mem_reverse.mp hc))⟩

/-! ### C37 -/

/-- One piece of a vertex array and what it comes back as. -/
structure PieceKept (lib : Libm) (pr e : Val b32) (M : ℚ) (p p' : List (Vec3 (Val b32))) : Prop where
  length : p'.length = p.length
  box : p ≠ [] → ∃ s, vertexBox (ops lib) p = .ok s ∧ (∀ v ∈ p.dropLast, Inside s v) ∧
    List.Forall₂ (fun v v' => Inside s v → BelowTop s (s.precs (ops lib) pr e) v →
      NearVertex p (s.precs (ops lib) pr e) M v v') p p'

theorem quantVertices_len (pr e : Val b32) (p : List (Vec3 (Val b32))) :
    (quantVertices (ops lib) pr e p).length = p.length := by
  cases p with
  | nil => rfl
  | cons v p => rw [quantVertices, vertexBox_ops, List.length_map]

theorem piece_kept (fb : F64Bytes (ops lib)) {pr e : Val b32} {M : ℚ} {p : List (Vec3 (Val b32))} (hl : p.length ≤ 2 ^ 31)
    (hfin : ∀ v ∈ p, FiniteVec v) (hM : ∀ v ∈ p, |valueOf v.1| ≤ M ∧ |valueOf v.2.1| ≤ M ∧ |valueOf v.2.2| ≤ M)
    (hM2 : M ≤ 2 ^ 120) (hw : ∀ s, vertexBox (ops lib) p = .ok s → (s.precs (ops lib) pr e).1 ≤ 30 ∧
      (s.precs (ops lib) pr e).2.1 ≤ 30 ∧ (s.precs (ops lib) pr e).2.2 ≤ 30) : PieceKept lib pr e M p (quantVertices (ops lib) pr e p) := by
  refine ⟨quantVertices_len pr e p, fun hne => ?_⟩
  obtain ⟨s, hs⟩ : ∃ s, vertexBox (ops lib) p = .ok s := by
    cases p with
    | nil => exact absurd rfl hne
    | cons v p => exact ⟨_, vertexBox_ops lib v p⟩
  refine ⟨s, hs, (vertexBox_spec lib hs hfin).2.1, ?_⟩
  obtain ⟨hx, hy, hz⟩ := hw s hs
  obtain ⟨bytes, l', hw, hr, hk, _⟩ := C37_wide_partial lib (fb := fb) (b := .wrapping) hs hl hfin hM hM2 (.inl hx) (.inl hy) (.inl hz)
  obtain ⟨bytes', hw', hr'⟩ := readVertices_saved (fo := ops lib) (fb := fb) (b := .wrapping) (l := p) (precision := pr) (edge := e)
    hs hx hy hz hl
  rw [hw] at hw'
  cases hw'
  have := hr' []
  rw [List.append_nil, hr] at this
  cases this
  exact hk

/-- C37 for whole files. The vertices are cut into consecutive pieces (as `optVertices` does); every
piece comes back with the same length, and every vertex but the last of the piece comes back near its
original, and so does the last one if it is inside the bounding box of the piece; coordinates of 25
bits or more must not lie at the upper end of that box (`BelowTop`). -/
theorem C37_file_partial (h : tmfBytes (ops lib) fb b prec meshes = .ok bytes) (hl : LimitsLow (ops lib) fb b prec meshes)
    (hb : bytes.length ≤ 2 ^ 31) (junk : List UInt8) (sched : List Nat) :
    ∃ out, readTmf (ops lib) fb b' ⟨bytes ++ junk, sched, false⟩ = .ok out ∧
      List.Forall₂ (fun mn mn' => ∀ l M, mn.1.vertices = some l → (∀ v ∈ l, FiniteVec v) →
        (∀ v ∈ l, |valueOf v.1| ≤ M ∧ |valueOf v.2.1| ≤ M ∧ |valueOf v.2.2| ≤ M) → M ≤ 2 ^ 120 →
        ∃ e pieces pieces', calcShortestEdge (ops lib) mn.1.vertexTriangles mn.1.vertices = .ok e ∧
          optVertices (ops lib) b l = .ok pieces ∧ pieces.flatten = l ∧ mn'.1.vertices = some pieces'.flatten ∧
          List.Forall₂ (PieceKept lib prec.vertex e M) pieces pieces') meshes out := by
  obtain ⟨out, e, hf⟩ := readTmf_low (b' := b') h hl hb junk sched
  refine ⟨out, e, forall₂_imp hf ?_⟩
  rintro mn hmn mn' ⟨_, edge, he, hm, hcut⟩ l M hml hfin hM hM2
  obtain ⟨qs, hq, hc⟩ := hcut l hml
  have hlen := (hl.fits mn hmn).vertices l hml
  refine ⟨edge, qs, qs.map (quantVertices (ops lib) prec.vertex edge), he, hq, hc, ?_, forall₂_map fun p hp => ?_⟩
  · rw [hm]
    simp only [loadedMesh, hml, Option.map_some, loadedVertices, hq, List.flatMap_def]
  · have hsub := List.sublist_flatten_of_mem hp
    rw [hc] at hsub
    exact piece_kept fb (le_trans hsub.length_le hlen) (fun v hv => hfin v (hsub.subset hv)) (fun v hv => hM v (hsub.subset hv)) hM2
      fun s hs => (saved_narrow h hl mn hmn).vertices l edge qs p s hml he hq hp hs

/-! ### C54 -/

/-- The `i`-th vertex of an array cut into `pieces` lies inside the box of its piece; that box is not
longer in z than in y, and where it takes 25 bits or more for a coordinate, the vertex is not at its upper end. -/
structure Covered (lib : Libm) (pr e : Val b32) (pieces : List (List (Vec3 (Val b32)))) (i : Nat) (a : Vec3 (Val b32)) : Prop where
  intro ::
  exists_piece : ∃ pre p post s, pieces = pre ++ p :: post ∧ pre.flatten.length ≤ i ∧ i < pre.flatten.length + p.length ∧
    vertexBox (ops lib) p = .ok s ∧ Inside s a ∧
    valueOf s.maxZ - valueOf s.minZ ≤ valueOf s.maxY - valueOf s.minY ∧
    BelowTop s (s.precs (ops lib) pr e) a

theorem flatten_at {α : Type} {pre : List (List α)} {p : List α} {post : List (List α)} {i : Nat}
    (h1 : pre.flatten.length ≤ i) (h2 : i < pre.flatten.length + p.length) :
    (pre ++ p :: post).flatten[i]? = p[i - pre.flatten.length]? := by
  rw [List.flatten_append, List.flatten_cons, List.getElem?_append_right h1, List.getElem?_append_left (by omega)]

theorem flatten_len {α β : Type} {f : List α → List β} (hf : ∀ p, (f p).length = p.length) :
    ∀ l : List (List α), (l.map f).flatten.length = l.flatten.length
  | [] => rfl
  | p :: l => by
    rw [List.map_cons, List.flatten_cons, List.flatten_cons, List.length_append, List.length_append, hf, flatten_len hf l]

/-- C54 for whole files (the full claim is false, see `C54_violated`). Between vertices that lie inside
the boxes of their pieces, distances change by at most seven times the precision times the length of
any edge of the mesh, apart from rounding; this includes the edges of the mesh, also those between
two pieces. -/
theorem C54_file_partial (hlog : AccurateLog2 lib) (h : tmfBytes (ops lib) fb b prec meshes = .ok bytes)
    (hl : LimitsLow (ops lib) fb b prec meshes) (hb : bytes.length ≤ 2 ^ 31) (hp : isFinite prec.vertex = true)
    (p1 : 1 / 2 ^ 20 ≤ valueOf prec.vertex) (p2 : valueOf prec.vertex ≤ 2 ^ 20) (junk : List UInt8) (sched : List Nat) :
    ∃ out, readTmf (ops lib) fb b' ⟨bytes ++ junk, sched, false⟩ = .ok out ∧
      List.Forall₂ (fun mn mn' => ∀ l tris M, mn.1.vertices = some l → mn.1.vertexTriangles = some tris →
        (∀ v ∈ l, FiniteVec v) →
        (∀ v ∈ l, |valueOf v.1| ≤ M ∧ |valueOf v.2.1| ≤ M ∧ |valueOf v.2.2| ≤ M) → M ≤ 2 ^ 58 →
        3 ≤ tris.length → (∀ i j, IsEdge tris i j → i < l.length) →
        ∃ e pieces l', calcShortestEdge (ops lib) mn.1.vertexTriangles mn.1.vertices = .ok e ∧
          optVertices (ops lib) b l = .ok pieces ∧ pieces.flatten = l ∧ mn'.1.vertices = some l' ∧ l'.length = l.length ∧
          (1 / 2 ^ 40 ≤ valueOf e → ∀ (i j : Nat) a c a' c', l[i]? = some a → l[j]? = some c → l'[i]? = some a' →
            l'[j]? = some c' → Covered lib prec.vertex e pieces i a → Covered lib prec.vertex e pieces j c →
            ∀ (i₀ j₀ : Nat) a₀ c₀, IsEdge tris i₀ j₀ → l[i₀]? = some a₀ → l[j₀]? = some c₀ →
              |chord a' c' - chord a c| ≤ 7 * (realOf prec.vertex * chord a₀ c₀) + 4 / 999999 + M / 2 ^ 17)) meshes out := by
  obtain ⟨out, hr, hf⟩ := readTmf_low (b' := b') h hl hb junk sched
  refine ⟨out, hr, forall₂_imp hf ?_⟩
  rintro mn hmn mn' ⟨_, e, he, hm, hcut⟩ l tris M hml hmt hfin hM hM2 h3 hi
  obtain ⟨qs, hq, hc⟩ := hcut l hml
  have hbd : ∀ v ∈ l, Bounded v := fun v hv =>
    ⟨hfin v hv, le_trans (hM v hv).1 hM2, le_trans (hM v hv).2.1 hM2, le_trans (hM v hv).2.2 hM2⟩
  obtain ⟨e', he', hleast⟩ := shortest_least (lib := lib) hbd h3 hi
  have he'' := he
  rw [hml, hmt, he'] at he''
  cases he''
  refine ⟨e, qs, (qs.map (quantVertices (ops lib) prec.vertex e)).flatten, he, hq, hc, ?_, ?_, ?_⟩
  · rw [hm]
    simp only [loadedMesh, hml, Option.map_some, loadedVertices, hq, List.flatMap_def]
  · rw [flatten_len (quantVertices_len (lib := lib) prec.vertex e), hc]
  intro hemin i j a c a' c' ha hc' ha' hc'' ia ic i₀ j₀ a₀ c₀ h₀ ha₀ hc₀
  have key : ∀ (i : Nat) a a', l[i]? = some a → (qs.map (quantVertices (ops lib) prec.vertex e)).flatten[i]? = some a' →
      Covered lib prec.vertex e qs i a → Moved (edgeStep (valueOf e * valueOf prec.vertex) M) a a' := by
    rintro i a a' ha ha' ⟨pre, p, post, s, hqs, h1, h2, hs, hin, hyz, htop⟩
    obtain ⟨wx, wy, _⟩ := (saved_narrow h hl mn hmn).vertices l e qs p s hml he hq (by rw [hqs]; simp) hs
    have hsub : ∀ v ∈ p, v ∈ l := fun v hv => by
      rw [← hc, hqs]; exact List.mem_flatten.mpr ⟨p, by simp, hv⟩
    have hlen := flatten_len (quantVertices_len (lib := lib) prec.vertex e) pre
    rw [← hc, hqs, flatten_at h1 h2] at ha
    rw [hqs, List.map_append, List.map_cons, flatten_at (by rw [hlen]; exact h1)
      (by rw [hlen, quantVertices_len]; exact h2), hlen, quantVertices, hs] at ha'
    dsimp only at ha'
    rw [List.getElem?_map, ha, Option.map_some, Option.some.injEq] at ha'
    subst ha'
    exact vertex_step hlog hs (fun v hv => hfin v (hsub v hv)) (fun v hv => hM v (hsub v hv)) hM2 hleast.finite hemin
      (least_upper hbd hleast) hp p1 p2 hyz (by omega) (by omega) a (List.mem_of_getElem? ha) hin htop
  exact edge_change hbd hleast hemin p1 p2 (le_trans (abs_nonneg _) (hM a (List.mem_of_getElem? ha)).1)
    (key i a a' ha ha' ia) (key j c c' hc' hc'' ic) h₀ ha₀ hc₀

/-! ### An example -/

section Example

/-- A triangle with a normal, a tangent, a uv, and custom data. -/
def kit : Mesh (Val b32) :=
  { (Mesh.empty : Mesh (Val b32)) with
    vertices := some turned, vertexTriangles := some [0, 1, 2]
    normals := some [(minusThreeFifths, vZero, fourFifths)], uvs := some [(nine64, nine64)]
    tangents := some [((minusThreeFifths, vZero, fourFifths), vOne)]
    customData := [⟨[102], .float [vOne, nine64, threeHalves] (lit 1 2)⟩, ⟨[99], .color [(nine64, nine64, nine64, nine64)] vQuarter⟩] }

def kitPrec : PrecisionInfo (Val b32) := ⟨lit 1 1, 7, 3, 7⟩

/-- Vertices in the plane z = 0 are never inside the running span, so they are not cut. -/
theorem flat_scan {edge : Val b32} {total : Nat} {b : Build} : ∀ (l : List (Vec3 (Val b32))) (i : Nat) (sp : Span (Val b32)) (bits : Nat),
    (∀ v ∈ l, v.2.2 = vZero) → sp.1.2.2 = vZero → sp.2.2.2 = vZero →
    ∀ best best', vertexScan (ops lib) b edge total i sp bits l best = .ok best' → best' = best := by
  intro l
  induction l with
  | nil => intro i sp bits _ _ _ best best' h; cases h; rfl
  | cons v l ih =>
    intro i sp bits hl h1 h2 best best' h
    have hv := hl v List.mem_cons_self
    have hz : Ieee.lt vZero vZero = false := by decide +kernel
    have hin : insideSpan (ops lib) sp v = false := by
      simp only [insideSpan, h1, h2, hv, hz, Bool.and_false]
    rw [vertexScan, hin] at h
    obtain ⟨bits', _, h⟩ := Outcome.bind_eq_ok.mp h
    refine ih _ _ _ (fun w hw => hl w (List.mem_cons_of_mem _ hw)) ?_ ?_ best best' h
    · show Ieee.min sp.1.2.2 v.2.2 = vZero
      rw [h1, hv]; decide +kernel
    · show Ieee.max sp.2.2.2 v.2.2 = vZero
      rw [h2, hv]; decide +kernel

theorem flat_cut {b : Build} {l : List (Vec3 (Val b32))} {ps : List (List (Vec3 (Val b32)))} (hl : ∀ v ∈ l, v.2.2 = vZero)
    (h : optVertices (ops lib) b l = .ok ps) : ps = [l] := by
  simp only [optVertices, optVerticesFuel, Outcome.bind_eq_ok] at h
  obtain ⟨o, ho, h⟩ := h
  simp only [findBestVertexSplit, Outcome.bind_eq_ok] at ho
  obtain ⟨total, _, best, hb, ho⟩ := ho
  cases flat_scan l 0 _ _ hl (show lit 0 0 = vZero by decide +kernel) (show lit 0 0 = vZero by decide +kernel) _ _ hb
  cases ho
  cases h
  rfl

theorem kit_flat : ∀ v ∈ turned, v.2.2 = vZero := by
  intro v hv
  simp only [turned, List.mem_cons, List.not_mem_nil, or_false] at hv
  rcases hv with rfl | rfl | rfl <;> rfl

theorem turned_box : vertexBox (ops lib) turned = .ok ⟨vZero, vFive, vZero, vFive, vZero, vZero⟩ := by
  rw [turned, vertexBox_ops, box_turned]

theorem turned_precs (hlog : AccurateLog2 lib) :
    (⟨vZero, vFive, vZero, vFive, vZero, vZero⟩ : VBox (Val b32)).precs (ops lib) (lit 1 1) vOne = (6, 6, 6) := by
  rw [precs_ops lib, bits_turned hlog]

theorem kit_float (hlog : AccurateLog2 lib) : floatPrec (ops lib) [vOne, nine64, threeHalves] (lit 1 2) = 8 := by
  rw [floatPrec_ops lib, floatBits_example lib hlog]

theorem kit_color (hlog : AccurateLog2 lib) : colorPrec (ops lib) vQuarter = 2 := by
  rw [colorPrec_ops lib, colorBits_clear lib hlog] <;> decide +kernel

theorem kit_fits : MeshFits kitPrec kit := by
  refine ⟨?_, ?_, ?_, ?_, ?_, ?_, ?_, ?_, ?_, ?_, ?_⟩ <;> try simp [LengthFits, IndicesFit, kit, Mesh.empty, turned]
  exact ⟨.float _ _ _ (by simp) (by simp), .color _ _ _ (by simp) (by simp)⟩

theorem kit_bytes : ByteSettings kitPrec := ⟨by decide, by decide, by decide⟩

theorem kit_low (hlog : AccurateLog2 lib) : Low (ops lib) .wrapping kitPrec kit where
  normals := fun _ => show 7 ≤ 30 by decide
  uvs := fun _ => show 3 ≤ 30 by decide
  tangents := fun _ => show 7 ≤ 30 by decide
  custom := by
    intro c hc
    simp only [kit, List.mem_cons, List.not_mem_nil, or_false] at hc
    rcases hc with rfl | rfl
    · show floatPrec (ops lib) [vOne, nine64, threeHalves] (lit 1 2) ≤ 30
      rw [kit_float hlog]; decide
    · show colorPrec (ops lib) vQuarter ≤ 30
      rw [kit_color hlog]; decide
  vertices := by
    intro l edge pieces piece s hl he hc hp hs
    cases hl
    have he' : calcShortestEdge (ops lib) (some [0, 1, 2]) (some turned) = .ok edge := he
    rw [turned_edge] at he'
    cases he'
    cases flat_cut kit_flat hc
    cases List.mem_singleton.mp hp
    rw [turned_box] at hs
    cases hs
    rw [show kitPrec.vertex = lit 1 1 from rfl, turned_precs hlog]
    decide

theorem kit_limits (hlog : AccurateLog2 lib) (fb : F64Bytes (ops lib)) :
    LimitsLow (ops lib) fb .wrapping kitPrec [(kit, [65])] where
  count := show 1 < 2 ^ 32 by decide
  names := by
    intro mn h
    rcases List.mem_singleton.mp h with rfl
    exact ⟨show 1 < 2 ^ 16 by decide, ⟨['A'], rfl⟩⟩
  fits := by
    intro mn h
    rcases List.mem_singleton.mp h with rfl
    exact kit_fits
  segments := by
    intro mn h segs hs
    rcases List.mem_singleton.mp h with rfl
    refine lt_of_le_of_lt (encodeMesh_count (orderLaws lib) kit_fits hs) ?_
    norm_num [segmentBound, mostPieces, indexPieces, onePiece, kit, Mesh.empty, turned]
  low := .inr (by
    intro mn h
    rcases List.mem_singleton.mp h with rfl
    exact kit_low hlog)

theorem kit_verify : kit.verify (ops lib) = .ok () := by
  have hn : notUnit (ops lib) (minusThreeFifths, vZero, fourFifths) = false :=
    (by decide +kernel : notUnit (ops noLibm) (minusThreeFifths, vZero, fourFifths) = false)
  have hu : uvLoop (ops lib) [(nine64, nine64)] = none :=
    (by decide +kernel : uvLoop (ops noLibm) [(nine64, nine64)] = none)
  have h1 : verifyVertices kit = none := by simp [verifyVertices, kit, turned, indicesInsideArray]
  have h2 : verifyNormals (ops lib) kit = none := by
    rw [verifyNormals]
    dsimp only [kit]
    rw [List.any_cons, List.any_nil, hn]
    rfl
  have h3 : verifyUvs (ops lib) kit = none := by
    rw [verifyUvs]
    dsimp only [kit]
    rw [hu]
    rfl
  rw [Mesh.verify, h1, h2, h3]
  rfl

theorem kit_saved (fb : F64Bytes (ops lib)) :
    ∃ bytes, tmfBytes (ops lib) fb .wrapping kitPrec [(kit, [65])] = .ok bytes ∧ bytes.length ≤ 2 ^ 31 := by
  have : ∃ bytes, tmfBytes (ops lib) fb .wrapping kitPrec [(kit, [65])] = .ok bytes := by
    refine C29_saved_partial (orderLaws lib) .wrapping _ _ ?_ ?_ ?_ ?_ ?_
    · intro mn hm
      cases List.mem_singleton.mp hm
      refine ⟨kit_verify, ⟨?_, ?_, ?_⟩, ?_, ?_, ?_, ?_, ?_⟩
      · intro l hl; cases hl; show 3 < 2 ^ 32; decide
      · intro l hl; cases hl; show 1 < 2 ^ 32; decide
      · intro l hl; cases hl; show 1 < 2 ^ 32; decide
      · intro t ht; cases ht; decide
      · intro t ht; cases ht
      · intro t ht; cases ht
      · intro t ht; cases ht
      · intro c hc
        simp only [kit, List.mem_cons, List.not_mem_nil, or_false] at hc
        rcases hc with rfl | rfl <;> (intro l k h; rcases h with h | h <;> cases h)
    · intro mn hm; cases List.mem_singleton.mp hm; simp [kit, turned]
    · intro mn hm vs t hv ht
      cases List.mem_singleton.mp hm
      cases hv; cases ht
      show 3 ∉ [0, 1, 2]
      decide
    · intro mn hm
      cases List.mem_singleton.mp hm
      refine ⟨show isFinite (lit 1 1 : Val b32) = true by decide +kernel, fun vs t hv ht _ => ?_⟩
      cases hv; cases ht
      have h := turned_edge (lib := lib)
      change (do
        let e ← shortestEdgeLoop (ops lib) turned [0, 1, 2] (ops lib).infinity
        assertFinite (ops lib) e) = _ at h
      rw [shortestEdgeLoop_ok _ _ _ _ (by simp [turned]), Outcome.bind_ok] at h
      unfold assertFinite at h
      split at h
      · rename_i hf; exact hf
      · cases h
    · intro h; cases h
  obtain ⟨bytes, h⟩ := this
  refine ⟨bytes, h, le_trans (C56_linear (orderLaws lib) kit_bytes (fun mn hm => ?_) h) ?_⟩
  · cases List.mem_singleton.mp hm
    exact kit_fits
  · norm_num [meshSizeBound, segmentBound, mostPieces, indexPieces, onePiece, elements, elementCount, customLoad, customCount, kit, Mesh.empty, turned]

theorem forall₂_one {α β : Type} {R : α → β → Prop} {a : α} {out : List β} (h : List.Forall₂ R [a] out) :
    ∃ c, out = [c] ∧ R a c := by
  cases h with
  | cons h h0 => cases h0; exact ⟨_, rfl, h⟩

theorem forall₂_two {α β : Type} {R : α → β → Prop} {a b : α} {out : List β} (h : List.Forall₂ R [a, b] out) :
    ∃ c d, out = [c, d] ∧ R a c ∧ R b d := by
  cases h with
  | cons h h0 =>
    obtain ⟨d, rfl, hd⟩ := forall₂_one h0
    exact ⟨_, d, rfl, h, hd⟩

theorem forall₂_three {α β : Type} {R : α → β → Prop} {a b c : α} {out : List β} (h : List.Forall₂ R [a, b, c] out) :
    ∃ u v w, out = [u, v, w] ∧ R a u ∧ R b v ∧ R c w := by
  cases h with
  | cons h h0 =>
    obtain ⟨v, w, rfl, hv, hw⟩ := forall₂_two h0
    exact ⟨_, v, w, rfl, h, hv, hw⟩

/-- Saved with 3 bits, the uv coordinates 9/64 come back at most 1/7 lower. -/
example (hlog : AccurateLog2 lib) (fb : F64Bytes (ops lib)) (b' : Build) : ∃ bytes mn uv,
    tmfBytes (ops lib) fb .wrapping kitPrec [(kit, [65])] = .ok bytes ∧
    readTmf (ops lib) fb b' ⟨bytes ++ [], [], false⟩ = .ok [mn] ∧ mn.1.uvs = some [uv] ∧
    StepBelow 3 nine64 uv.1 ∧ StepBelow 3 nine64 uv.2 := by
  obtain ⟨bytes, h, hb⟩ := kit_saved fb
  obtain ⟨out, e, hf⟩ := C36_file_partial (b' := b') h (kit_limits hlog fb) hb (show 1 ≤ 3 by decide) [] []
  obtain ⟨mn, rfl, hm⟩ := forall₂_one hf
  obtain ⟨l', hl', hk⟩ := hm _ rfl (fun n hn => by rcases List.mem_singleton.mp hn with rfl; exact ⟨storable_nine64 _, storable_nine64 _⟩)
  obtain ⟨uv, rfl, hk'⟩ := forall₂_one hk
  exact ⟨bytes, mn, uv, h, e, hl', hk'⟩

/-- Saved with 7 bits, the normal (−3/5, 0, 4/5) comes back as `KeptNormal 7` says. -/
example (fb : F64Bytes (ops someLibm)) (b' : Build) : ∃ bytes mn n,
    tmfBytes (ops someLibm) fb .wrapping kitPrec [(kit, [65])] = .ok bytes ∧
    readTmf (ops someLibm) fb b' ⟨bytes ++ [], [], false⟩ = .ok [mn] ∧ mn.1.normals = some [n] ∧
    KeptNormal 7 (minusThreeFifths, vZero, fourFifths) n := by
  obtain ⟨bytes, h, hb⟩ := kit_saved fb
  obtain ⟨out, e, hf⟩ := C38_file_partial (b' := b') someLibm_accurate h (kit_limits someLibm_log2 fb) hb
    (show 1 ≤ 7 by decide) [] []
  obtain ⟨mn, rfl, hm⟩ := forall₂_one hf
  obtain ⟨l', hl', hk⟩ := hm _ rfl (fun n hn => by rcases List.mem_singleton.mp hn with rfl; exact ⟨unit_example, fun h => absurd h (by decide)⟩)
  obtain ⟨n, rfl, hk'⟩ := forall₂_one hk
  exact ⟨bytes, mn, n, h, e, hl', hk'⟩

/-- The tangent in the same way. -/
example (fb : F64Bytes (ops someLibm)) (b' : Build) : ∃ bytes mn t,
    tmfBytes (ops someLibm) fb .wrapping kitPrec [(kit, [65])] = .ok bytes ∧
    readTmf (ops someLibm) fb b' ⟨bytes ++ [], [], false⟩ = .ok [mn] ∧ mn.1.tangents = some [t] ∧
    KeptNormal 7 (minusThreeFifths, vZero, fourFifths) t.1 := by
  obtain ⟨bytes, h, hb⟩ := kit_saved fb
  obtain ⟨out, e, hf⟩ := C38_file_tangents_partial (b' := b') someLibm_accurate h (kit_limits someLibm_log2 fb) hb
    (show 1 ≤ 7 by decide) [] []
  obtain ⟨mn, rfl, hm⟩ := forall₂_one hf
  obtain ⟨l', hl', hk⟩ := hm _ rfl (fun t ht => by rcases List.mem_singleton.mp ht with rfl; exact ⟨unit_example, fun h => absurd h (by decide)⟩)
  obtain ⟨t, rfl, hk'⟩ := forall₂_one hk
  exact ⟨bytes, mn, t, h, e, hl', hk'⟩

/-- The custom data comes back as colour and floats, the colour at most a third lower. -/
example (hlog : AccurateLog2 lib) (fb : F64Bytes (ops lib)) (b' : Build) : ∃ bytes mn c f,
    tmfBytes (ops lib) fb .wrapping kitPrec [(kit, [65])] = .ok bytes ∧
    readTmf (ops lib) fb b' ⟨bytes ++ [], [], false⟩ = .ok [mn] ∧ mn.1.customData = [c, f] ∧ c.name = [99] ∧ f.name = [102] ∧
    (∃ r p', c.data = .color [r] p' ∧ StepBelow 2 nine64 r.1) ∧
    ∃ data' p', f.data = .float data' p' ∧
      List.Forall₂ (fun x y => |valueOf x - valueOf y| ≤ 1 / 64) [vOne, nine64, threeHalves] data' := by
  obtain ⟨bytes, h, hb⟩ := kit_saved fb
  obtain ⟨out, e, hf⟩ := C40_file_partial (b' := b') h (kit_limits hlog fb) hb [] []
  obtain ⟨mn, rfl, hm⟩ := forall₂_one hf
  have hm' : List.Forall₂ (fun c c' => c'.name = c.name ∧ KeptCustom lib c.data c'.data)
      [(⟨[99], .color [(nine64, nine64, nine64, nine64)] vQuarter⟩ : CustomSeg (Val b32)),
        ⟨[102], .float [vOne, nine64, threeHalves] (lit 1 2)⟩] mn.1.customData := hm
  generalize hcd : mn.1.customData = cd at hm'
  obtain ⟨c, f, rfl, h1, h2⟩ := forall₂_two hm'
  · refine ⟨bytes, mn, c, f, h, e, hcd, h1.1, h2.1, ?_, ?_⟩
    · have hk := h1.2
      dsimp only at hk
      generalize c.data = d at hk ⊢
      cases hk with
      | color _ data' _ p' _ hk =>
        rw [kit_color hlog] at hk
        obtain ⟨r, rfl, hr⟩ := forall₂_one (hk (by decide) (fun c hc => by
          rcases List.mem_singleton.mp hc with rfl
          exact ⟨storable_nine64 _, storable_nine64 _, storable_nine64 _, storable_nine64 _⟩))
        exact ⟨r, p', rfl, hr.1⟩
    · have hk := h2.2
      dsimp only at hk
      generalize f.data = d at hk ⊢
      cases hk with
      | float _ data' _ p' _ hk =>
        rw [kit_float hlog] at hk
        have hw := hk _ _ extent_example (by norm_num) (by rw [abs_of_nonneg] <;> norm_num) (by rw [abs_of_nonneg] <;> norm_num)
        refine ⟨data', p', rfl, hw.imp fun x y hxy => ?_⟩
        rw [abs_sub_comm]
        refine le_trans (hxy fun h => absurd h (by decide)).2 ?_
        rw [abs_of_nonneg (by norm_num), abs_of_nonneg (by norm_num), max_eq_right (by norm_num)]
        norm_num

theorem turned_mem : ∀ v ∈ turned, v = (vFive, vZero, vZero) ∨ v = (vZero, vOne, vZero) ∨ v = (vZero, vZero, vZero) := by
  intro v hv
  simpa [turned] using hv

/-- The vertices come back near the original: the whole array is one piece, and its first two
vertices are inside its box. -/
example (hlog : AccurateLog2 lib) (fb : F64Bytes (ops lib)) (b' : Build) : ∃ bytes mn u v w,
    tmfBytes (ops lib) fb .wrapping kitPrec [(kit, [65])] = .ok bytes ∧
    readTmf (ops lib) fb b' ⟨bytes ++ [], [], false⟩ = .ok [mn] ∧ mn.1.vertices = some [u, v, w] ∧
    NearVertex turned (6, 6, 6) 5 (vFive, vZero, vZero) u ∧ NearVertex turned (6, 6, 6) 5 (vZero, vOne, vZero) v := by
  obtain ⟨bytes, h, hb⟩ := kit_saved fb
  obtain ⟨out, e, hf⟩ := C37_file_partial (b' := b') h (kit_limits hlog fb) hb [] []
  obtain ⟨mn, rfl, hm⟩ := forall₂_one hf
  obtain ⟨edge, ps, ps', he, hc, _, hv, hk⟩ := hm turned 5 rfl
    (fun v hv => by rcases turned_mem v hv with rfl | rfl | rfl <;> exact ⟨rfl, rfl, rfl⟩)
    (fun v hv => by
      rcases turned_mem v hv with rfl | rfl | rfl <;> simp only [valueOf_vZero, valueOf_vFive, valueOf_vOne] <;> norm_num)
    (by norm_num)
  cases flat_cut kit_flat hc
  have he' : calcShortestEdge (ops lib) (some [0, 1, 2]) (some turned) = .ok edge := he
  rw [turned_edge] at he'
  cases he'
  obtain ⟨p', rfl, hk'⟩ := forall₂_one hk
  obtain ⟨hlen, hbox⟩ := hk'
  obtain ⟨s, hs, hin, hn⟩ := hbox (by simp [turned])
  rw [turned_box] at hs
  cases hs
  rw [show kitPrec.vertex = lit 1 1 from rfl, turned_precs hlog] at hn
  obtain ⟨u, v, w, rfl, h1, h2, _⟩ := forall₂_three hn
  exact ⟨bytes, mn, u, v, w, h, e, hv, h1 (hin _ (by simp [turned])) (.narrow (by decide) (by decide) (by decide) _),
    h2 (hin _ (by simp [turned])) (.narrow (by decide) (by decide) (by decide) _)⟩

/-- The edge of length 5 changes by at most 1. -/
example (hlog : AccurateLog2 lib) (fb : F64Bytes (ops lib)) (b' : Build) : ∃ bytes mn u v w,
    tmfBytes (ops lib) fb .wrapping kitPrec [(kit, [65])] = .ok bytes ∧
    readTmf (ops lib) fb b' ⟨bytes ++ [], [], false⟩ = .ok [mn] ∧ mn.1.vertices = some [u, v, w] ∧ |chord u w - 5| ≤ 1 := by
  obtain ⟨bytes, h, hb⟩ := kit_saved fb
  obtain ⟨t1, t2, t3⟩ := tenth_value
  obtain ⟨out, e, hf⟩ := C54_file_partial (b' := b') hlog h (kit_limits hlog fb) hb t1 (le_trans (by norm_num) t2)
    (le_trans t3 (by norm_num)) [] []
  obtain ⟨mn, rfl, hm⟩ := forall₂_one hf
  obtain ⟨edge, ps, l', he, hc, _, hv, h3, hk⟩ := hm turned [0, 1, 2] 5 rfl rfl
    (fun v hv => by rcases turned_mem v hv with rfl | rfl | rfl <;> exact ⟨rfl, rfl, rfl⟩)
    (fun v hv => by
      rcases turned_mem v hv with rfl | rfl | rfl <;> simp only [valueOf_vZero, valueOf_vFive, valueOf_vOne] <;> norm_num)
    (by norm_num) (by decide) (fun i j h => thin_edges h)
  cases flat_cut kit_flat hc
  have he' : calcShortestEdge (ops lib) (some [0, 1, 2]) (some turned) = .ok edge := he
  rw [turned_edge] at he'
  cases he'
  have hcov : ∀ (i : Nat) a, i < 3 → Inside ⟨vZero, vFive, vZero, vFive, vZero, vZero⟩ a → Covered lib kitPrec.vertex vOne [turned] i a := by
    intro i a hi ha
    refine ⟨[], turned, [], _, rfl, Nat.zero_le _, by simpa [turned] using hi, turned_box, ha, ?_, ?_⟩
    · simp only [valueOf_vZero, valueOf_vFive]; norm_num
    · rw [show kitPrec.vertex = lit 1 1 from rfl, turned_precs hlog]
      exact .narrow (by decide) (by decide) (by decide) a
  match l', h3 with
  | [u, v, w], _ =>
    refine ⟨bytes, mn, u, v, w, h, e, hv, ?_⟩
    have h := hk (by rw [valueOf_vOne]; norm_num) 0 2 (vFive, vZero, vZero) (vZero, vZero, vZero) u w rfl rfl rfl rfl
      (hcov 0 _ (by decide) (by constructor <;> simp only [valueOf_vZero, valueOf_vFive] <;> norm_num))
      (hcov 2 _ (by decide) (by constructor <;> simp only [valueOf_vZero, valueOf_vFive] <;> norm_num))
      1 2 (vZero, vOne, vZero) (vZero, vZero, vZero) ⟨0, 0, 1, 2, rfl, rfl, rfl, .inr (.inl ⟨rfl, rfl⟩)⟩ rfl rfl
    have r0 : realOf vZero = 0 := by rw [realOf, valueOf_vZero]; norm_num
    have r1 : realOf vOne = 1 := by rw [realOf, valueOf_vOne]; norm_num
    have r5 : realOf vFive = 5 := by rw [realOf, valueOf_vFive]; norm_num
    have c1 : chord (vZero, vOne, vZero) (vZero, vZero, vZero) = 1 := by
      rw [chord, length3]
      dsimp only
      rw [r0, r1]
      norm_num
    have c5 : chord (vFive, vZero, vZero) (vZero, vZero, vZero) = 5 := by rw [chord_axis, r0, r5]; norm_num
    rw [c1, c5, show kitPrec.vertex = lit 1 1 from rfl] at h
    refine le_trans h ?_
    have : realOf (lit 1 1 : Val b32) ≤ 1 / 9 := by
      have := (Rat.cast_le (K := ℝ)).mpr t3
      rw [realOf]
      push_cast at this
      exact this
    generalize realOf (lit 1 1 : Val b32) = x at this ⊢
    norm_num
    linarith

end Example

end Tmf.Props
