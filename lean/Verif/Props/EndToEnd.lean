import Verif.Lemmas.VertexWidth
import Verif.Props.BitCount
import Verif.Props.Builds
import Verif.Props.CustomPrecision
import Verif.Props.FileAccuracy
/-
C65: saving and loading, with conditions on the meshes and settings only.
-/

set_option exponentiation.threshold 2000

namespace Tmf.Props
open Spec Ieee

variable {lib : Libm} {fb : F64Bytes (ops lib)} {prec : PrecisionInfo (Val b32)} {meshes : List (Mesh (Val b32) × List UInt8)}
  {k : Nat}

/-! ### The limits -/

theorem mesh_size (h : 15 + (meshes.map meshSizeBound).sum ≤ 2 ^ 31) {mn : Mesh (Val b32) × List UInt8} (hm : mn ∈ meshes) :
    meshSizeBound mn ≤ 2 ^ 31 := by
  have := List.le_sum_of_mem (List.mem_map_of_mem (f := meshSizeBound) hm)
  omega

theorem count_le {l : List (Mesh (Val b32) × List UInt8)} : 4 * l.length ≤ (l.map meshSizeBound).sum := by
  induction l with
  | nil => simp
  | cons a l ih =>
    rw [List.map_cons, List.sum_cons, List.length_cons]
    have : 4 ≤ meshSizeBound a := by rw [meshSizeBound]; omega
    omega

theorem float_narrow (hlog : AccurateLog2 lib) {l : List (Val b32)} {p : Val b32} {lo hi : ℚ} (he : Extent l lo hi) (hlt : lo < hi)
    (hlo : |lo| ≤ 2 ^ 120) (hhi : |hi| ≤ 2 ^ 120) (hf : isFinite p = true) (h0 : 0 < valueOf p) (hm : (hi - lo) / valueOf p ≤ 2 ^ 23) :
    floatPrec (ops lib) l p ≤ 24 := by
  obtain ⟨h1, h2, h3⟩ := float_bits hlog he hlt hlo hhi hf h0 (le_trans hm (by norm_num))
  by_contra hc
  have h4 := lt_of_lt_of_le (h3 (by omega)) hm
  have : (2 : ℚ) ^ 24 ≤ 2 ^ (floatPrec (ops lib) l p - 1) := pow_le_pow_right₀ (by norm_num) (by omega)
  generalize (2 : ℚ) ^ (floatPrec (ops lib) l p - 1) = P at *
  norm_num at h4 this
  linarith

theorem color_narrow (hlog : AccurateLog2 lib) {p : Val b32} (hf : isFinite p = true) (h0 : 1 / 2 ^ 23 ≤ valueOf p)
    (h1 : valueOf p ≤ 1 / 2) : colorPrec (ops lib) p ≤ 24 := by
  have hpos : 0 < valueOf p := lt_of_lt_of_le (by positivity) h0
  obtain ⟨_, h3⟩ := color_bits hlog hf (le_trans (by norm_num) h0) (by linarith)
  have hq2 : 1 / valueOf p ≤ 2 ^ 23 := by
    rw [div_le_iff₀ hpos]
    have := mul_le_mul_of_nonneg_left h0 (by positivity : (0 : ℚ) ≤ 2 ^ 23)
    norm_num at this ⊢
    linarith
  by_contra hc
  have h4 := lt_of_lt_of_le (h3 (by omega)) hq2
  have : (2 : ℚ) ^ 24 ≤ 2 ^ (colorPrec (ops lib) p - 1) := pow_le_pow_right₀ (by norm_num) (by omega)
  generalize (2 : ℚ) ^ (colorPrec (ops lib) p - 1) = P at *
  norm_num at h4 this
  linarith

theorem custom_fits {c : CustomSeg (Val b32)} (h : SensibleCustom c) (hn : customCount c.data ≤ 2 ^ 31) : CustomFits c := by
  cases h with
  | index name l m h1 hi hm => exact .index name l m h1 hn (fun i h => ⟨hi i h, lt_of_le_of_lt (hi i h) (by omega)⟩) (.inl hm)
  | integer name l m h1 hi hm => exact .integer name l m h1 hn (fun i h => ⟨hi i h, lt_of_le_of_lt (hi i h) (by omega)⟩) (.inl hm)
  | float name l p lo hi h1 => exact .float name l p h1 hn
  | color name l p h1 => exact .color name l p h1 hn

theorem custom_low (hlog : AccurateLog2 lib) {c : CustomSeg (Val b32)} (h : SensibleCustom c) : LowCustom (ops lib) c.data := by
  cases h with
  | index => trivial
  | integer => trivial
  | float name l p lo hi h1 he hlt hlo hhi hf h0 hm => exact le_trans (float_narrow hlog he hlt hlo hhi hf h0 hm) (by decide)
  | color name l p h1 hf h0 hh => exact le_trans (color_narrow hlog hf h0 hh) (by decide)

theorem saveable_fits (h : Saveable k prec meshes) {mn : Mesh (Val b32) × List UInt8} (hm : mn ∈ meshes) : MeshFits prec mn.1 := by
  have hs := mesh_size h.size hm
  obtain ⟨hv, h1, h2, h3, h4, hc, _⟩ := h.mesh mn hm
  have he : 128 * elements mn.1 + customLoad mn.1 ≤ 2 ^ 31 := by
    refine le_trans ?_ hs
    rw [meshSizeBound]
    omega
  have hel : elements mn.1 ≤ 2 ^ 31 := by omega
  have key : ∀ {α : Type} {o : Option (List α)} {l : List α}, o = some l → elementCount o ≤ elements mn.1 → l.length ≤ 2 ^ 31 := by
    intro α o l ho hle
    rw [ho] at hle
    exact le_trans hle hel
  rw [elements] at key
  refine ⟨fun l hl => key hl ?_, fun l hl => key hl ?_, fun l hl => key hl ?_, fun l hl => key hl ?_,
    fun l hl => ⟨key hl ?_, h1 l hl⟩, fun l hl => ⟨key hl ?_, h2 l hl⟩, fun l hl => ⟨key hl ?_, h3 l hl⟩,
    fun l hl => ⟨key hl ?_, h4 l hl⟩, fun c hmem => custom_fits (hc c hmem) ?_, fun _ => ?_, fun _ => ?_⟩
  any_goals omega
  · have := List.le_sum_of_mem (List.mem_map_of_mem (f := fun c : CustomSeg (Val b32) => 128 * customCount c.data + c.name.length) hmem)
    change 128 * customCount c.data + c.name.length ≤ customLoad mn.1 at this
    omega
  · have := h.normal; omega
  · have := h.tangent; omega

theorem sensible_span {P M δ : ℚ} {vs : List (Vec3 (Val b32))} {tris : Option (List Nat)} (h : SensibleVertices k P M δ vs tris) :
    ∀ v ∈ vs, WithinSpan v := by
  intro v hv
  obtain ⟨hf, h1, h2, h3⟩ := h.inner v hv
  have : M ≤ 2 ^ 76 := le_trans h.size (by norm_num)
  exact ⟨hf, le_trans h1 this, le_trans h2 this, le_trans h3 this⟩

/-- The widths of every run of the vertices. -/
theorem sensible_widths (hlog : AccurateLog2 lib) {pr : Val b32} (hf : isFinite pr = true) (hp2 : valueOf pr ≤ 2 ^ 20) {M δ : ℚ}
    {vs : List (Vec3 (Val b32))} {tris : Option (List Nat)} (hk1 : 1 ≤ k) (hk : k ≤ 30)
    (h : SensibleVertices k (valueOf pr) M δ vs tris) {edge : Val b32}
    (he : calcShortestEdge (ops lib) tris (some vs) = .ok edge) {p : List (Vec3 (Val b32))} (hp : ∀ v ∈ p, v ∈ vs) {s : VBox (Val b32)}
    (hs : vertexBox (ops lib) p = .ok s) :
    (s.precs (ops lib) pr edge).1 ≤ k ∧ (s.precs (ops lib) pr edge).2.1 ≤ k ∧ (s.precs (ops lib) pr edge).2.2 ≤ k := by
  obtain ⟨e, he', f1, f2, f3, _⟩ := sensible_edge (lib := lib) h
  rw [he] at he'
  cases he'
  have d0 : 0 < δ := lt_of_lt_of_le (by norm_num) h.least
  have hM0 : 0 ≤ M := by
    obtain ⟨v, hv⟩ := List.exists_mem_of_ne_nil _ h.some
    exact le_trans (abs_nonneg _) (h.inner v hv).2.1
  have p0 : 0 < valueOf pr := by
    by_contra hc
    have h1 := h.bits
    have h2 : 2 ^ k * (δ * valueOf pr) ≤ 0 :=
      mul_nonpos_of_nonneg_of_nonpos (by positivity) (mul_nonpos_of_nonneg_of_nonpos d0.le (not_lt.mp hc))
    have : (0 : ℚ) < 1 / 2 ^ 18 := by norm_num
    linarith
  exact precs_le hlog (fun v hv => h.inner v (hp v hv)) h.size hs f1 hf d0 f2 f3 p0 hp2 hk1 (by omega) h.bits

theorem saveable_widths (hlog : AccurateLog2 lib) (hmono : MonotoneLog2 lib) (hk1 : 1 ≤ k) (hk : k ≤ 30) (h : Saveable k prec meshes)
    {mn : Mesh (Val b32) × List UInt8} (hm : mn ∈ meshes) : WidthsFit (ops lib) prec mn.1 where
  normals := fun _ _ _ => h.normal
  tangents := fun _ _ _ => h.tangent
  uvs := fun _ _ => h.uv
  counts := by
    intro l hl
    obtain ⟨M, δ, hs⟩ := (h.mesh mn hm).vertices l hl
    exact countsFit_moderate hlog hmono (sensible_span hs)
  vertices := by
    intro l hl edge he p hp s hs
    obtain ⟨M, δ, hv⟩ := (h.mesh mn hm).vertices l hl
    rw [hl] at he
    obtain ⟨h1, h2, h3⟩ := sensible_widths hlog h.finite h.vertex hk1 hk hv he (fun v hvp => hp.subset hvp) hs
    exact ⟨by omega, by omega, by omega⟩
  floats := by
    intro c hc l p hd
    have := custom_low hlog ((h.mesh mn hm).custom c hc)
    rw [hd] at this
    exact this
  colors := by
    intro c hc l p hd
    have := custom_low hlog ((h.mesh mn hm).custom c hc)
    rw [hd] at this
    exact this

theorem saveable_saved (hlog : AccurateLog2 lib) (hmono : MonotoneLog2 lib) (hk1 : 1 ≤ k) (hk : k ≤ 30) (h : Saveable k prec meshes) :
    ∃ bytes, ∀ b, tmfBytes (ops lib) fb b prec meshes = .ok bytes := by
  have : ∃ enc, Outcome.mapAll (fun mn : Mesh (Val b32) × List UInt8 => encodeMesh (ops lib) fb .checked prec mn.1) meshes = .ok enc := by
    refine mapAll_exists fun mn hm => ?_
    have hM := h.mesh mn hm
    refine encodeMesh_ok (orderLaws lib) mn.1 ?_ ⟨tenth_exact.1, ?_⟩ ?_ ⟨?_, ?_, ?_, ?_, ?_⟩ (fun _ => saveable_widths hlog hmono hk1 hk h hm)
    · intro hv
      obtain ⟨M, δ, hs⟩ := hM.vertices [] hv
      exact hs.some rfl
    · intro vs t hv ht hne
      obtain ⟨M, δ, hs⟩ := hM.vertices vs hv
      obtain ⟨e, he, hf, _⟩ := sensible_edge (lib := lib) hs
      rw [ht] at he
      have hu := hs.used t ht
      cases t with
      | nil => exact absurd rfl hne
      | cons i t =>
        change (shortestEdgeLoop (ops lib) vs (i :: t) (ops lib).infinity >>= assertFinite (ops lib)) = _ at he
        rw [shortestEdgeLoop_ok _ _ _ _ hu, Outcome.bind_ok] at he
        unfold assertFinite at he
        split at he
        · rename_i hf; exact hf
        · cases he
    · intro vs t hv ht
      obtain ⟨M, δ, hs⟩ := hM.vertices vs hv
      exact hs.used t ht
    · exact fun t ht i hi => lt_trans (hM.vertexTriangles t ht i hi) (by decide)
    · exact fun t ht i hi => lt_trans (hM.normalTriangles t ht i hi) (by decide)
    · exact fun t ht i hi => lt_trans (hM.uvTriangles t ht i hi) (by decide)
    · exact fun t ht i hi => lt_trans (hM.tangentTriangles t ht i hi) (by decide)
    · intro c hc l m hd
      have hsens := hM.custom c hc
      cases hsens with
      | index name l' m' _ _ hm => rcases hd with hd | hd <;> cases hd; omega
      | integer name l' m' _ _ hm => rcases hd with hd | hd <;> cases hd; omega
      | float => rcases hd with hd | hd <;> cases hd
      | color => rcases hd with hd | hd <;> cases hd
  obtain ⟨enc, henc⟩ := this
  have h0 := tmfBytes_of (ops lib) fb .checked prec henc
  exact ⟨_, fun b => by
    cases b with
    | checked => exact h0
    | wrapping => exact C64_bytes h0⟩

theorem saveable_limits (h : Saveable k prec meshes) : LimitsLow (ops lib) fb .checked prec meshes where
  count := by
    have h1 := count_le (l := meshes)
    have h2 := h.size
    omega
  names := h.names
  fits := fun _ hm => saveable_fits h hm
  segments := fun mn hm _ hs =>
    lt_of_le_of_lt (encodeMesh_count (orderLaws lib) (saveable_fits h hm) hs) (h.mesh mn hm).segments
  low := .inl rfl

theorem saveable_size (h : Saveable k prec meshes) {b : Build} {bytes : List UInt8}
    (hb : tmfBytes (ops lib) fb b prec meshes = .ok bytes) : bytes.length ≤ 2 ^ 31 := by
  refine le_trans (C56_linear (orderLaws lib) ⟨?_, ?_, ?_⟩ (fun _ hm => saveable_fits h hm) hb) h.size
  · exact lt_of_le_of_lt h.normal (by decide)
  · exact lt_of_le_of_lt h.uv (by decide)
  · exact lt_of_le_of_lt h.tangent (by decide)

theorem forall₂_unique {α β : Type} {R : α → β → Prop} (hR : ∀ a b c, R a b → R a c → b = c) {l : List α} :
    ∀ {m n : List β}, List.Forall₂ R l m → List.Forall₂ R l n → m = n := by
  induction l with
  | nil => intro m n h1 h2; cases h1; cases h2; rfl
  | cons a l ih =>
    intro m n h1 h2
    cases h1 with
    | cons h1 t1 =>
      cases h2 with
      | cons h2 t2 => rw [hR _ _ _ h1 h2, ih t1 t2]

/-- What is loaded, mesh by mesh. -/
theorem saveable_loaded (hlog : AccurateLog2 lib) (hmono : MonotoneLog2 lib) (hk1 : 1 ≤ k) (hk : k ≤ 30) (h : Saveable k prec meshes) :
    ∃ bytes out, (∀ b, tmfBytes (ops lib) fb b prec meshes = .ok bytes) ∧ bytes.length ≤ 2 ^ 31 ∧
      (∀ b' junk sched, readTmf (ops lib) fb b' ⟨bytes ++ junk, sched, false⟩ = .ok out) ∧
      List.Forall₂ (fun mn mn' => mn'.2 = mn.2 ∧ ∃ edge, calcShortestEdge (ops lib) mn.1.vertexTriangles mn.1.vertices = .ok edge ∧
        mn'.1 = loadedMesh (ops lib) .checked prec edge mn.1 ∧
        ∀ l, mn.1.vertices = some l → ∃ qs, optVertices (ops lib) .checked l = .ok qs ∧ qs.flatten = l) meshes out := by
  obtain ⟨bytes, hb⟩ := saveable_saved (fb := fb) hlog hmono hk1 hk h
  have hlen := saveable_size h (hb .checked)
  have hl := saveable_limits (lib := lib) (fb := fb) h
  obtain ⟨out, _, hf⟩ := readTmf_low (b' := .checked) (hb .checked) hl hlen [] []
  refine ⟨bytes, out, hb, hlen, fun b' junk sched => ?_, hf⟩
  obtain ⟨out', hr, hf'⟩ := readTmf_low (b' := b') (hb .checked) hl hlen junk sched
  rw [hr, forall₂_unique ?_ hf' hf]
  rintro mn x y ⟨n1, e1, c1, m1, _⟩ ⟨n2, e2, c2, m2, _⟩
  rw [c1] at c2
  cases c2
  exact Prod.ext (m1.trans m2.symm) (n1.trans n2.symm)

/-- C65, saving and loading under conditions that can be checked on the meshes and settings: every build
writes the same file, and every build loads the same meshes from it, whatever follows the file and
however it is delivered. Names, index arrays, sizes, handedness and the kinds and names of custom data
come back. -/
theorem C65_saved (hlog : AccurateLog2 lib) (hmono : MonotoneLog2 lib) (h : Saveable 30 prec meshes) :
    ∃ bytes out, (∀ b, tmfBytes (ops lib) fb b prec meshes = .ok bytes) ∧ bytes.length ≤ 2 ^ 31 ∧
      (∀ b' junk sched, readTmf (ops lib) fb b' ⟨bytes ++ junk, sched, false⟩ = .ok out) ∧
      List.Forall₂ (CameBack (ops lib)) meshes out := by
  obtain ⟨bytes, out, hb, hlen, hr, _⟩ := saveable_loaded (fb := fb) hlog hmono (by decide) (le_refl 30) h
  refine ⟨bytes, out, hb, hlen, hr, ?_⟩
  have hl := saveable_limits (lib := lib) (fb := fb) h
  refine cameBack (ops lib) fb prec ⟨?_, ?_, ?_⟩ (hb .checked) ⟨hl.count, hl.names, fun mn hm => ?_, hl.segments⟩ hlen (hr .checked [] [])
  · exact lt_of_le_of_lt h.normal (by decide)
  · exact lt_of_le_of_lt h.uv (by decide)
  · exact lt_of_le_of_lt h.tangent (by decide)
  · obtain ⟨f1, f2, f3, f4, f5, f6, f7, f8, f9, _⟩ := hl.fits mn hm
    exact ⟨f1, f2, f3, f4, f5, f6, f7, f8, f9⟩

/-! ### Accuracy -/

theorem close_custom (hlog : AccurateLog2 lib) (fb : F64Bytes (ops lib)) {c : CustomSeg (Val b32)} (hc : SensibleCustom c)
    (hf : CustomFits c) : CloseCustom c.data (c.data.loaded (ops lib)) := by
  cases hc with
  | index name l m => exact .index l m _
  | integer name l m => exact .integer l m _
  | float name l p lo hi hn he hlt hlo hhi hfp h0 hm =>
    have hlen : l.length ≤ 2 ^ 31 := by cases hf; assumption
    refine .float l _ p _ fun lo' hi' d he' hd => ?_
    have e1 : lo' = lo := by
      obtain ⟨x, hx, rfl⟩ := he.lo_mem
      obtain ⟨y, hy, rfl⟩ := he'.lo_mem
      exact le_antisymm (he'.bounds x hx).1 (he.bounds y hy).1
    have e2 : hi' = hi := by
      obtain ⟨x, hx, rfl⟩ := he.hi_mem
      obtain ⟨y, hy, rfl⟩ := he'.hi_mem
      exact le_antisymm (he.bounds y hy).2 (he'.bounds x hx).2
    subst e1 e2
    obtain ⟨bytes, data', p', hw, hr, hk, _⟩ := C60_float_partial hlog (fb := fb) (b := .wrapping) he hlt hlo hhi hfp h0 hm hlen hd
    obtain ⟨bytes', hw', hr'⟩ := readFloats_saved (fo := ops lib) (fb := fb) (b := .wrapping) (data := l) (prec := p)
      (le_trans (float_narrow hlog he hlt hlo hhi hfp h0 hm) (by decide)) hlen
    rw [hw] at hw'
    cases hw'
    have := hr' []
    rw [List.append_nil, hr, quantFloats] at this
    cases this
    exact hk
  | color name l p hn hfp h0 h1 hu =>
    have hlen : l.length ≤ 2 ^ 31 := by cases hf; assumption
    refine .color l _ p _ fun d hd => ?_
    obtain ⟨bytes, data', p', hw, hr, hk⟩ := C60_color_partial hlog (b := .wrapping) (b' := .wrapping) hfp h0 h1 hlen hu hd
    obtain ⟨bytes', hw', hr'⟩ := readColors_saved (fo := ops lib) (b := .wrapping) (b' := .wrapping) (data := l) (prec := p)
      (le_trans (color_narrow hlog hfp h0 h1) (by decide)) hlen
    rw [hw] at hw'
    cases hw'
    have := hr' []
    rw [List.append_nil, hr, quantColors] at this
    cases this
    exact hk

theorem run_near (hlog : AccurateLog2 lib) {pr e : Val b32} {M : ℚ} {p : List (Vec3 (Val b32))} (hM : ∀ v ∈ p, VecWithin M v)
    (hM2 : M ≤ 2 ^ 58) (he : isFinite e = true) (he1 : 1 / 2 ^ 40 ≤ valueOf e) (he2 : valueOf e ≤ 2 ^ 62) (hp : isFinite pr = true)
    (p1 : 1 / 2 ^ 20 ≤ valueOf pr) (p2 : valueOf pr ≤ 2 ^ 20)
    {k : Nat} (hk : k ≤ 31) (hw : ∀ s, vertexBox (ops lib) p = .ok s → (s.precs (ops lib) pr e).1 ≤ k ∧ (s.precs (ops lib) pr e).2.1 ≤ k) {L : ℝ} (hL : 0 ≤ L)
    (h : realOf e ≤ L + (1 / 2 ^ 20 * L + 1 / 2 ^ 73)) :
    RunNear k M (vertexError (valueOf pr) M L) p (quantVertices (ops lib) pr e p) := by
  refine ⟨quantVertices_len pr e p, ?_⟩
  intro i v v' hv hv'
  obtain ⟨s, hs⟩ : ∃ s, vertexBox (ops lib) p = .ok s := by
    cases p with
    | nil => cases hv
    | cons v p => exact ⟨_, vertexBox_ops lib v p⟩
  obtain ⟨w1, w2⟩ := hw s hs
  have hmem := List.mem_of_getElem? hv
  rw [quantVertices, hs] at hv'
  dsimp only at hv'
  rw [List.getElem?_map, hv, Option.map_some, Option.some.injEq] at hv'
  obtain ⟨k1, k2, k3⟩ := run_step hlog hs hM hM2 he he1 he2 hp p1 p2 hk w1 w2 hmem hv'.symm
  have hle := edgeStep_le (e := e) (pr := pr) (le_trans (abs_nonneg _) (hM v hmem).2.1) (le_trans (by norm_num) p1) p2 hL h
  have cast : ∀ {x y : Val b32}, |valueOf x - valueOf y| ≤ edgeStep (valueOf e * valueOf pr) M →
      |realOf x - realOf y| ≤ vertexError (valueOf pr) M L := by
    intro x y hxy
    refine le_trans ?_ hle
    have := (Rat.cast_le (K := ℝ)).mpr hxy
    push_cast at this
    exact this
  exact ⟨fun ht hr => cast (k1 ht hr), fun ht hr => cast (k2 ht hr), fun ht hz => cast (k3 ht hz)⟩

/-- All but the last vertex of a run are reached. -/
theorem reached_inner {p : List (Vec3 (Val b32))} {i : Nat} {v : Vec3 (Val b32)} (hi : i + 1 < p.length) (hv : p[i]? = some v) :
    XReached p v ∧ YReached p v := by
  have hdrop : v ∈ p.dropLast := by
    refine List.mem_of_getElem? (i := i) ?_
    rw [List.getElem?_dropLast, if_pos (by omega)]
    exact hv
  exact ⟨.inl ⟨v, hdrop, le_refl _⟩, .inl ⟨v, hdrop, le_refl _⟩⟩

/-- How near the vertices come back, run by run. -/
theorem saveable_runs (hlog : AccurateLog2 lib) (hmono : MonotoneLog2 lib) {k : Nat} (hk1 : 1 ≤ k) (hk : k ≤ 30) (hsv : Saveable k prec meshes)
    (p1 : 1 / 2 ^ 20 ≤ valueOf prec.vertex) {mn : Mesh (Val b32) × List UInt8} (hmn : mn ∈ meshes) {edge : Val b32}
    (he : calcShortestEdge (ops lib) mn.1.vertexTriangles mn.1.vertices = .ok edge)
    (hcut : ∀ l, mn.1.vertices = some l → ∃ qs, optVertices (ops lib) .checked l = .ok qs ∧ qs.flatten = l)
    {l : List (Vec3 (Val b32))} (hml : mn.1.vertices = some l) :
    ∃ runs runs', (∀ b, optVertices (ops lib) b l = .ok runs) ∧ Cuts l runs ∧
      (loadedMesh (ops lib) .checked prec edge mn.1).vertices = some runs'.flatten ∧
      ∀ M, (∀ v ∈ l, VecWithin M v) → M ≤ 2 ^ 58 → ∀ L, EdgeLength l mn.1.vertexTriangles L →
        List.Forall₂ (RunNear k M (vertexError (valueOf prec.vertex) M L)) runs runs' := by
  obtain ⟨M₀, δ, hs⟩ := (hsv.mesh mn hmn).vertices l hml
  obtain ⟨qs, hq, hc⟩ := hcut l hml
  obtain ⟨ps, hps, hcuts⟩ := C09_bounded hlog hmono (sensible_span hs)
  have e := hps .checked
  rw [hq] at e
  cases e
  rw [hml] at he
  obtain ⟨e', he', f1, f2, f3, f4⟩ := sensible_edge (lib := lib) hs
  rw [he] at he'
  cases he'
  refine ⟨qs, qs.map (quantVertices (ops lib) prec.vertex edge), hps, hcuts, ?_, ?_⟩
  · simp only [loadedMesh, hml, Option.map_some, loadedVertices, hq, List.flatMap_def]
  intro M hM hM2 L hL
  refine forall₂_map fun p hp => ?_
  have hsub := List.sublist_flatten_of_mem hp
  rw [hc] at hsub
  refine run_near hlog (fun v hv => hM v (hsub.subset hv)) hM2 f1 ?_ f3 hsv.finite p1 hsv.vertex (le_trans hk (by decide)) (fun s hs' => ?_) ?_ (f4 L hL)
  · have := hs.least
    norm_num at this f2 ⊢
    linarith
  · obtain ⟨a, b, _⟩ := sensible_widths hlog hsv.finite hsv.vertex hk1 hk hs he (fun v hv => hsub.subset hv) hs'
    exact ⟨a, b⟩
  · rcases hL with ⟨t, i, j, a, c, _, _, _, _, rfl⟩ | ⟨_, rfl⟩
    · exact Real.sqrt_nonneg _
    · norm_num

/-- C65, accuracy: for sensible meshes and settings, everything comes back with a stated accuracy. The
vertices come back in the runs both builds cut them into; the last vertex of a run can be off where it is outside the box
the code computes (`XReached`, `YReached`, see `C37_violated`), and with 25 bits or more one at the top of the box (`Topped`, see `C37_top_violated`). -/
theorem C65_accurate_partial (hlib : AccurateLibm lib) (hlog : AccurateLog2 lib) (hmono : MonotoneLog2 lib) {k : Nat} (hk1 : 1 ≤ k) (hk : k ≤ 30)
    (h : Sensible k prec meshes) :
    ∃ bytes out, (∀ b, tmfBytes (ops lib) fb b prec meshes = .ok bytes) ∧ bytes.length ≤ 2 ^ 31 ∧
      (∀ b' junk sched, readTmf (ops lib) fb b' ⟨bytes ++ junk, sched, false⟩ = .ok out) ∧
      List.Forall₂ (fun mn mn' => mn'.2 = mn.2 ∧
        Faithful k (fun l runs => ∀ b, optVertices (ops lib) b l = .ok runs) prec mn.1 mn'.1) meshes out := by
  have hsv := h.saveable
  obtain ⟨bytes, out, hb, hlen, hr, hf⟩ := saveable_loaded (fb := fb) hlog hmono hk1 hk hsv
  refine ⟨bytes, out, hb, hlen, hr, forall₂_imp hf ?_⟩
  rintro mn hmn mn' ⟨hname, edge, he, hm, hcut⟩
  refine ⟨hname, ?_⟩
  rw [hm]
  obtain ⟨m1, m2, m3⟩ := h.meaningful mn hmn
  refine ⟨?_, ?_, ?_, ?_, ?_⟩
  · intro l hml
    refine ⟨l.map (quantUv (ops lib) prec.uv), by simp only [loadedMesh, hml, Option.map_some], forall₂_map fun uv huv => ?_⟩
    obtain ⟨h1, h2⟩ := m3 l hml uv huv
    rw [quantUv_unitQ lib h.uv]
    exact ⟨unitQ_stepBelow h.uv (le_trans hsv.uv (by decide)) h1.1 h1.2, unitQ_stepBelow h.uv (le_trans hsv.uv (by decide)) h2.1 h2.2⟩
  · intro l hml
    exact ⟨l.map (quantNormal (ops lib) prec.normal), by simp only [loadedMesh, hml, Option.map_some],
      forall₂_map fun n hn => normal_kept_wide hlib h.normal (le_trans hsv.normal (by decide)) (m1 l hml n hn).1 (m1 l hml n hn).2⟩
  · intro l hml
    exact ⟨l.map (quantTangent (ops lib) prec.tangent), by simp only [loadedMesh, hml, Option.map_some],
      forall₂_map fun t ht => normal_kept_wide hlib h.tangent (le_trans hsv.tangent (by decide)) (m2 l hml t ht).1 (m2 l hml t ht).2⟩
  · show List.Forall₂ _ mn.1.customData.reverse (mn.1.customData.reverse.map (CustomSeg.loaded (ops lib)))
    exact forall₂_map fun c hc => ⟨rfl, close_custom hlog fb ((hsv.mesh mn hmn).custom c (List.mem_reverse.mp hc))
      ((saveable_fits hsv hmn).custom c (List.mem_reverse.mp hc))⟩
  · intro l hml
    exact saveable_runs hlog hmono hk1 hk hsv h.vertex hmn he hcut hml

/-! ### An example -/

section Example

theorem real_zero : realOf vZero = 0 := by rw [realOf, valueOf_vZero]; norm_num
theorem real_one : realOf vOne = 1 := by rw [realOf, valueOf_vOne]; norm_num
theorem real_five : realOf vFive = 5 := by rw [realOf, valueOf_vFive]; norm_num

theorem turned_sensible : SensibleVertices 24 (valueOf (lit 1 1 : Val b32)) 5 (1 / 10) turned (some [0, 1, 2]) where
  some := by simp [turned]
  size := by norm_num
  inner := by
    intro v hv
    rcases turned_mem v hv with rfl | rfl | rfl <;> refine ⟨⟨rfl, rfl, rfl⟩, ?_⟩ <;>
      simp only [valueOf_vZero, valueOf_vFive, valueOf_vOne] <;> norm_num
  least := by norm_num
  most := le_refl _
  whole := by intro t ht _; cases ht; decide
  used := by intro t ht i hi; cases ht; show i < 3; simp only [List.mem_cons, List.not_mem_nil, or_false] at hi; omega
  edges := by
    intro t ht i j a c h ha hc
    cases ht
    rw [chord, length3]
    refine Real.le_sqrt_of_sq_le ?_
    rcases isEdge_cons.mp h with (⟨rfl, rfl⟩ | ⟨rfl, rfl⟩ | ⟨rfl, rfl⟩) | h
    · cases ha; cases hc; simp only [real_zero, real_one, real_five]; norm_num
    · cases ha; cases hc; simp only [real_zero, real_one]; norm_num
    · cases ha; cases hc; simp only [real_zero, real_five]; norm_num
    · exact absurd h (not_isEdge_short (by decide))
  bits := by rw [tenth_exact.2]; norm_num

theorem kit_sensible : Sensible 24 kitPrec [(kit, [65])] where
  saveable :=
    { finite := tenth_exact.1
      vertex := show valueOf (lit 1 1 : Val b32) ≤ _ by rw [tenth_exact.2]; norm_num
      normal := show 7 ≤ 30 by decide
      uv := show 3 ≤ 30 by decide
      tangent := show 7 ≤ 30 by decide
      names := by
        intro mn h
        rcases List.mem_singleton.mp h with rfl
        exact ⟨show 1 < 2 ^ 16 by decide, ⟨['A'], rfl⟩⟩
      mesh := by
        intro mn h
        rcases List.mem_singleton.mp h with rfl
        refine ⟨?_, ?_, ?_, ?_, ?_, ?_, ?_⟩
        · intro l hl
          cases hl
          exact ⟨5, 1 / 10, turned_sensible⟩
        · intro l hl; cases hl; intro i hi; simp only [List.mem_cons, List.not_mem_nil, or_false] at hi; omega
        · intro l hl; cases hl
        · intro l hl; cases hl
        · intro l hl; cases hl
        · intro c hc
          simp only [kit, List.mem_cons, List.not_mem_nil, or_false] at hc
          rcases hc with rfl | rfl
          · refine .float _ _ _ _ _ (by decide) extent_example (by norm_num) (by rw [abs_of_nonneg] <;> norm_num)
              (by rw [abs_of_nonneg] <;> norm_num) lit_hundredth.1 (by rw [lit_hundredth.2]; norm_num) (by rw [lit_hundredth.2]; norm_num)
          · have hu := (storable_nine64 1).1
            refine .color _ _ _ (by decide) rfl ?_ ?_ ?_
            · rw [vQuarter, valueOf_fin, show b32.scale = 149 from rfl]; norm_num [sgn]
            · rw [vQuarter, valueOf_fin, show b32.scale = 149 from rfl]; norm_num [sgn]
            · intro c hc
              rcases List.mem_singleton.mp hc with rfl
              exact ⟨hu, hu, hu, hu⟩
        · norm_num [segmentBound, mostPieces, indexPieces, onePiece, kit, Mesh.empty, turned]
      size := by
        norm_num [meshSizeBound, segmentBound, mostPieces, indexPieces, onePiece, elements, elementCount, customLoad, customCount, kit, Mesh.empty,
          turned] }
  vertex := show _ ≤ valueOf (lit 1 1 : Val b32) by rw [tenth_exact.2]; norm_num
  normal := show 1 ≤ 7 by decide
  uv := show 1 ≤ 3 by decide
  tangent := show 1 ≤ 7 by decide
  meaningful := by
    intro mn h
    rcases List.mem_singleton.mp h with rfl
    refine ⟨?_, ?_, ?_⟩
    · intro l hl; cases hl; intro n hn; rcases List.mem_singleton.mp hn with rfl; exact ⟨unit_example, fun h => absurd h (by decide)⟩
    · intro l hl; cases hl; intro n hn; rcases List.mem_singleton.mp hn with rfl; exact ⟨unit_example, fun h => absurd h (by decide)⟩
    · intro l hl; cases hl; intro n hn; rcases List.mem_singleton.mp hn with rfl; exact ⟨storable_nine64 _, storable_nine64 _⟩

theorem turned_reached : ∀ v ∈ turned, XReached turned v ∧ YReached turned v := by
  intro v hv
  rcases turned_mem v hv with rfl | rfl | rfl
  all_goals
    refine ⟨.inl ⟨(vFive, vZero, vZero), by simp [turned], ?_⟩, .inl ⟨(vFive, vZero, vZero), by simp [turned], ?_⟩⟩ <;>
      simp only [valueOf_vZero, valueOf_vFive, valueOf_vOne] <;> norm_num

theorem turned_covered : ZCovered turned := by
  refine ⟨fun v hv => ⟨(vFive, vZero, vZero), by simp [turned], .inl ?_⟩, fun v hv => (turned_reached v hv).2⟩
  rcases turned_mem v hv with rfl | rfl | rfl <;> simp only [valueOf_vZero, valueOf_vFive, valueOf_vOne] <;> norm_num

def Within3 (l : List ℝ) : Prop := ∀ r ∈ l, |r| ≤ 3 / 10

/-- The kit of `Props/FileAccuracy.lean` saved by any build and loaded by any other: every
coordinate comes back within 3/10 (the precision is 1/10, and an edge has the length 1). -/
example (fb : F64Bytes (ops someLibm)) : ∃ bytes mn u v w, (∀ b, tmfBytes (ops someLibm) fb b kitPrec [(kit, [65])] = .ok bytes) ∧
    (∀ b' junk sched, readTmf (ops someLibm) fb b' ⟨bytes ++ junk, sched, false⟩ = .ok [mn]) ∧ mn.2 = [65] ∧
    mn.1.vertices = some [u, v, w] ∧ Within3 [realOf u.1 - 5, realOf u.2.1, realOf u.2.2, realOf v.1, realOf v.2.1 - 1, realOf v.2.2,
      realOf w.1, realOf w.2.1, realOf w.2.2] := by
  obtain ⟨bytes, out, hb, _, hr, hf⟩ := C65_accurate_partial (fb := fb) someLibm_accurate someLibm_log2 someLibm_monotone (by decide) (by decide) kit_sensible
  obtain ⟨mn, rfl, hn, hm⟩ := forall₂_one hf
  obtain ⟨runs, runs', hcut, _, hv, hk⟩ := hm.vertices turned rfl
  cases flat_cut kit_flat (hcut .checked)
  have h1 := hk 5 turned_sensible.inner (by norm_num) 1 (.inl ⟨[0, 1, 2], 1, 2, _, _, rfl, isEdge_cons.mpr (.inl (.inr (.inl ⟨rfl, rfl⟩))),
    rfl, rfl, by rw [chord, length3]; dsimp only [turned]; rw [real_zero, real_one]; norm_num⟩)
  obtain ⟨p', rfl, hlen, hnear⟩ := forall₂_one h1
  obtain ⟨u, v, w, rfl⟩ : ∃ u v w, p' = [u, v, w] := by
    match p', hlen with
    | [u, v, w], _ => exact ⟨u, v, w, rfl⟩
  have hle : vertexError (valueOf kitPrec.vertex) 5 1 ≤ 3 / 10 := by
    show vertexError (valueOf (lit 1 1 : Val b32)) 5 1 ≤ 3 / 10
    rw [vertexError, tenth_exact.2]
    norm_num
  refine ⟨bytes, mn, u, v, w, hb, hr, hn, by simpa using hv, ?_⟩
  have key : ∀ {i : Nat} {x x' : Vec3 (Val b32)}, turned[i]? = some x → [u, v, w][i]? = some x' →
      |realOf x'.1 - realOf x.1| ≤ 3 / 10 ∧ |realOf x'.2.1 - realOf x.2.1| ≤ 3 / 10 ∧ |realOf x'.2.2 - realOf x.2.2| ≤ 3 / 10 := by
    intro i x x' hx hx'
    obtain ⟨k1, k2, k3⟩ := hnear i x x' hx hx'
    obtain ⟨r1, r2⟩ := turned_reached x (List.mem_of_getElem? hx)
    exact ⟨le_trans (k1 (.inl (le_refl _)) r1) hle, le_trans (k2 (.inl (le_refl _)) r2) hle, le_trans (k3 (.inl (le_refl _)) turned_covered) hle⟩
  have h0 := key (i := 0) rfl rfl
  have h1 := key (i := 1) rfl rfl
  have h2 := key (i := 2) rfl rfl
  simp only [real_zero, real_one, real_five, sub_zero] at h0 h1 h2
  intro r hr
  simp only [List.mem_cons, List.not_mem_nil, or_false] at hr
  rcases hr with rfl | rfl | rfl | rfl | rfl | rfl | rfl | rfl | rfl
  exacts [h0.1, h0.2.1, h0.2.2, h1.1, h1.2.1, h1.2.2, h2.1, h2.2.1, h2.2.2]

/-- The same with a normal that does not lie along an axis. -/
def offKit : Mesh (Val b32) := { kit with normals := some [(vZero, minusThreeFifths, fourFifths)], tangents := none }

/-- 27 bits for normals and uv coordinates. -/
def offPrec : PrecisionInfo (Val b32) := ⟨lit 1 1, 27, 27, 7⟩

theorem offKit_normal : UnitNormal (vZero, minusThreeFifths, fourFifths) ∧ (25 ≤ 27 → OffAxes (vZero, minusThreeFifths, fourFifths)) := by
  obtain ⟨⟨f1, f2, f3⟩, h2, h3⟩ := unit_example
  refine ⟨⟨⟨f2, f1, f3⟩, ?_, h3⟩, fun _ => ⟨?_, ?_⟩⟩
  · rw [AlmostUnit] at h2 ⊢
    rwa [add_comm (valueOf vZero ^ 2)]
  · dsimp only
    rw [valueOf_fourFifths, abs_lt]
    norm_num
  · dsimp only
    rw [valueOf_vZero, abs_zero]
    positivity

theorem off_sensible : Sensible 24 offPrec [(offKit, [65])] where
  saveable :=
    { finite := tenth_exact.1
      vertex := kit_sensible.saveable.vertex
      normal := show 27 ≤ 30 by decide
      uv := show 27 ≤ 30 by decide
      tangent := show 7 ≤ 30 by decide
      names := by
        intro mn h
        rcases List.mem_singleton.mp h with rfl
        exact ⟨show 1 < 2 ^ 16 by decide, ⟨['A'], rfl⟩⟩
      mesh := by
        intro mn h
        rcases List.mem_singleton.mp h with rfl
        obtain ⟨h1, h2, h3, h4, h5, h6, _⟩ := kit_sensible.saveable.mesh (kit, [65]) (List.mem_singleton.mpr rfl)
        exact ⟨h1, h2, h3, h4, h5, h6, by norm_num [segmentBound, mostPieces, indexPieces, onePiece, offKit, kit, Mesh.empty, turned]⟩
      size := by
        norm_num [meshSizeBound, segmentBound, mostPieces, indexPieces, onePiece, elements, elementCount, customLoad, customCount, offKit, kit,
          Mesh.empty, turned] }
  vertex := kit_sensible.vertex
  normal := show 1 ≤ 27 by decide
  uv := show 1 ≤ 27 by decide
  tangent := show 1 ≤ 7 by decide
  meaningful := by
    intro mn h
    rcases List.mem_singleton.mp h with rfl
    refine ⟨?_, ?_, ?_⟩
    · intro l hl
      cases hl
      intro n hn
      rcases List.mem_singleton.mp hn with rfl
      exact offKit_normal
    · intro l hl; cases hl
    · intro l hl; cases hl; intro n hn; rcases List.mem_singleton.mp hn with rfl; exact ⟨storable_nine64 _, storable_nine64 _⟩

/-- With 27 bits, uv and normal come back within one step, as `KeptNormal` says. -/
example (fb : F64Bytes (ops someLibm)) : ∃ bytes mn n uv, (∀ b, tmfBytes (ops someLibm) fb b offPrec [(offKit, [65])] = .ok bytes) ∧
    (∀ b' junk sched, readTmf (ops someLibm) fb b' ⟨bytes ++ junk, sched, false⟩ = .ok [mn]) ∧
    mn.1.normals = some [n] ∧ KeptNormal 27 (vZero, minusThreeFifths, fourFifths) n ∧ mn.1.uvs = some [uv] ∧ StepBelow 27 nine64 uv.1 := by
  obtain ⟨bytes, out, hb, _, hr, hf⟩ := C65_accurate_partial (fb := fb) someLibm_accurate someLibm_log2 someLibm_monotone (by decide) (by decide) off_sensible
  obtain ⟨mn, rfl, _, hm⟩ := forall₂_one hf
  obtain ⟨l, hl, hk⟩ := hm.normals _ rfl
  obtain ⟨n, rfl, hn⟩ := forall₂_one hk
  obtain ⟨l, hu, hk⟩ := hm.uvs _ rfl
  obtain ⟨uv, rfl, hs, _⟩ := forall₂_one hk
  exact ⟨bytes, mn, n, uv, hb, hr, hl, hn, hu, hs⟩

theorem saveable_mono {k k' : Nat} (hk : k ≤ k') (h : Saveable k prec meshes) : Saveable k' prec meshes := by
  refine { h with mesh := fun mn hm => { h.mesh mn hm with vertices := fun l hl => ?_ } }
  obtain ⟨M, δ, hs⟩ := (h.mesh mn hm).vertices l hl
  refine ⟨M, δ, { hs with bits := le_trans hs.bits ?_ }⟩
  have hM0 : 0 ≤ M := by
    obtain ⟨v, hv⟩ := List.exists_mem_of_ne_nil _ hs.some
    exact le_trans (abs_nonneg _) (hs.inner v hv).2.1
  have : 0 ≤ δ * valueOf prec.vertex := by
    refine (mul_nonneg_iff_of_pos_left (c := (2 : ℚ) ^ k) (by positivity)).mp ?_
    exact le_trans (by positivity) hs.bits
  exact mul_le_mul_of_nonneg_right (pow_le_pow_right₀ (by norm_num) hk) this

/-- A vertex precision of `2^-19`, for which the coordinates of `turned` take 25 bits or more. -/
def finePrec : PrecisionInfo (Val b32) := ⟨.fin false (2 ^ 130) (by decide +kernel), 7, 3, 7⟩

theorem valueOf_fine : valueOf finePrec.vertex = 1 / 2 ^ 19 := by
  rw [finePrec, valueOf_pos, show b32.scale = 149 from rfl]
  norm_num

theorem fine_sensible : Sensible 27 finePrec [(kit, [65])] where
  saveable :=
    { kit_sensible.saveable with
      finite := rfl
      vertex := by rw [valueOf_fine]; norm_num
      mesh := by
        intro mn h
        obtain ⟨_, h2, h3, h4, h5, h6, h7⟩ := kit_sensible.saveable.mesh mn h
        refine ⟨fun l hl => ?_, h2, h3, h4, h5, h6, h7⟩
        rcases List.mem_singleton.mp h with rfl
        cases hl
        exact ⟨5, 1 / 10, { turned_sensible with bits := by rw [valueOf_fine]; norm_num }⟩ }
  vertex := by rw [valueOf_fine]; norm_num
  normal := kit_sensible.normal
  uv := kit_sensible.uv
  tangent := kit_sensible.tangent
  meaningful := fun mn h => ⟨(kit_sensible.meaningful mn h).normals, (kit_sensible.meaningful mn h).tangents, (kit_sensible.meaningful mn h).uvs⟩

/-- With up to 27 bits, the second vertex, (0, 1, 0), keeps its x, because the first one is further out. -/
example (fb : F64Bytes (ops someLibm)) : ∃ bytes mn u v w, (∀ b, tmfBytes (ops someLibm) fb b finePrec [(kit, [65])] = .ok bytes) ∧
    (∀ b' junk sched, readTmf (ops someLibm) fb b' ⟨bytes ++ junk, sched, false⟩ = .ok [mn]) ∧
    mn.1.vertices = some [u, v, w] ∧ |realOf v.1| ≤ 1 / 10000 := by
  obtain ⟨bytes, out, hb, _, hr, hf⟩ := C65_accurate_partial (fb := fb) someLibm_accurate someLibm_log2 someLibm_monotone (by decide) (by decide)
    fine_sensible
  obtain ⟨mn, rfl, hn, hm⟩ := forall₂_one hf
  obtain ⟨runs, runs', hcut, _, hv, hk⟩ := hm.vertices turned rfl
  cases flat_cut kit_flat (hcut .checked)
  have h1 := hk 5 turned_sensible.inner (by norm_num) 1 (.inl ⟨[0, 1, 2], 1, 2, _, _, rfl, isEdge_cons.mpr (.inl (.inr (.inl ⟨rfl, rfl⟩))),
    rfl, rfl, by rw [chord, length3]; dsimp only [turned]; rw [real_zero, real_one]; norm_num⟩)
  obtain ⟨p', rfl, hlen, hnear⟩ := forall₂_one h1
  obtain ⟨u, v, w, rfl⟩ : ∃ u v w, p' = [u, v, w] := by
    match p', hlen with
    | [u, v, w], _ => exact ⟨u, v, w, rfl⟩
  have h2 := (hnear 1 _ v rfl rfl).1 (.inr ⟨(vFive, vZero, vZero), by simp [turned], by
    dsimp only; rw [valueOf_vZero, valueOf_vFive]; norm_num⟩) (reached_inner (i := 1) (by decide) rfl).1
  rw [real_zero, sub_zero] at h2
  refine ⟨bytes, mn, u, v, w, hb, hr, by simpa using hv, le_trans h2 ?_⟩
  rw [vertexError, valueOf_fine]
  norm_num

/-- The same mesh comes back as `C65_saved` says. -/
example (fb : F64Bytes (ops someLibm)) : ∃ bytes mn, (∀ b, tmfBytes (ops someLibm) fb b kitPrec [(kit, [65])] = .ok bytes) ∧
    (∀ b' junk sched, readTmf (ops someLibm) fb b' ⟨bytes ++ junk, sched, false⟩ = .ok [mn]) ∧ mn.2 = [65] ∧
    mn.1.vertexTriangles = some [0, 1, 2] := by
  obtain ⟨bytes, out, hb, _, hr, hf⟩ := C65_saved (fb := fb) someLibm_log2 someLibm_monotone (saveable_mono (by decide) kit_sensible.saveable)
  obtain ⟨mn, rfl, hm⟩ := forall₂_one hf
  exact ⟨bytes, mn, hb, hr, hm.name, hm.indices.vertex⟩

end Example

end Tmf.Props
