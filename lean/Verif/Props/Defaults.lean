import Verif.Lemmas.DefaultNormal
import Verif.Props.Edges
import Verif.Props.EndToEnd
import Verif.Props.NormalAngle
import Verif.Spec.Defaults
/-
C91: the default settings.
-/

namespace Tmf.Props
open Spec Ieee

variable {lib : Libm} {fb : F64Bytes (ops lib)} {meshes : List (Mesh (Val b32) × List UInt8)} {k : Nat}

/-- C91: the default settings are an edge precision of (the f32 nearest to) 0.1, seven bits for each number of a normal or tangent, and 14
bits for each uv coordinate. -/
theorem C91_bits (hlog : AccurateLog2 lib) : PrecisionInfo.default (ops lib) = ⟨lit 1 1, 7, 14, 7⟩ := by
  have h7 : normalPrecFromDeg (ops lib) (ops lib).one = 7 := by
    have h : bitsFor lib (div (lit 90 0) oneV) = 7 := by rw [bits_clear hlog] <;> decide +kernel
    show Nat.max (bitsFor lib (div (lit 90 0) oneV)) 1 = 7
    rw [h]
    rfl
  have h14 : uvPrecFromTexture (ops lib) ((ops lib).lit 1024 0) ((ops lib).lit 1 1) = 14 := by
    show bitsFor lib (div (lit 1024 0) (lit 1 1)) = 14
    rw [bits_clear hlog] <;> decide +kernel
  rw [PrecisionInfo.default, h7, h14]

example : PrecisionInfo.default (ops someLibm) = ⟨lit 1 1, 7, 14, 7⟩ := C91_bits someLibm_log2

theorem forall₂_both {α β : Type} {P Q : α → β → Prop} {l : List α} {l' : List β} (h : List.Forall₂ P l l') (h' : List.Forall₂ Q l l') :
    List.Forall₂ (fun a b => P a b ∧ Q a b) l l' := by
  induction h with
  | nil => exact .nil
  | cons h _ ih =>
    cases h' with
    | cons h' ht => exact .cons ⟨h, h'⟩ (ih ht)

theorem tenth_pixel {x y : Val b32} (h : StepBelow 14 x y) : TenthPixel x y := by
  obtain ⟨_, h1, h2⟩ := h
  have a1 := (Rat.cast_le (K := ℝ)).mpr h1
  have a2 := (Rat.cast_lt (K := ℝ)).mpr h2
  push_cast at a2
  rw [TenthPixel, realOf, realOf, abs_of_nonneg (by linarith)]
  norm_num at a2
  linarith

theorem degree_kept (hlib : AccurateLibm lib) {n : Vec3 (Val b32)} (hu : UnitNormal n) : DegreeKept n (quantNormal (ops lib) 7 n) := by
  have hk := normal_kept_wide hlib (p := 7) (by decide) (by decide) hu fun h => absurd h (by decide)
  refine ⟨normal_high (by decide) hu hk, fun hz => ?_⟩
  rw [degrees, one_mul]
  exact normal_low hlib (by decide) (by decide) hu hz hk.unit

/-- C91: meshes saved with the default settings by any build and loaded by any other. The uv coordinates come back as documented. Normals
and tangents come back within a degree away from the poles of the z axis, and within 7.5 degrees elsewhere. Vertices come back
within 0.2001 times any edge (and the rounding of large coordinates), except for the last one of a run outside the
computed box. -/
theorem C91_file_partial (hlib : AccurateLibm lib) (hlog : AccurateLog2 lib) (hmono : MonotoneLog2 lib) (hk1 : 1 ≤ k) (hk : k ≤ 30)
    (h : Sensible k (PrecisionInfo.default (ops lib)) meshes) :
    ∃ bytes out, (∀ b, tmfBytes (ops lib) fb b (.default (ops lib)) meshes = .ok bytes) ∧ bytes.length ≤ 2 ^ 31 ∧
      (∀ b' junk sched, readTmf (ops lib) fb b' ⟨bytes ++ junk, sched, false⟩ = .ok out) ∧
      List.Forall₂ (fun mn mn' => mn'.2 = mn.2 ∧ DefaultKept k (fun l runs => ∀ b, optVertices (ops lib) b l = .ok runs) mn.1 mn'.1)
        meshes out := by
  obtain ⟨bytes, out, hb, hlen, hr, hf⟩ := C65_accurate_partial (fb := fb) hlib hlog hmono hk1 hk h
  obtain ⟨bytes', out', hb', _, hr', hf'⟩ := saveable_loaded (fb := fb) hlog hmono hk1 hk h.saveable
  have e := hb .checked
  rw [hb' .checked] at e
  cases e
  have e := hr .checked [] []
  rw [hr' .checked [] []] at e
  cases e
  refine ⟨bytes, out, hb, hlen, hr, forall₂_imp (forall₂_both hf hf') ?_⟩
  rintro mn hmn mn' ⟨⟨hname, hfaith⟩, _, edge, _, hm, _⟩
  obtain ⟨m1, m2, _⟩ := h.meaningful mn hmn
  have hd := C91_bits hlog
  refine ⟨hname, ?_, ?_, ?_, ?_⟩
  · intro l hl
    obtain ⟨l', hl', hu⟩ := hfaith.uvs l hl
    rw [hd] at hu
    exact ⟨l', hl', forall₂_imp hu fun uv _ uv' huv => ⟨tenth_pixel huv.1, tenth_pixel huv.2⟩⟩
  · intro l hl
    refine ⟨l.map (quantNormal (ops lib) 7), by rw [hm, hd]; simp only [loadedMesh, hl, Option.map_some], forall₂_map fun n hn => ?_⟩
    exact degree_kept hlib (m1 l hl n hn).1
  · intro l hl
    refine ⟨l.map (quantTangent (ops lib) 7), by rw [hm, hd]; simp only [loadedMesh, hl, Option.map_some], forall₂_map fun n hn => ?_⟩
    exact degree_kept hlib (m2 l hl n hn).1
  · intro l hl
    obtain ⟨runs, runs', hc, hcut, hv, hnear⟩ := hfaith.vertices l hl
    refine ⟨runs, runs', hc, hcut, hv, fun M hM hM2 L hL => ?_⟩
    have hL0 : 0 ≤ L := by
      rcases hL with ⟨t, i, j, a, c, _, _, _, _, rfl⟩ | ⟨_, rfl⟩
      · exact Real.sqrt_nonneg _
      · norm_num
    have hle : vertexError (valueOf (PrecisionInfo.default (ops lib)).vertex) M L ≤ 2001 / 10000 * L + 2 / 10 ^ 6 + M / 2 ^ 18 := by
      rw [hd]
      show vertexError (valueOf (lit 1 1 : Val b32)) M L ≤ _
      rw [vertexError, tenth_exact.2]
      push_cast
      generalize ((M : ℚ) : ℝ) = m
      norm_num
      linarith
    refine forall₂_imp (hnear M hM hM2 L hL) fun p _ p' hp => ⟨hp.1, fun i v v' hv hv' => ?_⟩
    obtain ⟨k1, k2, k3⟩ := hp.2 i v v' hv hv'
    exact ⟨fun a b => (k1 a b).trans hle, fun a b => (k2 a b).trans hle, fun a b => (k3 a b).trans hle⟩

theorem kit_default : Sensible 24 (PrecisionInfo.default (ops someLibm)) [(kit, [65])] := by
  rw [C91_bits someLibm_log2]
  have h := kit_sensible
  exact
    { saveable :=
        { finite := h.saveable.finite
          vertex := h.saveable.vertex
          normal := show 7 ≤ 30 by decide
          uv := show 14 ≤ 30 by decide
          tangent := show 7 ≤ 30 by decide
          names := h.saveable.names
          mesh := h.saveable.mesh
          size := h.saveable.size }
      vertex := h.vertex
      normal := show 1 ≤ 7 by decide
      uv := show 1 ≤ 14 by decide
      tangent := show 1 ≤ 7 by decide
      meaningful := by
        intro mn hmn
        rcases List.mem_singleton.mp hmn with rfl
        refine ⟨(h.meaningful _ hmn).1, (h.meaningful _ hmn).2, ?_⟩
        intro l hl; cases hl; intro n hn; rcases List.mem_singleton.mp hn with rfl; exact ⟨storable_nine64 _, storable_nine64 _⟩ }

example (fb : F64Bytes (ops someLibm)) : ∃ bytes mn l, (∀ b, tmfBytes (ops someLibm) fb b (.default (ops someLibm)) [(kit, [65])] = .ok bytes) ∧
    (∀ b' junk sched, readTmf (ops someLibm) fb b' ⟨bytes ++ junk, sched, false⟩ = .ok [mn]) ∧ mn.1.uvs = some l ∧ l.length = 1 := by
  obtain ⟨bytes, out, hb, _, hr, hf⟩ := C91_file_partial (fb := fb) someLibm_accurate someLibm_log2 someLibm_monotone (by decide) (by decide) kit_default
  obtain ⟨mn, rfl, _, hm⟩ := forall₂_one hf
  obtain ⟨l, hl, hk⟩ := hm.uvs _ rfl
  exact ⟨bytes, mn, l, hb, hr, hl, hk.length_eq.symm⟩

/-- C91 fails for normals near the poles: with the default settings a unit normal comes back more than six degrees off. -/
theorem C91_normals_violated (hlog : AccurateLog2 lib) (h1 : lib.asin zeroV = zeroV) (h2 : lib.sin zeroV = zeroV) (h3 : lib.cos zeroV = oneV)
    {b : Build} :
    ∃ n w bytes, UnitNormal n ∧ saveNormals (ops lib) b [n] (PrecisionInfo.default (ops lib)).normal = .ok bytes ∧
      readNormals (ops lib) bytes = .ok [w] ∧ ¬ AngleAtMost (degrees 6) n w :=
  C38_angle_violated hlog h1 h2 h3

example : ∃ n w bytes, UnitNormal n ∧ saveNormals (ops someLibm) .checked [n] (PrecisionInfo.default (ops someLibm)).normal = .ok bytes ∧
    readNormals (ops someLibm) bytes = .ok [w] ∧ ¬ AngleAtMost (degrees 6) n w := by
  have h : zeroV ≠ halfPi32 := by decide +kernel
  exact C91_normals_violated someLibm_log2 (by simp [someLibm]) (by simp [someLibm]) (by simp [someLibm, h])

/-- C91 fails for edges: with the default settings, an edge of length 5 comes back shorter than 1 (the promise is 10 %). -/
theorem C91_edges_violated (hlog : AccurateLog2 lib) {b : Build} :
    ∃ l e bytes u v w u' v' w', l = [u, v, w] ∧ calcShortestEdge (ops lib) (some [0, 1, 2]) (some l) = .ok e ∧ realOf e = 1 ∧
      chord w u = 5 ∧ saveVertices (ops lib) fb b l (PrecisionInfo.default (ops lib)).vertex e = .ok bytes ∧
      readVertices (ops lib) fb bytes = .ok [u', v', w'] ∧ chord w' u' < 1 := by
  obtain ⟨a, c, bytes, u, v, w, hs, hr, hlt⟩ := C54_violated (fb := fb) (b := b) hlog
  exact ⟨thin, vOne, bytes, _, _, _, u, v, w, rfl, a, real_one, c, hs, hr, hlt⟩

end Tmf.Props
