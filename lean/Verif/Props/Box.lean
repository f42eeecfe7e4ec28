import Verif.Lemmas.Box
import Verif.Props.EndToEnd
/-
C78: vertices and the bounds stored with them.

Every vertex read from a segment lies between the bounds stored in it, and loading a saved mesh moves no
vertex out of the range of the coordinates that were saved. This includes the vertices whose accuracy is
not known (`C65_accurate_partial`): the last of a run, and those at the top of the box.
-/

set_option exponentiation.threshold 2000

namespace Tmf.Props
open Spec Ieee

variable {lib : Libm} {fb : F64Bytes (ops lib)} {prec : PrecisionInfo (Val b32)} {meshes : List (Mesh (Val b32) × List UInt8)}

/-- C78, for a segment of any origin (partial: the widths are not zero, see `C78_violated`). -/
theorem C78_read_partial {data : List UInt8} {l : List (Vec3 (Val b32))} (h : readVertices (ops lib) fb data = .ok l) {M : ℚ} (hM : M ≤ 2 ^ 120)
    (hb : ∀ j < 6, isFinite (boundAt fb data j) = true ∧ |valueOf (boundAt fb data j)| ≤ M) (hw : ∀ j < 3, 1 ≤ widthAt data j) :
    ∀ v ∈ l, Between M (valueOf (boundAt fb data 0)) (valueOf (boundAt fb data 1)) v.1 ∧
      Between M (valueOf (boundAt fb data 2)) (valueOf (boundAt fb data 3)) v.2.1 ∧
      Between M (valueOf (boundAt fb data 4)) (valueOf (boundAt fb data 5)) v.2.2 := by
  rw [readVertices, Outcome.bind_eq_ok] at h
  obtain ⟨⟨⟨n, s, p⟩, rest⟩, h1, h⟩ := h
  dsimp only at h
  rw [Outcome.bind_eq_ok] at h
  obtain ⟨⟨l', r⟩, h2, h⟩ := h
  cases h
  obtain ⟨rfl, rfl, w0, w1, w2⟩ := verticesHeader_inv h1
  have hg : ReadGood (fun l => ∀ v ∈ l, Between M (valueOf (boundAt fb data 0)) (valueOf (boundAt fb data 1)) v.1 ∧
      Between M (valueOf (boundAt fb data 2)) (valueOf (boundAt fb data 3)) v.2.1 ∧
      Between M (valueOf (boundAt fb data 4)) (valueOf (boundAt fb data 5)) v.2.2)
      (readMany (readVertex (ops lib) ⟨boundAt fb data 0, boundAt fb data 1, boundAt fb data 2, boundAt fb data 3, boundAt fb data 4,
        boundAt fb data 5⟩ (widthAt data 0, widthAt data 1, widthAt data 2)) n (.new (.slice rest))) := by
    refine readMany_all (fun r hr => ?_) n (BitReader.inv_new _)
    refine (BitReader.read_lt hr _).bind fun x r hx hr => ?_
    refine (BitReader.read_lt hr _).bind fun y r hy hr => ?_
    refine (BitReader.read_lt hr _).bind fun z r hz hr => ⟨?_, hr⟩
    refine ⟨code_between (hw 0 (by decide)) w0 hx (hb 0 (by decide)).1 (hb 1 (by decide)).1 (hb 0 (by decide)).2 (hb 1 (by decide)).2 hM lib,
      code_between (hw 1 (by decide)) w1 hy (hb 2 (by decide)).1 (hb 3 (by decide)).1 (hb 2 (by decide)).2 (hb 3 (by decide)).2 hM lib,
      code_between (hw 2 (by decide)) w2 hz (hb 4 (by decide)).1 (hb 5 (by decide)).1 (hb 4 (by decide)).2 (hb 5 (by decide)).2 hM lib⟩
  rw [h2] at hg
  exact hg.1

/-- C78, for saved meshes: what is loaded lies in the cube of what was saved. -/
theorem C78_saved (hlog : AccurateLog2 lib) (hmono : MonotoneLog2 lib) (h : Saveable 30 prec meshes) :
    ∃ bytes out, (∀ b, tmfBytes (ops lib) fb b prec meshes = .ok bytes) ∧
      (∀ b' junk sched, readTmf (ops lib) fb b' ⟨bytes ++ junk, sched, false⟩ = .ok out) ∧
      List.Forall₂ (fun mn mn' => ∀ l, mn.1.vertices = some l → ∃ l', mn'.1.vertices = some l' ∧ l'.length = l.length ∧
        ∀ lo hi, (∀ v ∈ l, InCube lo hi v) → ∀ v ∈ l', InCube (lo - (Max.max |lo| |hi| / 2 ^ 20 + 1 / 2 ^ 148))
          (hi + (Max.max |lo| |hi| / 2 ^ 20 + 1 / 2 ^ 148)) v) meshes out := by
  obtain ⟨bytes, out, hb, _, hr, hf⟩ := saveable_loaded (fb := fb) hlog hmono (by decide) (le_refl 30) h
  refine ⟨bytes, out, hb, hr, forall₂_imp hf ?_⟩
  rintro mn hmn mn' ⟨-, edge, he, hm, hcut⟩ l hl
  obtain ⟨qs, hq, hc⟩ := hcut l hl
  obtain ⟨M₀, δ, hs⟩ := (h.mesh mn hmn).vertices l hl
  rw [hl] at he
  refine ⟨loadedVertices (ops lib) .checked prec.vertex edge l, by rw [hm]; simp only [loadedMesh, hl, Option.map_some], ?_, ?_⟩
  · rw [loadedVertices, hq]
    dsimp only
    rw [← hc, List.length_flatMap, List.length_flatten]
    congr 1
    exact List.map_congr_left fun p _ => quantVertices_len prec.vertex edge p
  · intro lo hi hcube v hv
    rw [loadedVertices, hq] at hv
    dsimp only at hv
    obtain ⟨p, hp, hv⟩ := List.mem_flatMap.mp hv
    have hsub := List.sublist_flatten_of_mem hp
    rw [hc] at hsub
    obtain ⟨w, hw⟩ := List.exists_mem_of_ne_nil _ hs.some
    have hw1 := (hcube w hw).2.1
    have hM0 := hs.inner w hw
    have a0 := abs_le.mp hM0.2.1
    have k := quantVertices_cube lib (pr := prec.vertex) (e := edge) (l := p) (lo := Max.max lo (-M₀)) (hi := Min.min hi M₀) ?_ ?_ (fun s hs' => ?_) v hv
    · have l1 : lo ≤ Max.max lo (-M₀) := le_max_left _ _
      have l2 : Max.max lo (-M₀) ≤ hi := max_le (le_trans hw1.1 hw1.2) (le_trans a0.1 hw1.2)
      have l3 : Min.min hi M₀ ≤ hi := min_le_left _ _
      have l4 : lo ≤ Min.min hi M₀ := le_min (le_trans hw1.1 hw1.2) (le_trans hw1.1 a0.2)
      have hm : Max.max |Max.max lo (-M₀)| |Min.min hi M₀| ≤ Max.max |lo| |hi| := max_le (abs_le_max_abs_abs l1 l2) (abs_le_max_abs_abs l4 l3)
      have hm' : Max.max |Max.max lo (-M₀)| |Min.min hi M₀| / 2 ^ 20 ≤ Max.max |lo| |hi| / 2 ^ 20 := div_le_div_of_nonneg_right hm (by norm_num)
      obtain ⟨k0, k1, k2, k3⟩ := k
      exact ⟨k0, ⟨by linarith [k1.1], by linarith [k1.2]⟩, ⟨by linarith [k2.1], by linarith [k2.2]⟩, by linarith [k3.1], by linarith [k3.2]⟩
    · intro x hx
      obtain ⟨c0, c1, c2, c3⟩ := hcube x (hsub.subset hx)
      obtain ⟨-, m1, m2, m3⟩ := hs.inner x (hsub.subset hx)
      rw [abs_le] at m1 m2 m3
      exact ⟨c0, ⟨max_le c1.1 m1.1, le_min c1.2 m1.2⟩, ⟨max_le c2.1 m2.1, le_min c2.2 m2.2⟩, max_le c3.1 m3.1, le_min c3.2 m3.2⟩
    · have b1 : -M₀ ≤ Max.max lo (-M₀) := le_max_right _ _
      have b2 : Max.max lo (-M₀) ≤ M₀ := max_le (le_trans hw1.1 a0.2) (le_trans a0.1 a0.2)
      have b3 : Min.min hi M₀ ≤ M₀ := min_le_right _ _
      have b4 : -M₀ ≤ Min.min hi M₀ := le_min (le_trans a0.1 hw1.2) (le_trans a0.1 a0.2)
      exact le_trans (max_le (abs_le.mpr ⟨b1, b2⟩) (abs_le.mpr ⟨b4, b3⟩)) (le_trans hs.size (by norm_num))
    · obtain ⟨a, b, c⟩ := sensible_widths hlog h.finite h.vertex (by decide) (le_refl 30) hs he (fun v hv => hsub.subset hv) hs'
      omega

/-- A segment of one vertex with the bounds `s` and widths of zero. -/
def bitlessVertices (fb : F64Bytes (ops lib)) (s : VBox (Val b32)) : List UInt8 :=
  leBytes 8 1 ++ f64Bytes fb s.minX ++ f64Bytes fb s.maxX ++ f64Bytes fb s.minY ++ f64Bytes fb s.maxY
    ++ f64Bytes fb s.minZ ++ f64Bytes fb s.maxZ ++ leBytes 1 0 ++ leBytes 1 0 ++ leBytes 1 0 ++ []

theorem nan_add (x y : Val b32) : add (mul (div (ofNat 0) (ofNat 0)) x) y = .nan := by
  rw [show (div (ofNat 0) (ofNat 0) : Val b32) = .nan by decide +kernel]
  cases x <;> cases y <;> rfl

/-- Without bits, the part of the way is 0/0: whatever the bounds, the vertex is NaN. -/
theorem C78_violated (s : VBox (Val b32)) : readVertices (ops lib) fb (bitlessVertices fb s) = .ok [(.nan, .nan, .nan)] := by
  have h : (readVerticesHeader (ops lib) fb).runSlice (bitlessVertices fb s) = .ok ((1, s.reread (ops lib), (0, 0, 0)), []) :=
    readVerticesHeader_ok (fo := ops lib) (fb := fb) (n := 1) (px := 0) (py := 0) (pz := 0) (by decide) (by decide) (by decide) (by decide) s []
  rw [readVertices, h, Outcome.bind_ok]
  dsimp only
  have e : readMany (readVertex (ops lib) (s.reread (ops lib)) (0, 0, 0)) 1 (.new (.slice [])) =
      .ok ([vertexOfCodes (ops lib) (s.reread (ops lib)) (0, 0, 0) (0, 0, 0)], .new (.slice [])) := rfl
  rw [e, Outcome.bind_ok, vertexOfCodes]
  simp only [coordOfCode, ops_add lib, ops_mul lib, ops_div lib, ops_ofNat lib, ops_sub lib]
  rw [show 2 ^ 0 - 1 = 0 from rfl, nan_add, nan_add, nan_add]

/-! ### Examples -/

/-- A segment of another program: one vertex, bounds 0 and 5 for all axes, in 1, 2 and 3 bits. -/
def smallVertices (fb : F64Bytes (ops lib)) : List UInt8 :=
  leBytes 8 1 ++ f64Bytes fb vZero ++ f64Bytes fb vFive ++ f64Bytes fb vZero ++ f64Bytes fb vFive
    ++ f64Bytes fb vZero ++ f64Bytes fb vFive ++ leBytes 1 1 ++ leBytes 1 2 ++ leBytes 1 3 ++ [0xB4]

example : ∃ v : Vec3 (Val b32), readVertices (ops lib) fb (smallVertices fb) = .ok [v] ∧ Between 5 0 5 v.1 ∧ Between 5 0 5 v.2.1 ∧ Between 5 0 5 v.2.2 := by
  have h : (readVerticesHeader (ops lib) fb).runSlice (smallVertices fb) =
      .ok ((1, VBox.reread (ops lib) ⟨vZero, vFive, vZero, vFive, vZero, vFive⟩, (1, 2, 3)), [0xB4]) :=
    readVerticesHeader_ok (fo := ops lib) (fb := fb) (n := 1) (px := 1) (py := 2) (pz := 3) (by decide) (by decide) (by decide) (by decide)
      ⟨vZero, vFive, vZero, vFive, vZero, vFive⟩ [0xB4]
  have hl : ∃ v : Vec3 (Val b32), readVertices (ops lib) fb (smallVertices fb) = .ok [v] := by
    rw [readVertices, h, Outcome.bind_ok]
    exact ⟨_, rfl⟩
  rw [reread_eq lib] at h
  obtain ⟨e1, e2, -⟩ := verticesHeader_inv h
  simp only [VBox.mk.injEq] at e1
  simp only [Prod.mk.injEq] at e2
  obtain ⟨b0, b1, b2, b3, b4, b5⟩ := e1
  obtain ⟨v, hv⟩ := hl
  have k := C78_read_partial hv (M := 5) (by norm_num) ?_ ?_ v List.mem_cons_self
  · rw [← b0, ← b1, ← b2, ← b3, ← b4, ← b5, valueOf_vZero, valueOf_vFive] at k
    exact ⟨v, hv, k⟩
  · have z : isFinite vZero = true ∧ |valueOf vZero| ≤ 5 := ⟨rfl, by rw [valueOf_vZero]; norm_num⟩
    have f : isFinite vFive = true ∧ |valueOf vFive| ≤ 5 := ⟨rfl, by rw [valueOf_vFive]; norm_num⟩
    intro j hj
    interval_cases j
    · rw [← b0]; exact z
    · rw [← b1]; exact f
    · rw [← b2]; exact z
    · rw [← b3]; exact f
    · rw [← b4]; exact z
    · rw [← b5]; exact f
  · intro j hj
    interval_cases j <;> omega

theorem turned_cube : ∀ v ∈ turned, InCube 0 5 v := by
  intro v hv
  rcases turned_mem v hv with rfl | rfl | rfl <;> refine ⟨⟨rfl, rfl, rfl⟩, ?_⟩ <;>
    simp only [valueOf_vZero, valueOf_vFive, valueOf_vOne] <;> norm_num

/-- The three vertices of the kit, with the last one. -/
example (fb : F64Bytes (ops someLibm)) : ∃ bytes mn l, (∀ b, tmfBytes (ops someLibm) fb b kitPrec [(kit, [65])] = .ok bytes) ∧
    (∀ b' junk sched, readTmf (ops someLibm) fb b' ⟨bytes ++ junk, sched, false⟩ = .ok [mn]) ∧
    mn.1.vertices = some l ∧ l.length = 3 ∧ ∀ v ∈ l, InCube (-(1 / 1000)) (5 + 1 / 1000) v := by
  obtain ⟨bytes, out, hb, hr, hf⟩ := C78_saved (fb := fb) someLibm_log2 someLibm_monotone (saveable_mono (by decide) kit_sensible.saveable)
  obtain ⟨mn, rfl, hm⟩ := forall₂_one hf
  obtain ⟨l, hl, hlen, hc⟩ := hm turned rfl
  refine ⟨bytes, mn, l, hb, hr, hl, hlen, fun v hv => ?_⟩
  obtain ⟨h0, h1, h2, h3⟩ := hc 0 5 turned_cube v hv
  norm_num at h1 h2 h3
  exact ⟨h0, ⟨by linarith [h1.1], by linarith [h1.2]⟩, ⟨by linarith [h2.1], by linarith [h2.2]⟩, by linarith [h3.1], by linarith [h3.2]⟩

end Tmf.Props
