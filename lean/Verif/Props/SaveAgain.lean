import Verif.Props.VertexDrift
import Verif.Lemmas.DriftBound
import Verif.Spec.SaveAgain
/-
C94: saving a mesh that was loaded.
-/

set_option exponentiation.threshold 2000

namespace Tmf.Props
open Spec Ieee

variable {lib : Libm} {fb : F64Bytes (ops lib)}

/-! ### A triangle that cannot be saved twice -/

/-- 43/8. -/
def vEnd : Val b32 := .fin false (43 * 2 ^ 146) (by decide +kernel)
theorem valueOf_vEnd : valueOf vEnd = 43 / 8 := by
  rw [vEnd, valueOf_pos, show b32.scale = 149 from rfl]; norm_num
theorem real_end : realOf vEnd = 43 / 8 := by rw [realOf, valueOf_vEnd]; norm_num

/-- The triangle `(0,0,0), (0,1,0), (5.375,0,0)`. -/
def trap : List (Vec3 (Val b32)) := [(vZero, vZero, vZero), (vZero, vOne, vZero), (vEnd, vZero, vZero)]

/-- The y that comes back for 1. -/
def trapY : Val b32 := .fin false (3936321 * 2 ^ 127) (by decide +kernel)
theorem valueOf_trapY : valueOf trapY = 3936321 / 2 ^ 22 := by
  rw [trapY, valueOf_pos, show b32.scale = 149 from rfl]; norm_num

/-- What comes back: the first and the last vertex are the same. -/
def trapped : List (Vec3 (Val b32)) := [(vZero, vZero, vZero), (vZero, trapY, vZero), (vZero, vZero, vZero)]

theorem trap_min : Ieee.min (distV (vZero, vZero, vZero) (vZero, vOne, vZero))
    (Ieee.min (distV (vZero, vOne, vZero) (vEnd, vZero, vZero)) (distV (vEnd, vZero, vZero) (vZero, vZero, vZero))) = vOne := by
  decide +kernel

theorem trap_edge : calcShortestEdge (ops lib) (some [0, 1, 2]) (some trap) = .ok vOne := by
  rw [calcShortestEdge]
  · show (shortestEdgeLoop (ops lib) trap [0, 1, 2] (.inf false) >>= assertFinite (ops lib)) = _
    rw [loop_cons (a := (vZero, vZero, vZero)) (b := (vZero, vOne, vZero)) (c := (vEnd, vZero, vZero)) rfl rfl rfl, trap_min,
      min_inf rfl]
    rfl
  · simp

theorem trapped_min : Ieee.min (distV (vZero, vZero, vZero) (vZero, trapY, vZero))
    (Ieee.min (distV (vZero, trapY, vZero) (vZero, vZero, vZero)) (distV (vZero, vZero, vZero) (vZero, vZero, vZero))) = vZero := by
  decide +kernel

theorem trapped_edge : calcShortestEdge (ops lib) (some [0, 1, 2]) (some trapped) = .ok vZero := by
  rw [calcShortestEdge]
  · show (shortestEdgeLoop (ops lib) trapped [0, 1, 2] (.inf false) >>= assertFinite (ops lib)) = _
    rw [loop_cons (a := (vZero, vZero, vZero)) (b := (vZero, trapY, vZero)) (c := (vZero, vZero, vZero)) rfl rfl rfl, trapped_min,
      min_inf rfl]
    rfl
  · simp

theorem trap_box : boxOf (vZero, vZero, vZero) [(vZero, vOne, vZero), (vEnd, vZero, vZero)] =
    ⟨vZero, vOne, vZero, vEnd, vZero, vZero⟩ := by decide +kernel

theorem trapped_box : boxOf (vZero, vZero, vZero) [(vZero, trapY, vZero), (vZero, vZero, vZero)] =
    ⟨vZero, trapY, vZero, trapY, vZero, vZero⟩ := by decide +kernel

theorem trap_bits (hlog : AccurateLog2 lib) :
    vertexBits lib ⟨vZero, vOne, vZero, vEnd, vZero, vZero⟩ (lit 1 1) vOne = (4, 6, 6) := by
  rw [vertexBits, bits_clear hlog, bits_clear hlog] <;> decide +kernel

theorem trapped_bits (hlog : AccurateLog2 lib) :
    vertexBits lib ⟨vZero, trapY, vZero, trapY, vZero, vZero⟩ (lit 1 1) vZero = (255, 255, 255) := by
  rw [vertexBits, bits_clear hlog] <;> decide +kernel

theorem trap_codes : coordQ 4 vZero vOne vZero = vZero ∧ coordQ 4 vZero vOne vEnd = vZero ∧ coordQ 6 vZero vEnd vZero = vZero ∧
    coordQ 6 vZero vEnd vOne = trapY ∧ coordQ 6 vZero vZero vZero = vZero := by decide +kernel

theorem trap_step (hlog : AccurateLog2 lib) : quantVertices (ops lib) (lit 1 1) vOne trap = trapped := by
  rw [trap, quantVertices, vertexBox_ops, trap_box]
  dsimp only
  rw [precs_ops lib, trap_bits hlog, List.map_cons, List.map_cons, List.map_cons, List.map_nil, quantVertex_ops lib, quantVertex_ops lib,
    quantVertex_ops lib]
  dsimp only
  obtain ⟨c1, c2, c3, c4, c5⟩ := trap_codes
  rw [c1, c2, c3, c4, c5, trapped]

/-- The mesh of one triangle with these vertices. -/
def triangleOf (l : List (Vec3 (Val b32))) : Mesh (Val b32) := { Mesh.empty with vertices := some l, vertexTriangles := some [0, 1, 2] }

theorem trap_mem (v : Vec3 (Val b32)) (h : v ∈ trap) : v = (vZero, vZero, vZero) ∨ v = (vZero, vOne, vZero) ∨ v = (vEnd, vZero, vZero) := by
  simpa [trap] using h

theorem trap_sensible : SensibleVertices 24 (valueOf (lit 1 1 : Val b32)) 6 (1 / 10) trap (some [0, 1, 2]) where
  some := by simp [trap]
  size := by norm_num
  inner := by
    intro v hv
    rcases trap_mem v hv with rfl | rfl | rfl <;> refine ⟨⟨rfl, rfl, rfl⟩, ?_⟩ <;>
      simp only [valueOf_vZero, valueOf_vEnd, valueOf_vOne] <;> norm_num [abs_of_pos]
  least := by norm_num
  most := le_refl _
  whole := by intro t ht _; cases ht; decide
  used := by intro t ht i hi; cases ht; show i < 3; simp only [List.mem_cons, List.not_mem_nil, or_false] at hi; omega
  edges := by
    intro t ht i j a c h ha hc
    cases ht
    rw [chord, length3]
    refine Real.le_sqrt_of_sq_le ?_
    rcases isEdge_cons.mp h with (⟨rfl, rfl⟩ | ⟨rfl, rfl⟩ | ⟨rfl, rfl⟩) | h
    · cases ha; cases hc; simp only [real_zero, real_one]; norm_num
    · cases ha; cases hc; simp only [real_zero, real_one, real_end]; norm_num
    · cases ha; cases hc; simp only [real_zero, real_end]; norm_num
    · exact absurd h (not_isEdge_short (by decide))
  bits := by rw [tenth_exact.2]; norm_num

theorem trap_saveable : Saveable 24 creepPrec [(triangleOf trap, [65])] where
  finite := tenth_exact.1
  vertex := show valueOf (lit 1 1 : Val b32) ≤ _ by rw [tenth_exact.2]; norm_num
  normal := show 7 ≤ 30 by decide
  uv := show 14 ≤ 30 by decide
  tangent := show 7 ≤ 30 by decide
  names := by
    intro mn h
    rcases List.mem_singleton.mp h with rfl
    exact ⟨show 1 < 2 ^ 16 by decide, ⟨['A'], rfl⟩⟩
  mesh := by
    intro mn h
    rcases List.mem_singleton.mp h with rfl
    refine ⟨?_, ?_, ?_, ?_, ?_, ?_, ?_⟩
    · intro l hl; cases hl; exact ⟨6, 1 / 10, trap_sensible⟩
    · intro l hl; cases hl; intro i hi; simp only [List.mem_cons, List.not_mem_nil, or_false] at hi; omega
    · intro l hl; cases hl
    · intro l hl; cases hl
    · intro l hl; cases hl
    · intro c hc; cases hc
    · norm_num [segmentBound, mostPieces, indexPieces, onePiece, triangleOf, Mesh.empty, trap]
  size := by
    norm_num [meshSizeBound, segmentBound, mostPieces, indexPieces, onePiece, elements, elementCount, customLoad, customCount, triangleOf, Mesh.empty,
      trap]

theorem trap_flat : ∀ v ∈ trap, v.2.2 = vZero := by
  intro v hv
  rcases trap_mem v hv with rfl | rfl | rfl <;> rfl

theorem trapped_flat : ∀ v ∈ trapped, v.2.2 = vZero := by
  intro v hv
  simp only [trapped, List.mem_cons, List.not_mem_nil, or_false] at hv
  rcases hv with rfl | rfl | rfl <;> rfl

theorem trapped_span : ∀ v ∈ trapped, WithinSpan v := by
  intro v hv
  simp only [trapped, List.mem_cons, List.not_mem_nil, or_false] at hv
  rcases hv with rfl | rfl | rfl <;> refine ⟨⟨rfl, rfl, rfl⟩, ?_⟩ <;> simp only [valueOf_vZero, valueOf_trapY] <;> norm_num [abs_of_pos]

theorem trap_cycle (hlog : AccurateLog2 lib) (hmono : MonotoneLog2 lib) (b b' : Build) :
    FileCycle (ops lib) fb b b' creepPrec [(triangleOf trap, [65])] [(triangleOf trapped, [65])] := by
  obtain ⟨bytes, out, hb, -, hr, hf⟩ := saveable_loaded (fb := fb) hlog hmono (by decide) (by decide) trap_saveable
  obtain ⟨mn, rfl, hn, edge, he, hm, hcut⟩ := forall₂_one hf
  have he' : calcShortestEdge (ops lib) (some [0, 1, 2]) (some trap) = .ok edge := he
  rw [trap_edge] at he'
  cases he'
  obtain ⟨qs, hq, -⟩ := hcut trap rfl
  cases flat_cut trap_flat hq
  have hv : loadedVertices (ops lib) .checked (lit 1 1) vOne trap = trapped := by
    rw [loadedVertices, hq]
    dsimp only
    rw [List.flatMap_cons, List.flatMap_nil, List.append_nil, trap_step hlog]
  have hl : mn = (triangleOf trapped, [65]) := by
    refine Prod.ext ?_ hn
    rw [hm]
    show ({ Mesh.empty with vertices := some (loadedVertices (ops lib) .checked (lit 1 1) vOne trap), vertexTriangles := some [0, 1, 2] } :
      Mesh (Val b32)) = _
    rw [hv, triangleOf]
  subst hl
  exact ⟨bytes, hb b, fun sched => by simpa using hr b' [] sched⟩

theorem trapped_fits : MeshFits creepPrec (triangleOf trapped) := by
  refine ⟨?_, ?_, ?_, ?_, ?_, ?_, ?_, ?_, ?_, ?_, ?_⟩
  · intro l hl; cases hl; show 3 ≤ 2 ^ 31; decide
  · intro l hl; cases hl
  · intro l hl; cases hl
  · intro l hl; cases hl
  · intro l hl; cases hl; exact ⟨by decide, by decide⟩
  · intro l hl; cases hl
  · intro l hl; cases hl
  · intro l hl; cases hl
  · intro c hc; cases hc
  · intro h; cases h
  · intro h; cases h

theorem trapped_stuck (hlog : AccurateLog2 lib) (hmono : MonotoneLog2 lib) (b b' : Build) (out : List (Mesh (Val b32) × List UInt8)) :
    ¬ FileCycle (ops lib) fb b b' creepPrec [(triangleOf trapped, [65])] out := by
  rintro ⟨bytes, hb, hr⟩
  have hS : ByteSettings creepPrec := ⟨by decide, by decide, by decide⟩
  have hfit : ∀ mn ∈ [(triangleOf trapped, ([65] : List UInt8))], MeshFits creepPrec mn.1 := by
    intro mn hmn
    rcases List.mem_singleton.mp hmn with rfl
    exact trapped_fits
  have hlen : bytes.length ≤ 2 ^ 31 := by
    refine le_trans (C56_linear (orderLaws lib) hS hfit hb) ?_
    norm_num [meshSizeBound, segmentBound, mostPieces, indexPieces, onePiece, elements, elementCount, customLoad, customCount, triangleOf, Mesh.empty,
      trapped]
  have hl : LimitsAny (ops lib) fb b creepPrec [(triangleOf trapped, [65])] := by
    refine ⟨show 1 < 2 ^ 32 by decide, ?_, ?_, ?_⟩
    · intro mn h
      rcases List.mem_singleton.mp h with rfl
      exact ⟨show 1 < 2 ^ 16 by decide, ⟨['A'], rfl⟩⟩
    · intro mn h
      rcases List.mem_singleton.mp h with rfl
      obtain ⟨f1, f2, f3, f4, f5, f6, f7, f8, f9, _⟩ := trapped_fits
      exact ⟨f1, f2, f3, f4, f5, f6, f7, f8, f9⟩
    · intro mn h segs hs
      rcases List.mem_singleton.mp h with rfl
      refine lt_of_le_of_lt (encodeMesh_count (orderLaws lib) trapped_fits hs) ?_
      norm_num [segmentBound, mostPieces, indexPieces, onePiece, triangleOf, Mesh.empty, trapped]
  have hn := (C49_accepted_iff (ops lib) fb creepPrec (b' := b') hS hb hl hlen [] []).mp ⟨out, by simpa using hr []⟩ _ List.mem_cons_self
  obtain ⟨ps, hps, -⟩ := C09_bounded hlog hmono trapped_span
  have hps' := hps b
  cases flat_cut trapped_flat hps'
  have hbox : vertexBox (ops lib) trapped = .ok ⟨vZero, trapY, vZero, trapY, vZero, vZero⟩ := by rw [trapped, vertexBox_ops, trapped_box]
  have hw := (hn.vertices trapped vZero [trapped] trapped _ rfl trapped_edge hps' List.mem_cons_self hbox).1
  rw [show creepPrec.vertex = lit 1 1 from rfl, precs_ops lib, trapped_bits hlog] at hw
  exact absurd hw (by decide)

/-- C94 is false as stated: a triangle with edges from 1 to 5.5 is saved with the default settings and loaded, in every build. What was
loaded cannot be saved and loaded a second time in any build, as two of its vertices have become one. -/
theorem C94_violated (hlog : AccurateLog2 lib) (hmono : MonotoneLog2 lib) :
    ∃ m m' : Mesh (Val b32), Saveable 24 (PrecisionInfo.default (ops lib)) [(m, [65])] ∧
      (∀ b b', FileCycle (ops lib) fb b b' (PrecisionInfo.default (ops lib)) [(m, [65])] [(m', [65])]) ∧
      ∀ b b' out, ¬ FileCycle (ops lib) fb b b' (PrecisionInfo.default (ops lib)) [(m', [65])] out := by
  rw [C91_bits hlog]
  exact ⟨triangleOf trap, triangleOf trapped, trap_saveable, trap_cycle hlog hmono, trapped_stuck hlog hmono⟩

example (fb : F64Bytes (ops someLibm)) : ∃ m m' : Mesh (Val b32), Saveable 24 creepPrec [(m, [65])] ∧
    (∀ b b', FileCycle (ops someLibm) fb b b' creepPrec [(m, [65])] [(m', [65])]) ∧
      ∀ b b' out, ¬ FileCycle (ops someLibm) fb b b' creepPrec [(m', [65])] out :=
  ⟨triangleOf trap, triangleOf trapped, trap_saveable, trap_cycle someLibm_log2 someLibm_monotone, trapped_stuck someLibm_log2 someLibm_monotone⟩

/-! ### What holds -/

theorem near_flatten {k : Nat} {M : ℚ} {d : ℝ} {runs runs' : List (List (Vec3 (Val b32)))} (h : List.Forall₂ (RunNear k M d) runs runs') (hk : k ≤ 24)
    (hc : ∀ p ∈ runs, ZCovered p ∧ ∀ v ∈ p, XReached p v ∧ YReached p v) :
    ∀ (i : Nat) v v', runs.flatten[i]? = some v → runs'.flatten[i]? = some v' →
      |realOf v'.1 - realOf v.1| ≤ d ∧ |realOf v'.2.1 - realOf v.2.1| ≤ d ∧ |realOf v'.2.2 - realOf v.2.2| ≤ d := by
  induction h with
  | nil => intro i v v' hv; simp at hv
  | @cons p p' l l' h _ ih =>
    intro i v v' hv hv'
    rw [List.flatten_cons] at hv hv'
    by_cases hi : i < p.length
    · rw [List.getElem?_append_left hi] at hv
      rw [List.getElem?_append_left (by rw [h.length]; exact hi)] at hv'
      obtain ⟨k1, k2, k3⟩ := h.near i v v' hv hv'
      obtain ⟨z, hr⟩ := hc p List.mem_cons_self
      obtain ⟨r1, r2⟩ := hr v (List.mem_of_getElem? hv)
      exact ⟨k1 (.inl hk) r1, k2 (.inl hk) r2, k3 (.inl hk) z⟩
    · rw [List.getElem?_append_right (by omega)] at hv
      rw [List.getElem?_append_right (by rw [h.length]; omega), h.length] at hv'
      exact ih (fun q hq => hc q (List.mem_cons_of_mem _ hq)) _ v v' hv hv'

theorem chord_near {v v' : Vec3 (Val b32)} {d : ℝ}
    (h : |realOf v'.1 - realOf v.1| ≤ d ∧ |realOf v'.2.1 - realOf v.2.1| ≤ d ∧ |realOf v'.2.2 - realOf v.2.2| ≤ d) : chord v' v ≤ 17321 / 10000 * d := by
  obtain ⟨h1, h2, h3⟩ := h
  have hd : 0 ≤ d := le_trans (abs_nonneg _) h1
  have s1 := sq_le_sq' (abs_le.mp h1).1 (abs_le.mp h1).2
  have s2 := sq_le_sq' (abs_le.mp h2).1 (abs_le.mp h2).2
  have s3 := sq_le_sq' (abs_le.mp h3).1 (abs_le.mp h3).2
  rw [chord]
  refine Geometry.length3_le (by positivity) ?_
  have : (17321 / 10000 * d) ^ 2 = 300017041 / 100000000 * d ^ 2 := by ring
  have hd2 : 0 ≤ d ^ 2 := sq_nonneg d
  linarith

theorem chord_swap (u v : Vec3 (Val b32)) : chord u v = chord v u := by
  rw [chord, chord, length3, length3]
  congr 1
  ring

theorem edge_lives {P M δ : ℚ} {L : ℝ} {a c a' c' : Vec3 (Val b32)} (hP0 : 0 ≤ P) (hP : P ≤ 101 / 1000) (hδ : 1 / 1000 ≤ δ) (hM : M ≤ 2 ^ 13 * δ)
    (hL : (δ : ℝ) ≤ L) (hac : chord a c = L) (ha : chord a' a ≤ 17321 / 10000 * vertexError P M L)
    (hc : chord c' c ≤ 17321 / 10000 * vertexError P M L) : L / 8 ≤ chord a' c' := by
  have t1 := chord_trans a a' c
  have t2 := chord_trans a' c' c
  rw [chord_swap a a'] at t1
  have hP' : (P : ℝ) ≤ 101 / 1000 := by have := (Rat.cast_le (K := ℝ)).mpr hP; push_cast at this; exact this
  have hP0' : (0 : ℝ) ≤ P := by exact_mod_cast hP0
  have hδ' : (1 : ℝ) / 1000 ≤ δ := by have := (Rat.cast_le (K := ℝ)).mpr hδ; push_cast at this; exact this
  have hM' : (M : ℝ) ≤ 2 ^ 13 * δ := by have := (Rat.cast_le (K := ℝ)).mpr hM; push_cast at this; exact this
  have hPL : (P : ℝ) * L ≤ 101 / 1000 * L := mul_le_mul_of_nonneg_right hP' (by linarith)
  have hv : vertexError P M L ≤ 2 * (101 / 1000 * L) * (1 + 1 / 2 ^ 14) + 2 / 10 ^ 6 + 2 ^ 13 * L / 2 ^ 18 := by
    rw [vertexError]
    have h1 : (M : ℝ) / 2 ^ 18 ≤ 2 ^ 13 * L / 2 ^ 18 := div_le_div_of_nonneg_right (by linarith) (by norm_num)
    have h2 : 2 * ((P : ℝ) * L) * (1 + 1 / 2 ^ 14) ≤ 2 * (101 / 1000 * L) * (1 + 1 / 2 ^ 14) :=
      mul_le_mul_of_nonneg_right (by linarith) (by norm_num)
    linarith
  norm_num at hv
  linarith

variable {prec : PrecisionInfo (Val b32)} {meshes : List (Mesh (Val b32) × List UInt8)}

/-- C94, what holds: with a vertex precision up to 0.101 (the default is 0.1), meshes whose size is moderate compared with their
shortest edge, and in which the computed boxes reach all vertices, can be saved, loaded, saved again and loaded again. All builds agree
on both results. No edge becomes shorter than an eighth in the first cycle. -/
theorem C94_partial (hlog : AccurateLog2 lib) (hmono : MonotoneLog2 lib) (h : Saveable 24 prec meshes) (p1 : 1 / 2 ^ 20 ≤ valueOf prec.vertex)
    (p2 : valueOf prec.vertex ≤ 101 / 1000)
    (hs : ∀ mn ∈ meshes, Sturdy (fun l runs => ∀ b, optVertices (ops lib) b l = .ok runs) (valueOf prec.vertex) mn.1) :
    ∃ out out2, (∀ b b', FileCycle (ops lib) fb b b' prec meshes out ∧ FileCycle (ops lib) fb b b' prec out out2) ∧
      Saveable 30 prec out ∧
      List.Forall₂ (fun mn mn' => CameBack (ops lib) mn mn' ∧ EdgesLive mn.1 mn'.1) meshes out ∧
      List.Forall₂ (CameBack (ops lib)) out out2 := by
  have h30 := saveable_mono (show 24 ≤ 30 by decide) h
  obtain ⟨bytes, out, hb, -, hr, hf⟩ := saveable_loaded (fb := fb) hlog hmono (by decide) (by decide) h
  obtain ⟨bytes', out', hb', -, hr', hback⟩ := C65_saved (fb := fb) hlog hmono h30
  have eb : bytes' = bytes := by have := hb' .checked; rw [hb .checked] at this; cases this; rfl
  subst eb
  have eo : out' = out := by have := hr' .checked [] []; rw [hr .checked [] []] at this; cases this; rfl
  subst eo
  obtain ⟨bytes2, out2, hb2, hr2, hcube⟩ := C78_saved (fb := fb) hlog hmono h30
  have eb : bytes2 = bytes' := by have := hb2 .checked; rw [hb .checked] at this; cases this; rfl
  subst eb
  have eo : out2 = out' := by have := hr2 .checked [] []; rw [hr .checked [] []] at this; cases this; rfl
  subst eo
  have hall : List.Forall₂ (fun mn mn' => CameBack (ops lib) mn mn' ∧ mn ∈ meshes ∧ EdgesLive mn.1 mn'.1 ∧
      mn'.1.customData = mn.1.customData.reverse.map (CustomSeg.loaded (ops lib)) ∧
      (∀ l, mn.1.vertices = some l → ∃ l', mn'.1.vertices = some l' ∧ l'.length = l.length ∧
        ∀ lo hi, (∀ v ∈ l, InCube lo hi v) → ∀ v ∈ l', InCube (lo - (Max.max |lo| |hi| / 2 ^ 20 + 1 / 2 ^ 148))
          (hi + (Max.max |lo| |hi| / 2 ^ 20 + 1 / 2 ^ 148)) v)) meshes out2 := by
    refine forall₂_imp (forall₂_both hback (forall₂_both hf hcube)) ?_
    rintro mn hmn mn' ⟨hcb, ⟨-, edge, he, hm, hcut⟩, hcu⟩
    refine ⟨hcb, hmn, ?_, by rw [hm]; rfl, hcu⟩
    intro l l' t i j a c a' c' hl hl' ht hij ha hc ha' hc'
    obtain ⟨M, δ, hv, hδ, hMδ, hreach⟩ := (hs mn hmn).vertices l hl
    obtain ⟨runs, runs', hcuts, hflat, hlv, hnear⟩ := saveable_runs hlog hmono (by decide) (by decide) h p1 hmn he hcut hl
    have hfl : runs.flatten = l := hflat.1
    rw [← hm, hl'] at hlv
    cases hlv
    have hnr := near_flatten (hnear M hv.inner hv.size (chord a c) (.inl ⟨t, i, j, a, c, ht, hij, ha, hc, rfl⟩)) (le_refl 24) (hreach runs hcuts)
    rw [hfl] at hnr
    exact edge_lives (le_trans (by norm_num) p1) p2 hδ hMδ (hv.edges t ht i j a c hij ha hc) rfl (chord_near (hnr i a a' ha ha'))
      (chord_near (hnr j c c' hc hc'))
  have haged : List.Forall₂ (Aged 1) meshes out2 := by
    refine forall₂_imp hall ?_
    rintro mn hmn mn' ⟨hcb, -, -, hld, hcu⟩
    exact aged_more (k := 0) (by decide) (aged_zero (hs mn hmn).custom (h.mesh mn hmn).custom) hcb hld hcu
  have hsv : Saveable 30 prec out2 := by
    refine ⟨h.finite, h.vertex, h.normal, h.uv, h.tangent, ?_, ?_, ?_⟩
    · intro mn' hmn'
      obtain ⟨mn, hmn, hr⟩ := of_forall₂_right haged mn' hmn'
      rw [hr.name]
      exact h.names mn hmn
    · intro mn' hmn'
      obtain ⟨mn, hmn, ha, hcb, -, hlive, -, hcu⟩ := of_forall₂_right (forall₂_both haged hall) mn' hmn'
      have hm := h.mesh mn hmn
      refine ⟨?_, ?_, ?_, ?_, ?_, ?_, ?_⟩
      · intro l' hl'
        obtain ⟨l, hl⟩ : ∃ l, mn.1.vertices = some l := by
          have hx := ha.sizes.vertices
          rw [hl'] at hx
          cases hv : mn.1.vertices with
          | none => rw [hv] at hx; cases hx
          | some l => exact ⟨l, rfl⟩
        obtain ⟨M, δ, hv, hδ, hMδ, -⟩ := (hs mn hmn).vertices l hl
        obtain ⟨l2, e2, hlen, hcub⟩ := hcu l hl
        rw [hl'] at e2
        cases e2
        have hM0 : 0 ≤ M := by
          obtain ⟨w, hw⟩ := List.exists_mem_of_ne_nil _ hv.some
          exact le_trans (abs_nonneg _) (hv.inner w hw).2.1
        have hb1 := hv.bits
        have hmost := hv.most
        have hδP : 0 ≤ δ * valueOf prec.vertex := mul_nonneg (by linarith) (le_trans (by norm_num) p1)
        refine ⟨2 * M + 1 / 2 ^ 21, δ / 8, ?_, ?_, ?_, ?_, ?_, ?_, ?_, ?_, ?_⟩
        · rintro rfl
          exact hv.some (List.length_eq_zero_iff.mp hlen.symm)
        · norm_num at hMδ ⊢; linarith
        · intro v hvm
          obtain ⟨f, c1, c2, c3⟩ := hcub (-M) M (fun v hv' => by
            obtain ⟨f, a1, a2, a3⟩ := hv.inner v hv'
            exact ⟨f, abs_le.mp a1, abs_le.mp a2, abs_le.mp a3⟩) v hvm
          rw [abs_neg, max_self, abs_of_nonneg hM0] at c1 c2 c3
          have he : M / 2 ^ 20 + 1 / 2 ^ 148 ≤ M + 1 / 2 ^ 21 := by
            have h1 : M / 2 ^ 20 ≤ M := div_le_self hM0 (by norm_num)
            have h2 : (1 : ℚ) / 2 ^ 148 ≤ 1 / 2 ^ 21 := by norm_num
            linarith
          exact ⟨f, abs_le.mpr ⟨by linarith [c1.1], by linarith [c1.2]⟩, abs_le.mpr ⟨by linarith [c2.1], by linarith [c2.2]⟩,
            abs_le.mpr ⟨by linarith [c3.1], by linarith [c3.2]⟩⟩
        · norm_num; linarith
        · linarith
        · intro t ht; rw [ha.indices.vertex] at ht; exact hv.whole t ht
        · intro t ht; rw [ha.indices.vertex] at ht; rw [hlen]; exact hv.used t ht
        · intro t ht i j a' c' hij ha' hc'
          rw [ha.indices.vertex] at ht
          have hi : i < l.length := by rw [← hlen]; exact (List.getElem?_eq_some_iff.mp ha').1
          have hj : j < l.length := by rw [← hlen]; exact (List.getElem?_eq_some_iff.mp hc').1
          have hx := hlive l l' t i j l[i] l[j] a' c' hl hl' ht hij (List.getElem?_eq_getElem hi) (List.getElem?_eq_getElem hj) ha' hc'
          have hy := hv.edges t ht i j _ _ hij (List.getElem?_eq_getElem hi) (List.getElem?_eq_getElem hj)
          push_cast
          linarith
        · norm_num at hb1 ⊢; linarith
      · rw [ha.indices.vertex]; exact hm.vertexTriangles
      · rw [ha.indices.normal]; exact hm.normalTriangles
      · rw [ha.indices.uv]; exact hm.uvTriangles
      · rw [ha.indices.tangent]; exact hm.tangentTriangles
      · exact aged_custom ha hm.custom
      · rw [(bounds_same ha).1]; exact hm.segments
    · rw [sum_same haged fun a b h => (bounds_same h).2]
      exact h.size
  obtain ⟨bytes3, out3, hb3, -, hr3, hback3⟩ := C65_saved (fb := fb) hlog hmono hsv
  refine ⟨out2, out3, fun b b' => ⟨⟨bytes2, hb b, fun sched => by simpa using hr b' [] sched⟩,
    ⟨bytes3, hb3 b, fun sched => by simpa using hr3 b' [] sched⟩⟩, hsv, ?_, hback3⟩
  exact forall₂_imp hall fun mn _ mn' hx => ⟨hx.1, hx.2.2.1⟩

/-- The same triangle with its vertices in another order. -/
example (fb : F64Bytes (ops someLibm)) : ∃ out out2, (∀ b b', FileCycle (ops someLibm) fb b b' creepPrec [(triangleOf turned, [65])] out ∧
    FileCycle (ops someLibm) fb b b' creepPrec out out2) ∧ out2.length = 1 := by
  have hsv : Saveable 24 creepPrec [(triangleOf turned, [65])] :=
    { trap_saveable with
      names := by
        intro mn h
        rcases List.mem_singleton.mp h with rfl
        exact ⟨show 1 < 2 ^ 16 by decide, ⟨['A'], rfl⟩⟩
      mesh := by
        intro mn h
        rcases List.mem_singleton.mp h with rfl
        obtain ⟨_, h2, h3, h4, h5, h6, _⟩ := trap_saveable.mesh _ List.mem_cons_self
        refine ⟨?_, h2, h3, h4, h5, h6, ?_⟩
        · intro l hl; cases hl; exact ⟨5, 1 / 10, turned_sensible⟩
        · norm_num [segmentBound, mostPieces, indexPieces, onePiece, triangleOf, Mesh.empty, turned]
      size := by
        norm_num [meshSizeBound, segmentBound, mostPieces, indexPieces, onePiece, elements, elementCount, customLoad, customCount, triangleOf,
          Mesh.empty, turned] }
  obtain ⟨out, out2, hcyc, -, h1, h2⟩ := C94_partial (fb := fb) someLibm_log2 someLibm_monotone hsv
    (by rw [show creepPrec.vertex = lit 1 1 from rfl, tenth_exact.2]; norm_num)
    (by rw [show creepPrec.vertex = lit 1 1 from rfl, tenth_exact.2]; norm_num) (by
      intro mn h
      rcases List.mem_singleton.mp h with rfl
      refine ⟨(fun c hc => by cases hc), fun l hl => ?_⟩
      cases hl
      refine ⟨5, 1 / 10, turned_sensible, by norm_num, by norm_num, fun runs hr p hp => ?_⟩
      cases flat_cut kit_flat (hr .checked)
      cases List.mem_singleton.mp hp
      exact ⟨turned_covered, turned_reached⟩)
  exact ⟨out, out2, hcyc, by rw [← h2.length_eq, ← h1.length_eq]; rfl⟩

end Tmf.Props
