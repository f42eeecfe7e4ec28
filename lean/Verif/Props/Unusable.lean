import Verif.Lemmas.Unusable
import Verif.Props.Endless
/-
C115: with a vertex precision that is no positive number, a file is stored all the same, but at most eight places
are left of each piece of a vertex array.
-/

set_option exponentiation.threshold 2000

namespace Tmf.Props
open Spec Ieee

variable {lib : Libm} {fb : F64Bytes (ops lib)}

theorem eight_places {p : List (Vec3 (Val b32))} {pr e : Val b32}
    (hw : ∀ s, vertexBox (ops lib) p = .ok s → s.precs (ops lib) pr e = (1, 1, 1)) : EightPlaces (quantVertices (ops lib) pr e p) := by
  cases p with
  | nil => exact ⟨(.nan, .nan, .nan), (.nan, .nan, .nan), fun v hv => by cases hv⟩
  | cons v0 p =>
    obtain ⟨s, hs⟩ : ∃ s, vertexBox (ops lib) (v0 :: p) = .ok s := ⟨_, vertexBox_ops lib v0 p⟩
    obtain ⟨ax, cx, hx⟩ := coordQ_one s.minX s.maxX
    obtain ⟨ay, cy, hy⟩ := coordQ_one s.minY s.maxY
    obtain ⟨az, cz, hz⟩ := coordQ_one s.minZ s.maxZ
    refine ⟨(ax, ay, az), (cx, cy, cz), fun v hv => ?_⟩
    rw [quantVertices, hs] at hv
    obtain ⟨w, -, rfl⟩ := List.mem_map.mp hv
    rw [quantVertex_ops lib, hw s hs]
    exact ⟨hx _, hy _, hz _⟩

/-- C115: every piece of a vertex array takes one bit per axis, and every build stores it. At most eight places come back. -/
theorem C115_stored (hlog : AccurateLog2 lib) {b : Build} {l : List (Vec3 (Val b32))} (hl : l.length ≤ 2 ^ 31) (hne : l ≠ [])
    {pr e : Val b32} (hp : Unusable pr) (he : isFinite e = true ∧ isSignNegative e = false) :
    ∃ bytes l', saveVertices (ops lib) fb b l pr e = .ok bytes ∧ readVertices (ops lib) fb bytes = .ok l' ∧ l'.length = l.length ∧
      EightPlaces l' := by
  obtain ⟨he, hs⟩ := he
  obtain ⟨s, n, hn, rfl⟩ := finite_cases he
  cases (hs : s = false)
  cases l with
  | nil => exact absurd rfl hne
  | cons v0 l =>
    obtain ⟨s, hs⟩ : ∃ s, vertexBox (ops lib) (v0 :: l) = .ok s := ⟨_, vertexBox_ops lib v0 l⟩
    have hw := precs_unusable hlog s hp (n := n) (hn := hn)
    obtain ⟨bytes, hsave, hr⟩ := readVertices_saved (fo := ops lib) (fb := fb) (b := b) (precision := pr) (edge := .fin false n hn) hs
      (by rw [hw]; decide) (by rw [hw]; decide) (by rw [hw]; decide) hl
    have h := hr []
    rw [List.append_nil] at h
    refine ⟨bytes, _, hsave, h, ?_, eight_places fun s _ => precs_unusable hlog s hp⟩
    rw [quantVertices, hs]
    exact List.length_map _

/-- C115 for whole files: every build loads what was saved, with at most eight places in each piece of a vertex array. -/
theorem C115_file (hlog : AccurateLog2 lib) {b b' : Build} {prec : PrecisionInfo (Val b32)} {meshes : List (Mesh (Val b32) × List UInt8)}
    {bytes : List UInt8} (hp : Unusable prec.vertex) (h : tmfBytes (ops lib) fb b prec meshes = .ok bytes)
    (hl : LimitsLow (ops lib) fb b prec meshes) (hb : bytes.length ≤ 2 ^ 31) (junk : List UInt8) (sched : List Nat) :
    ∃ out, readTmf (ops lib) fb b' ⟨bytes ++ junk, sched, false⟩ = .ok out ∧
      List.Forall₂ (fun mn mn' => ∀ l, mn.1.vertices = some l →
        ∃ pieces pieces', optVertices (ops lib) b l = .ok pieces ∧ pieces.flatten = l ∧ mn'.1.vertices = some pieces'.flatten ∧
          List.Forall₂ (fun p p' => p'.length = p.length ∧ EightPlaces p') pieces pieces') meshes out := by
  obtain ⟨out, e, hf⟩ := readTmf_low (b' := b') h hl hb junk sched
  refine ⟨out, e, forall₂_imp hf ?_⟩
  rintro mn hmn mn' ⟨_, edge, he, hm, hcut⟩ l hml
  obtain ⟨qs, hq, hc⟩ := hcut l hml
  refine ⟨qs, qs.map (quantVertices (ops lib) prec.vertex edge), hq, hc, ?_, forall₂_map fun p _ => ⟨?_, ?_⟩⟩
  · rw [hm]
    simp only [loadedMesh, hml, Option.map_some, loadedVertices, hq, List.flatMap_def]
  · cases p with
    | nil => rfl
    | cons v0 p =>
      rw [quantVertices, vertexBox_ops lib v0 p]
      exact List.length_map _
  · obtain ⟨n, hn, rfl⟩ := edge_plain lib he
    exact eight_places fun s _ => precs_unusable hlog s hp

/-- Three points in a row. -/
def rowVertices : List (Vec3 (Val b32)) := [(vZero, vZero, vZero), (vHalf, vZero, vZero), (vOne, vOne, vZero)]

/-- The hypotheses of `C115_stored` can be met: with NaN for the precision, three points are stored and loaded. -/
example (hlog : AccurateLog2 lib) (b : Build) : ∃ bytes x y z, saveVertices (ops lib) fb b rowVertices .nan vOne = .ok bytes ∧
    readVertices (ops lib) fb bytes = .ok [x, y, z] ∧ EightPlaces [x, y, z] := by
  obtain ⟨bytes, l', hs, hr, hlen, h8⟩ := C115_stored (fb := fb) (b := b) hlog (l := rowVertices) (show 3 ≤ 2 ^ 31 by decide)
    (by simp [rowVertices]) (pr := .nan) (e := vOne) trivial ⟨rfl, rfl⟩
  match l', hlen with
  | [x, y, z], _ => exact ⟨bytes, x, y, z, hs, hr, h8⟩

/-- A mesh of these points, and the default settings but for NaN as the vertex precision. -/
def rowMesh : Mesh (Val b32) := { (Mesh.empty : Mesh (Val b32)) with vertices := some rowVertices }

def blurPrec : PrecisionInfo (Val b32) := { creepPrec with vertex := .nan }

theorem row_fits : MeshFits blurPrec rowMesh := by
  refine ⟨?_, ?_, ?_, ?_, ?_, ?_, ?_, ?_, ?_, ?_, ?_⟩ <;> simp [LengthFits, IndicesFit, rowMesh, rowVertices, Mesh.empty]

theorem row_limits (hlog : AccurateLog2 lib) : LimitsLow (ops lib) fb .wrapping blurPrec [(rowMesh, [65])] where
  count := show 1 < 2 ^ 32 by decide
  names := by
    intro mn h
    rcases List.mem_singleton.mp h with rfl
    exact ⟨show 1 < 2 ^ 16 by decide, ⟨['A'], rfl⟩⟩
  fits := by
    intro mn h
    rcases List.mem_singleton.mp h with rfl
    exact row_fits
  segments := by
    intro mn h segs hs
    rcases List.mem_singleton.mp h with rfl
    refine lt_of_le_of_lt (encodeMesh_count (orderLaws lib) row_fits hs) ?_
    norm_num [segmentBound, mostPieces, indexPieces, onePiece, rowMesh, rowVertices, Mesh.empty]
  low := by
    right
    intro mn h
    rcases List.mem_singleton.mp h with rfl
    refine ⟨(fun h => nomatch h), (fun h => nomatch h), (fun h => nomatch h), (fun c hc => nomatch hc), ?_⟩
    intro l edge pieces piece s hl he hp hm hs
    obtain ⟨n, hn, rfl⟩ := edge_plain lib he
    rw [precs_unusable hlog s (show Unusable blurPrec.vertex from trivial)]
    decide

/-- The hypotheses of `C115_file` can be met, with the same three points. -/
example (hlog : AccurateLog2 lib) : ∃ bytes, tmfBytes (ops lib) fb .wrapping blurPrec [(rowMesh, [65])] = .ok bytes ∧
    ∀ b' junk sched, ∃ m, ∃ pieces : List (List (Vec3 (Val b32))), readTmf (ops lib) fb b' ⟨bytes ++ junk, sched, false⟩ = .ok [m] ∧
      m.1.vertices = some pieces.flatten ∧ ∀ p ∈ pieces, EightPlaces p := by
  obtain ⟨bytes, hb⟩ : ∃ bytes, tmfBytes (ops lib) fb .wrapping blurPrec [(rowMesh, [65])] = .ok bytes := by
    refine C29_saved_partial (orderLaws lib) .wrapping _ _ ?_ ?_ ?_ ?_ ?_
    · intro mn hm
      cases List.mem_singleton.mp hm
      refine ⟨rfl, ⟨?_, ?_, ?_⟩, ?_, ?_, ?_, ?_, ?_⟩
      · intro l hl; cases hl; show 3 < 2 ^ 32; decide
      · intro l hl; cases hl
      · intro l hl; cases hl
      · intro t ht; cases ht
      · intro t ht; cases ht
      · intro t ht; cases ht
      · intro t ht; cases ht
      · intro c hc; cases hc
    · intro mn hm; cases List.mem_singleton.mp hm; simp [rowMesh, rowVertices]
    · intro mn hm vs t hv ht
      cases List.mem_singleton.mp hm
      cases ht
    · intro mn hm
      cases List.mem_singleton.mp hm
      refine ⟨show isFinite (lit 1 1 : Val b32) = true by decide +kernel, fun vs t hv ht _ => ?_⟩
      cases ht
    · intro h; cases h
  have hlen : bytes.length ≤ 2 ^ 31 := by
    refine le_trans (C56_linear (orderLaws lib) ⟨show 7 < 256 by decide, show 14 < 256 by decide, show 7 < 256 by decide⟩ ?_ hb) ?_
    · intro mn h
      rcases List.mem_singleton.mp h with rfl
      exact row_fits
    · norm_num [meshSizeBound, segmentBound, mostPieces, indexPieces, onePiece, elements, elementCount, customLoad, customCount, rowMesh,
        rowVertices, Mesh.empty]
  refine ⟨bytes, hb, fun b' junk sched => ?_⟩
  obtain ⟨out, hr, hf⟩ := C115_file (b' := b') hlog (show Unusable blurPrec.vertex from trivial) hb (row_limits hlog) hlen junk sched
  obtain ⟨m, rfl, h⟩ := forall₂_one hf
  obtain ⟨ps, ps', -, -, hv, hd⟩ := h rowVertices rfl
  refine ⟨m, ps', hr, hv, fun p hp => ?_⟩
  clear hv
  induction hd with
  | nil => cases hp
  | cons h _ ih =>
    rcases List.mem_cons.mp hp with rfl | hp
    · exact h.2
    · exact ih hp

end Tmf.Props
