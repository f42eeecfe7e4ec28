import Verif.Lemmas.Independent
import Verif.Props.SaveAgain
/-
C103: an array is stored the same whatever is stored with it.
-/

set_option exponentiation.threshold 2000

namespace Tmf.Props
open Tmf Spec

section
variable {fo : FloatOps} {fb : F64Bytes fo} {b : Build} {prec prec' : PrecisionInfo fo.F}
  {meshes meshes' : List (Mesh fo.F × List UInt8)} {bytes bytes' : List UInt8}

/-- A saved file as frames. -/
theorem saved_frames (h : tmfBytes fo fb b prec meshes = .ok bytes) :
    ∃ raws, bytes = fileBytes 2 raws ∧ List.Forall₂ (fun mn r => r.name = mn.2 ∧ ∃ segs, encodeMesh fo fb b prec mn.1 = .ok segs ∧
      r.segs = segs.map rawOf ∧ ∀ e ∈ segs, e.data.length ≤ bytes.length) meshes raws := by
  obtain ⟨enc, hE, hb⟩ := tmfBytes_ok fo fb b prec h
  have hF := mapAll_forall₂ hE
  have hsz := seg_le_file h hE
  refine ⟨(meshes.zip enc).map (fun p => ⟨p.1.2, p.2.map rawOf⟩), ?_, ?_⟩
  · rw [hb, fileBytes, fileHead, List.length_map, List.length_zip, ← hF.length_eq, Nat.min_self, List.flatMap_map]
    congr 1
    exact flatMap_eq_of (fun p _ => meshBytes_eq _ _)
  · clear hE hb h
    induction hF with
    | nil => exact .nil
    | cons h1 _ ih =>
      exact .cons ⟨rfl, _, h1, rfl, fun e he => hsz _ List.mem_cons_self e he⟩ (ih fun segs hs => hsz segs (List.mem_cons_of_mem _ hs))

/-- **C103.** In any two files saved by one build, with whatever settings, meshes and names, the segments for an array are the same byte by
byte, if the array and what it is stored from are the same. -/
theorem C103_bytes (h : tmfBytes fo fb b prec meshes = .ok bytes) (h' : tmfBytes fo fb b prec' meshes' = .ok bytes') :
    ∃ raws raws', bytes = fileBytes 2 raws ∧ bytes' = fileBytes 2 raws' ∧
      raws.map RawMesh.name = meshes.map Prod.snd ∧ raws'.map RawMesh.name = meshes'.map Prod.snd ∧
      ∀ (a : MeshArray) (i j : Nat) (mn mn' : Mesh fo.F × List UInt8) (r r' : RawMesh), meshes[i]? = some mn → meshes'[j]? = some mn' →
        raws[i]? = some r → raws'[j]? = some r' → SameSource a prec prec' mn.1 mn'.1 →
        r'.segs.filter (feeds a) = r.segs.filter (feeds a) := by
  have names : ∀ {prec : PrecisionInfo fo.F} {meshes : List (Mesh fo.F × List UInt8)} {raws : List RawMesh} {n : Nat},
      List.Forall₂ (fun mn r => r.name = mn.2 ∧ ∃ segs, encodeMesh fo fb b prec mn.1 = .ok segs ∧ r.segs = segs.map rawOf ∧
        ∀ e ∈ segs, e.data.length ≤ n) meshes raws → raws.map RawMesh.name = meshes.map Prod.snd := by
    intro prec meshes raws n hf
    induction hf with
    | nil => rfl
    | cons h _ ih => rw [List.map_cons, List.map_cons, h.1, ih]
  obtain ⟨raws, e, hf⟩ := saved_frames h
  obtain ⟨raws', e', hf'⟩ := saved_frames h'
  refine ⟨raws, raws', e, e', names hf, names hf', ?_⟩
  intro a i j mn mn' r r' hi hj hr hr' hs
  obtain ⟨-, segs, h1, h2, -⟩ := forall₂_both_at hf hi hr
  obtain ⟨-, segs', h1', h2', -⟩ := forall₂_both_at hf' hj hr'
  rw [h2, h2']
  exact encodeMesh_same hs h1 h1'

/-- **C103, loaded.** Two such files within the limits of the format, read by one build, give the same array. -/
theorem C103_loaded {b' : Build} (h : tmfBytes fo fb b prec meshes = .ok bytes) (h' : tmfBytes fo fb b prec' meshes' = .ok bytes')
    (hl : LimitsAny fo fb b prec meshes) (hl' : LimitsAny fo fb b prec' meshes') (hb : bytes.length ≤ 2 ^ 31) (hb' : bytes'.length ≤ 2 ^ 31)
    {junk junk' : List UInt8} {sched sched' : List Nat} {out out' : List (Mesh fo.F × List UInt8)}
    (hr : readTmf fo fb b' ⟨bytes ++ junk, sched, false⟩ = .ok out) (hr' : readTmf fo fb b' ⟨bytes' ++ junk', sched', false⟩ = .ok out')
    (a : MeshArray) (i j : Nat) {mn mn' o o' : Mesh fo.F × List UInt8} (hi : meshes[i]? = some mn) (hj : meshes'[j]? = some mn')
    (ho : out[i]? = some o) (ho' : out'[j]? = some o') (hs : SameSource a prec prec' mn.1 mn'.1) : EqualArray a o.1 o'.1 := by
  have load : ∀ {prec : PrecisionInfo fo.F} {meshes : List (Mesh fo.F × List UInt8)} {bytes : List UInt8} {junk : List UInt8} {sched : List Nat}
      {out : List (Mesh fo.F × List UInt8)} {i : Nat} {mn o : Mesh fo.F × List UInt8}, tmfBytes fo fb b prec meshes = .ok bytes →
      LimitsAny fo fb b prec meshes → bytes.length ≤ 2 ^ 31 → readTmf fo fb b' ⟨bytes ++ junk, sched, false⟩ = .ok out →
      meshes[i]? = some mn → out[i]? = some o → ∃ segs, encodeMesh fo fb b prec mn.1 = .ok segs ∧
        assembleMesh fo fb b' ⟨true⟩ ((segs.map rawOf).map encodedOf) = .ok o.1 := by
    intro prec meshes bytes junk sched out i mn o h hl hb hr hi ho
    obtain ⟨raws, e, hf⟩ := saved_frames h
    have hfr : ∀ r ∈ raws, RawMesh.Framed (layoutOf 2) r := by
      intro r hr
      obtain ⟨mn, hmn, hn, segs, hs, hseg, hlen⟩ := forall₂_mem hf.flip r hr
      refine ⟨by rw [hn]; exact hl.names mn hmn, by rw [hseg, List.length_map]; exact hl.segments mn hmn segs hs, fun s hs' => ?_⟩
      rw [hseg] at hs'
      obtain ⟨x, hx, rfl⟩ := List.mem_map.mp hs'
      refine rawOf_framed ?_ ((hlen x hx).trans hb)
      exact encodeMesh_uncompressed hs x hx
    rw [e, readTmf_file fo fb b' (le_refl 2) hfr (by rw [← hf.length_eq]; exact hl.count)] at hr
    have hm := mapAll_forall₂ hr
    obtain ⟨r, hri⟩ : ∃ r, raws[i]? = some r := by
      have hlt : i < meshes.length := (List.getElem?_eq_some_iff.mp hi).1
      exact ⟨_, List.getElem?_eq_getElem (by rw [← hf.length_eq]; exact hlt)⟩
    obtain ⟨-, segs, h1, h2, -⟩ := forall₂_both_at hf hi hri
    have h3 := forall₂_both_at hm hri ho
    rw [rawMesh, Outcome.bind_eq_ok] at h3
    obtain ⟨m, h4, h5⟩ := h3
    cases h5
    exact ⟨segs, h1, by rw [← h2]; exact h4⟩
  obtain ⟨segs, e1, e2⟩ := load h hl hb hr hi ho
  obtain ⟨segs', e1', e2'⟩ := load h' hl' hb' hr' hj ho'
  exact assembleMesh_same (encodeMesh_same hs e1 e1') e2 e2'

end

/-! ### Triangles matter to vertices -/

open Ieee

variable {lib : Libm} {fb : F64Bytes (ops lib)}

/-- The vertices of the triangle `trap` without the triangle. -/
def trapCloud : Mesh (Val b32) := { Mesh.empty with vertices := some trap }

/-- The coordinates that come back. -/
def cloudY : Val b32 := .fin false (535952512 * 2 ^ 120) (by decide +kernel)
def cloudX : Val b32 := .fin false (177547856 * 2 ^ 120) (by decide +kernel)

theorem cloud_bits (hlog : AccurateLog2 lib) :
    vertexBits lib ⟨vZero, vOne, vZero, vEnd, vZero, vZero⟩ (lit 1 1) (lit 1 1) = (7, 10, 10) := by
  rw [vertexBits, bits_clear hlog, bits_clear hlog] <;> decide +kernel

theorem cloud_codes : coordQ 7 vZero vOne vZero = vZero ∧ coordQ 7 vZero vOne vEnd = cloudX ∧ coordQ 10 vZero vEnd vZero = vZero ∧
    coordQ 10 vZero vEnd vOne = cloudY ∧ coordQ 10 vZero vZero vZero = vZero := by decide +kernel

theorem cloud_step (hlog : AccurateLog2 lib) : quantVertices (ops lib) (lit 1 1) (lit 1 1) trap =
    [(vZero, vZero, vZero), (vZero, cloudY, vZero), (cloudX, vZero, vZero)] := by
  rw [trap, quantVertices, vertexBox_ops, trap_box]
  dsimp only
  rw [precs_ops lib, cloud_bits hlog, List.map_cons, List.map_cons, List.map_cons, List.map_nil, quantVertex_ops lib, quantVertex_ops lib,
    quantVertex_ops lib]
  dsimp only
  obtain ⟨c1, c2, c3, c4, c5⟩ := cloud_codes
  rw [c1, c2, c3, c4, c5]

theorem trapCloud_saveable : Saveable 24 creepPrec [(trapCloud, [65])] where
  finite := tenth_exact.1
  vertex := show valueOf (lit 1 1 : Val b32) ≤ _ by rw [tenth_exact.2]; norm_num
  normal := show 7 ≤ 30 by decide
  uv := show 14 ≤ 30 by decide
  tangent := show 7 ≤ 30 by decide
  names := by
    intro mn h
    rcases List.mem_singleton.mp h with rfl
    exact ⟨show 1 < 2 ^ 16 by decide, ⟨['A'], rfl⟩⟩
  mesh := by
    intro mn h
    rcases List.mem_singleton.mp h with rfl
    refine ⟨?_, ?_, ?_, ?_, ?_, ?_, ?_⟩
    · intro l hl
      cases hl
      obtain ⟨h1, h2, h3, h4, h5, -, -, -, h9⟩ := trap_sensible
      exact ⟨6, 1 / 10, h1, h2, h3, h4, h5, (fun t ht => by cases ht), (fun t ht => by cases ht), (fun t ht => by cases ht), h9⟩
    · intro l hl; cases hl
    · intro l hl; cases hl
    · intro l hl; cases hl
    · intro l hl; cases hl
    · intro c hc; cases hc
    · norm_num [segmentBound, mostPieces, indexPieces, onePiece, trapCloud, Mesh.empty, trap]
  size := by
    norm_num [meshSizeBound, segmentBound, mostPieces, indexPieces, onePiece, elements, elementCount, customLoad, customCount, trapCloud, Mesh.empty,
      trap]

theorem cloud_cycle (hlog : AccurateLog2 lib) (hmono : MonotoneLog2 lib) (b b' : Build) :
    FileCycle (ops lib) fb b b' creepPrec [(trapCloud, [65])]
      [({ Mesh.empty with vertices := some [(vZero, vZero, vZero), (vZero, cloudY, vZero), (cloudX, vZero, vZero)] }, [65])] := by
  obtain ⟨bytes, out, hb, -, hr, hf⟩ := saveable_loaded (fb := fb) hlog hmono (by decide) (by decide) trapCloud_saveable
  obtain ⟨mn, rfl, hn, edge, he, hm, hcut⟩ := forall₂_one hf
  have he' : calcShortestEdge (ops lib) none (some trap) = .ok edge := he
  rw [show calcShortestEdge (ops lib) none (some trap) = .ok (lit 1 1 : Val b32) from rfl] at he'
  cases he'
  obtain ⟨qs, hq, -⟩ := hcut trap rfl
  cases flat_cut trap_flat hq
  have hv : loadedVertices (ops lib) .checked (lit 1 1) (lit 1 1) trap = [(vZero, vZero, vZero), (vZero, cloudY, vZero), (cloudX, vZero, vZero)] := by
    rw [loadedVertices, hq]
    dsimp only
    rw [List.flatMap_cons, List.flatMap_nil, List.append_nil, cloud_step hlog]
  have hl : mn = ({ Mesh.empty with vertices := some [(vZero, vZero, vZero), (vZero, cloudY, vZero), (cloudX, vZero, vZero)] }, [65]) := by
    refine Prod.ext ?_ hn
    rw [hm]
    show ({ Mesh.empty with vertices := some (loadedVertices (ops lib) .checked (lit 1 1) (lit 1 1) trap) } : Mesh (Val b32)) = _
    rw [hv]
  subst hl
  exact ⟨bytes, hb b, fun sched => by simpa using hr b' [] sched⟩

/-- **C103, triangles.** That vertices are stored from the triangles too is no accident of the proof: two meshes with the same vertices, one
with and one without a triangle, saved with the same settings, come back with different vertices. -/
theorem C103_triangles_matter (hlog : AccurateLog2 lib) (hmono : MonotoneLog2 lib) :
    ∃ m m' o o' : Mesh (Val b32), m'.vertices = m.vertices ∧
      (∀ b b', FileCycle (ops lib) fb b b' creepPrec [(m, [65])] [(o, [65])] ∧ FileCycle (ops lib) fb b b' creepPrec [(m', [65])] [(o', [65])]) ∧
      o'.vertices ≠ o.vertices := by
  refine ⟨triangleOf trap, trapCloud, triangleOf trapped, _, rfl, fun b b' => ⟨trap_cycle hlog hmono b b', cloud_cycle hlog hmono b b'⟩, ?_⟩
  intro h
  have : cloudY = trapY := by
    have h1 := Option.some.inj h
    rw [trapped] at h1
    simp only [List.cons.injEq, Prod.mk.injEq, true_and, and_true] at h1
    exact h1.1
  exact absurd this (by decide +kernel)

/-- Normals of a mesh with and without vertices and triangles, saved with different settings for the vertices, in files with different
numbers of meshes. -/
example (fb : F64Bytes (ops someLibm)) (b : Build) (l : List (Vec3 (Val b32))) (bytes bytes' : List UInt8)
    (h : tmfBytes (ops someLibm) fb b creepPrec [({ triangleOf trap with normals := some l }, [65])] = .ok bytes)
    (h' : tmfBytes (ops someLibm) fb b { creepPrec with vertex := vOne, uv := 3 }
      [(trapCloud, [65]), ({ Mesh.empty with normals := some l }, [66])] = .ok bytes') :
    ∃ raws raws', bytes = fileBytes 2 raws ∧ bytes' = fileBytes 2 raws' ∧
      (raws'.drop 1).map (fun r => r.segs.filter (feeds .normals)) = raws.map (fun r => r.segs.filter (feeds .normals)) := by
  obtain ⟨raws, raws', e, e', hn, hn', hs⟩ := C103_bytes h h'
  refine ⟨raws, raws', e, e', ?_⟩
  have n1 : raws.length = 1 := by simpa using congrArg List.length hn
  have n2 : raws'.length = 2 := by simpa using congrArg List.length hn'
  clear hn hn' e e'
  match raws, raws', n1, n2 with
  | [r], [r1, r2], _, _ =>
    simp only [List.drop_succ_cons, List.drop_zero, List.map_cons, List.map_nil]
    rw [hs .normals 0 1 _ _ r r2 rfl rfl rfl rfl ⟨rfl, rfl⟩]

end Tmf.Props
