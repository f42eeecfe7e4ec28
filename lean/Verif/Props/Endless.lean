import Verif.Lemmas.Endless
import Verif.Props.Degenerate
import Verif.Props.FileAccuracy
import Verif.Props.VertexDrift
/-
C111: a file with an infinite vertex coordinate is not stored. This holds for `x = ±∞`, `y = +∞` and
`z = -∞` (`C111_refused_partial`), and for `y = -∞` unless the vertex is the last of its piece (`C111_sunk_refused_partial`).
It fails for `z = +∞` (`C111_violated`) and for `y = -∞` in the last vertex of a piece (`C111_sunk_violated`): such vertices are
stored, and every vertex stored with them comes back with NaN for `z` (`C111_lost`, `C111_file`).
-/

set_option exponentiation.threshold 2000

namespace Tmf.Props
open Spec Ieee

variable {lib : Libm} {fb : F64Bytes (ops lib)}

/-- Pieces of an array: the one with the infinite coordinate. -/
theorem endless_piece {vs : List (Vec3 (Val b32))} {ps : List (List (Vec3 (Val b32)))} (hc : ps.flatten = vs) (h : Endless vs) :
    ∃ p ∈ ps, Endless p := by
  have sub : ∀ p ∈ ps, ∀ w ∈ p, w ∈ vs := fun p hp w hw => by rw [← hc]; exact List.mem_flatten.mpr ⟨p, hp, hw⟩
  have find : ∀ v ∈ vs, ∃ p ∈ ps, v ∈ p := fun v hv => by rw [← hc] at hv; exact List.mem_flatten.mp hv
  cases h with
  | above v hv h hz =>
    obtain ⟨p, hp, hvp⟩ := find v hv
    exact ⟨p, hp, .above v hvp h fun w hw => hz w (sub p hp w hw)⟩
  | left v hv h hy =>
    obtain ⟨p, hp, hvp⟩ := find v hv
    exact ⟨p, hp, .left v hvp h fun w hw => hy w (sub p hp w hw)⟩
  | behind v hv h hx =>
    obtain ⟨p, hp, hvp⟩ := find v hv
    exact ⟨p, hp, .behind v hvp h fun w hw => hx w (sub p hp w hw)⟩

/-- A file is not stored if a piece of a vertex array has a box without end on the first or the second axis. -/
theorem endless_refused (hlog : AccurateLog2 lib) {prec : PrecisionInfo (Val b32)} (hS : ByteSettings prec)
    (hp : isFinite prec.vertex = true) (p0 : 0 < valueOf prec.vertex) {meshes : List (Mesh (Val b32) × List UInt8)}
    (hcount : meshes.length < 2 ^ 32) (hnames : ∀ mn ∈ meshes, NameOk mn.2) (hfit : ∀ mn ∈ meshes, MeshFits prec mn.1)
    (hseg : ∀ mn ∈ meshes, segmentBound mn.1 < 2 ^ 16) (hsize : 15 + (meshes.map meshSizeBound).sum ≤ 2 ^ 31)
    {mn : Mesh (Val b32) × List UInt8} (hmn : mn ∈ meshes) {vs : List (Vec3 (Val b32))} (hv : mn.1.vertices = some vs) {b b' : Build}
    (hd : ∀ ps, optVertices (ops lib) b vs = .ok ps → ∃ p ∈ ps, ∃ s, vertexBox (ops lib) p = .ok s ∧
      (sizeOf s.minX s.maxX = .inf false ∨ sizeOf s.minY s.maxY = .inf false))
    {bytes : List UInt8} (hb : tmfBytes (ops lib) fb b prec meshes = .ok bytes) (junk : List UInt8) (sched : List Nat)
    (out : List (Mesh (Val b32) × List UInt8)) :
    readTmf (ops lib) fb b' ⟨bytes ++ junk, sched, false⟩ ≠ .ok out := by
  intro hr
  have hlen := le_trans (C56_linear (orderLaws lib) hS hfit hb) hsize
  have hl : LimitsAny (ops lib) fb b prec meshes := by
    refine ⟨hcount, hnames, ?_, ?_⟩
    · intro mn h
      obtain ⟨f1, f2, f3, f4, f5, f6, f7, f8, f9, _⟩ := hfit mn h
      exact ⟨f1, f2, f3, f4, f5, f6, f7, f8, f9⟩
    · intro mn h segs hs
      exact lt_of_le_of_lt (encodeMesh_count (orderLaws lib) (hfit mn h) hs) (hseg mn h)
  have hn := (C49_accepted_iff (ops lib) fb prec (b' := b') hS hb hl hlen junk sched).mp ⟨out, hr⟩ mn hmn
  obtain ⟨e, he, ps, hps⟩ : ∃ e, calcShortestEdge (ops lib) mn.1.vertexTriangles mn.1.vertices = .ok e ∧
      ∃ ps, optVertices (ops lib) b vs = .ok ps := by
    obtain ⟨enc, hf, -⟩ := tmfBytes_ok _ _ _ _ hb
    obtain ⟨segs, hs⟩ := mapAll_ok_mem hf mn hmn
    rw [encodeMesh, Outcome.bind_eq_ok] at hs
    obtain ⟨e, he, hs⟩ := hs
    rw [mergeSegments_eq] at hs
    simp only [Outcome.bind_ok, Outcome.bind_eq_ok] at hs
    obtain ⟨pieces, hp, -⟩ := hs
    obtain ⟨o, ho⟩ := mapAll_ok_mem hp (.vertex vs) (by simp [mergedSegs, hv])
    obtain ⟨ps, hps, -⟩ := Outcome.bind_eq_ok.mp ho
    exact ⟨e, he, ps, hps⟩
  obtain ⟨p, hpp, s, hs, hpe⟩ := hd ps hps
  obtain ⟨hw1, hw2, -⟩ := hn.vertices vs e ps p s hv he hps hpp hs
  obtain ⟨n, hn, rfl⟩ := edge_plain lib he
  rw [precs_ops lib, vertexBits] at hw1 hw2
  dsimp only at hw1 hw2
  rcases hpe with h | h
  · rw [h, width_endless hlog hp p0] at hw1
    exact absurd hw1 (by decide)
  · rw [h, width_endless hlog hp p0] at hw2
    exact absurd hw2 (by decide)

/-- C111 (the full claim, for every infinite coordinate, is false: `C111_violated`, `C111_sunk_violated`): a file with such an
infinite coordinate is not stored; no build both saves and loads it. -/
theorem C111_refused_partial (hlog : AccurateLog2 lib) {prec : PrecisionInfo (Val b32)} (hS : ByteSettings prec)
    (hp : isFinite prec.vertex = true) (p0 : 0 < valueOf prec.vertex) {meshes : List (Mesh (Val b32) × List UInt8)}
    (hcount : meshes.length < 2 ^ 32) (hnames : ∀ mn ∈ meshes, NameOk mn.2) (hfit : ∀ mn ∈ meshes, MeshFits prec mn.1)
    (hseg : ∀ mn ∈ meshes, segmentBound mn.1 < 2 ^ 16) (hsize : 15 + (meshes.map meshSizeBound).sum ≤ 2 ^ 31)
    {mn : Mesh (Val b32) × List UInt8} (hmn : mn ∈ meshes) {vs : List (Vec3 (Val b32))} (hv : mn.1.vertices = some vs) (hd : Endless vs)
    (b b' : Build) {bytes : List UInt8} (hb : tmfBytes (ops lib) fb b prec meshes = .ok bytes) (junk : List UInt8) (sched : List Nat)
    (out : List (Mesh (Val b32) × List UInt8)) :
    readTmf (ops lib) fb b' ⟨bytes ++ junk, sched, false⟩ ≠ .ok out := by
  refine endless_refused hlog hS hp p0 hcount hnames hfit hseg hsize hmn hv ?_ hb junk sched out
  intro ps hps
  have hcut := optVerticesFuel_cuts (orderLaws lib) _ _ _ hps
  obtain ⟨p, hpp, hpe⟩ := endless_piece hcut.1 hd
  obtain ⟨s, hs⟩ : ∃ s, vertexBox (ops lib) p = .ok s := by
    cases p with
    | nil => cases hpe <;> contradiction
    | cons v p => exact ⟨_, vertexBox_ops lib v p⟩
  exact ⟨p, hpp, s, hs, box_endless hpe hs⟩

/-- C111 for `y = -∞` (false if the vertex is the last of its piece: `C111_sunk_violated`): a file is not stored if such a
vertex has a successor in the piece it is stored in. -/
theorem C111_sunk_refused_partial (hlog : AccurateLog2 lib) {prec : PrecisionInfo (Val b32)} (hS : ByteSettings prec)
    (hp : isFinite prec.vertex = true) (p0 : 0 < valueOf prec.vertex) {meshes : List (Mesh (Val b32) × List UInt8)}
    (hcount : meshes.length < 2 ^ 32) (hnames : ∀ mn ∈ meshes, NameOk mn.2) (hfit : ∀ mn ∈ meshes, MeshFits prec mn.1)
    (hseg : ∀ mn ∈ meshes, segmentBound mn.1 < 2 ^ 16) (hsize : 15 + (meshes.map meshSizeBound).sum ≤ 2 ^ 31)
    {mn : Mesh (Val b32) × List UInt8} (hmn : mn ∈ meshes) {vs : List (Vec3 (Val b32))} (hv : mn.1.vertices = some vs) 
    (b b' : Build) {ps : List (List (Vec3 (Val b32)))} (hps : optVertices (ops lib) b vs = .ok ps) {p : List (Vec3 (Val b32))}
    (hpp : p ∈ ps) (hd : SunkBefore p) {bytes : List UInt8} (hb : tmfBytes (ops lib) fb b prec meshes = .ok bytes) (junk : List UInt8)
    (sched : List Nat) (out : List (Mesh (Val b32) × List UInt8)) :
    readTmf (ops lib) fb b' ⟨bytes ++ junk, sched, false⟩ ≠ .ok out := by
  refine endless_refused hlog hS hp p0 hcount hnames hfit hseg hsize hmn hv ?_ hb junk sched out
  intro ps' hps'
  cases hps.symm.trans hps'
  obtain ⟨s, hs⟩ : ∃ s, vertexBox (ops lib) p = .ok s := by
    cases p with
    | nil => obtain ⟨v, hv, -⟩ := hd.sunk; cases hv
    | cons v p => exact ⟨_, vertexBox_ops lib v p⟩
  exact ⟨p, hpp, s, hs, .inr (box_sunk hd hs)⟩

/-- A single vertex with `x = +∞`. -/
def farPoint : Mesh (Val b32) := { (Mesh.empty : Mesh (Val b32)) with vertices := some [(.inf false, vZero, vZero)] }

/-- The hypotheses of `C111_refused_partial` can be met. A release build saves the vertex, but no build loads it. -/
example (fb : F64Bytes (ops someLibm)) : ∃ bytes, tmfBytes (ops someLibm) fb .wrapping creepPrec [(farPoint, [65])] = .ok bytes ∧
    ∀ b junk sched out, readTmf (ops someLibm) fb b ⟨bytes ++ junk, sched, false⟩ ≠ .ok out := by
  obtain ⟨bytes, hb⟩ : ∃ bytes, tmfBytes (ops someLibm) fb .wrapping creepPrec [(farPoint, [65])] = .ok bytes := by
    refine C29_saved_partial (orderLaws someLibm) .wrapping _ _ ?_ ?_ ?_ ?_ ?_
    · intro mn hm
      cases List.mem_singleton.mp hm
      refine ⟨rfl, ⟨?_, ?_, ?_⟩, ?_, ?_, ?_, ?_, ?_⟩
      · intro l hl; cases hl; show 1 < 2 ^ 32; decide
      · intro l hl; cases hl
      · intro l hl; cases hl
      · intro t ht; cases ht
      · intro t ht; cases ht
      · intro t ht; cases ht
      · intro t ht; cases ht
      · intro c hc; cases hc
    · intro mn hm; cases List.mem_singleton.mp hm; simp [farPoint]
    · intro mn hm vs t hv ht
      cases List.mem_singleton.mp hm
      cases ht
    · intro mn hm
      cases List.mem_singleton.mp hm
      refine ⟨show isFinite (lit 1 1 : Val b32) = true by decide +kernel, fun vs t hv ht _ => ?_⟩
      cases ht
    · intro h; cases h
  refine ⟨bytes, hb, fun b junk sched out => ?_⟩
  refine C111_refused_partial (meshes := [(farPoint, [65])]) someLibm_log2 ⟨by decide, by decide, by decide⟩ tenth_exact.1
    (show 0 < valueOf (lit 1 1 : Val b32) by rw [tenth_exact.2]; norm_num) (show 1 < 2 ^ 32 by decide) ?_ ?_ ?_ ?_ List.mem_cons_self
    (vs := [(.inf false, vZero, vZero)]) rfl (.above _ List.mem_cons_self (.inl rfl) ?_) .wrapping b hb junk sched out
  · intro mn h
    rcases List.mem_singleton.mp h with rfl
    exact ⟨show 1 < 2 ^ 16 by decide, ⟨['A'], rfl⟩⟩
  · intro mn h
    rcases List.mem_singleton.mp h with rfl
    refine ⟨?_, ?_, ?_, ?_, ?_, ?_, ?_, ?_, ?_, ?_, ?_⟩ <;> simp [LengthFits, IndicesFit, farPoint, Mesh.empty]
  · intro mn h
    rcases List.mem_singleton.mp h with rfl
    norm_num [segmentBound, mostPieces, indexPieces, onePiece, farPoint, Mesh.empty]
  · norm_num [meshSizeBound, segmentBound, mostPieces, indexPieces, onePiece, elements, elementCount, customLoad, customCount, farPoint, Mesh.empty]
  · intro w hw
    rcases List.mem_singleton.mp hw with rfl
    rfl

/-- What becomes of an array with `z = +∞` or `y = -∞`, stored as one segment: every vertex comes back with NaN for `z`. -/
theorem C111_lost {b : Build} {l : List (Vec3 (Val b32))} {pr e : Val b32} {s : VBox (Val b32)} (hs : vertexBox (ops lib) l = .ok s)
    (hx : (s.precs (ops lib) pr e).1 ≤ 30) (hy : (s.precs (ops lib) pr e).2.1 ≤ 30) (hl : l.length ≤ 2 ^ 31) (hd : Deep l) :
    ∃ bytes l', saveVertices (ops lib) fb b l pr e = .ok bytes ∧ readVertices (ops lib) fb bytes = .ok l' ∧ l'.length = l.length ∧
      ∀ v ∈ l', v.2.2 = .nan := by
  have hyz' : (s.precs (ops lib) pr e).2.2 = (s.precs (ops lib) pr e).2.1 := rfl
  obtain ⟨bytes, hw, hr⟩ := readVertices_saved (fo := ops lib) (fb := fb) (b := b) (precision := pr) (edge := e) hs hx hy
    (by omega) hl
  have h := hr []
  rw [List.append_nil, quantVertices, hs] at h
  dsimp only at h
  refine ⟨bytes, _, hw, h, List.length_map _, ?_⟩
  intro v hv
  obtain ⟨w, -, rfl⟩ := List.mem_map.mp hv
  obtain ⟨h1, h2, h3⟩ := box_deep hs hd
  rw [quantVertex_ops lib]
  exact coord_lost (le_max_right _ _) (le_trans hy (by decide)) _ h1 h2 h3

theorem deep_lost {p : List (Vec3 (Val b32))} {pr e : Val b32} (hw : ∀ s, vertexBox (ops lib) p = .ok s →
    (s.precs (ops lib) pr e).2.2 ≤ 30) (hd : Deep p) :
    (quantVertices (ops lib) pr e p).length = p.length ∧ ∀ v ∈ quantVertices (ops lib) pr e p, v.2.2 = .nan := by
  cases p with
  | nil => obtain ⟨v, hv, -⟩ := hd.some; cases hv
  | cons v0 p =>
    obtain ⟨s, hs⟩ : ∃ s, vertexBox (ops lib) (v0 :: p) = .ok s := ⟨_, vertexBox_ops lib v0 p⟩
    rw [quantVertices, hs]
    refine ⟨List.length_map _, fun v hv => ?_⟩
    obtain ⟨w, -, rfl⟩ := List.mem_map.mp hv
    obtain ⟨h1, h2, h3⟩ := box_deep hs hd
    rw [quantVertex_ops lib]
    exact coord_lost (le_max_right _ _) (le_trans (hw s hs) (by decide)) _ h1 h2 h3

/-- C111 for the files that are stored: in every piece of a vertex array with `z = +∞` or `y = -∞`, all vertices come back
with NaN for `z`; the damage does not go unnoticed. -/
theorem C111_file {b b' : Build} {prec : PrecisionInfo (Val b32)} {meshes : List (Mesh (Val b32) × List UInt8)} {bytes : List UInt8}
    (h : tmfBytes (ops lib) fb b prec meshes = .ok bytes) (hl : LimitsLow (ops lib) fb b prec meshes) (hb : bytes.length ≤ 2 ^ 31)
    (junk : List UInt8) (sched : List Nat) :
    ∃ out, readTmf (ops lib) fb b' ⟨bytes ++ junk, sched, false⟩ = .ok out ∧
      List.Forall₂ (fun mn mn' => ∀ l, mn.1.vertices = some l →
        ∃ pieces pieces', optVertices (ops lib) b l = .ok pieces ∧ pieces.flatten = l ∧ mn'.1.vertices = some pieces'.flatten ∧
          List.Forall₂ (fun p p' => Deep p → p'.length = p.length ∧ ∀ v ∈ p', v.2.2 = .nan) pieces pieces') meshes out := by
  obtain ⟨out, e, hf⟩ := readTmf_low (b' := b') h hl hb junk sched
  refine ⟨out, e, forall₂_imp hf ?_⟩
  rintro mn hmn mn' ⟨_, edge, he, hm, hcut⟩ l hml
  obtain ⟨qs, hq, hc⟩ := hcut l hml
  refine ⟨qs, qs.map (quantVertices (ops lib) prec.vertex edge), hq, hc, ?_, forall₂_map fun p hp hd => ?_⟩
  · rw [hm]
    simp only [loadedMesh, hml, Option.map_some, loadedVertices, hq, List.flatMap_def]
  · exact deep_lost (fun s hs => ((saved_narrow h hl mn hmn).vertices l edge qs p s hml he hq hp hs).2.2) hd

/-- Three vertices, one of them with `z = +∞`. -/
def deepVertices : List (Vec3 (Val b32)) := [(vZero, vZero, vZero), (vZero, vZero, .inf false), (vOne, vOne, vOne)]

theorem box_deepVertices : boxOf (vZero, vZero, vZero) [(vZero, vZero, .inf false), (vOne, vOne, vOne)] =
    ⟨vZero, vOne, vZero, vOne, vZero, .inf false⟩ := by decide +kernel

theorem bits_deepVertices (hlog : AccurateLog2 lib) :
    vertexBits lib ⟨vZero, vOne, vZero, vOne, vZero, .inf false⟩ (lit 1 1) vOne = (4, 4, 4) := by
  rw [vertexBits, bits_clear hlog] <;> decide +kernel

theorem deepVertices_deep : Deep deepVertices where
  y := by
    intro v hv
    simp only [deepVertices, List.mem_cons, List.not_mem_nil, or_false] at hv
    rcases hv with rfl | rfl | rfl <;> exact .inr rfl
  z := by
    intro v hv
    simp only [deepVertices, List.mem_cons, List.not_mem_nil, or_false] at hv
    rcases hv with rfl | rfl | rfl
    · exact .inr rfl
    · exact .inl rfl
    · exact .inr rfl
  some := ⟨(vZero, vZero, .inf false), by simp [deepVertices], .inr rfl⟩

/-- C111 is false for `z = +∞`: with a precision of 0.1 and the shortest edge 1, the vertices `(0,0,0)`, `(0,0,∞)`, `(1,1,1)` are
saved and loaded by every build, and all three come back with NaN for `z`. -/
theorem C111_violated (hlog : AccurateLog2 lib) {b : Build} :
    ∃ bytes x y z, saveVertices (ops lib) fb b deepVertices (lit 1 1) vOne = .ok bytes ∧
      readVertices (ops lib) fb bytes = .ok [x, y, z] ∧ x.2.2 = .nan ∧ y.2.2 = .nan ∧ z.2.2 = .nan := by
  have hs : vertexBox (ops lib) deepVertices = .ok ⟨vZero, vOne, vZero, vOne, vZero, .inf false⟩ := by
    rw [deepVertices, vertexBox_ops, box_deepVertices]
  obtain ⟨bytes, l', hw, hr, hlen, hz⟩ := C111_lost (fb := fb) (b := b) (pr := lit 1 1) (e := vOne) hs
    (by rw [precs_ops lib, bits_deepVertices hlog]; decide) (by rw [precs_ops lib, bits_deepVertices hlog]; decide)
    (show 3 ≤ 2 ^ 31 by decide)
    deepVertices_deep
  match l', hlen with
  | [x, y, z], _ =>
    exact ⟨bytes, x, y, z, hw, hr, hz x (by simp), hz y (by simp), hz z (by simp)⟩

/-! ### `y = -∞` -/

/-- Three vertices, the last with `y = -∞`. -/
def sunkVertices : List (Vec3 (Val b32)) := [(vZero, vZero, vZero), (vOne, vOne, vZero), (vOne, .inf true, vZero)]

theorem box_sunkVertices : boxOf (vZero, vZero, vZero) [(vOne, vOne, vZero), (vOne, .inf true, vZero)] =
    ⟨vZero, vOne, vZero, vOne, .inf true, vZero⟩ := by decide +kernel

theorem bits_sunkVertices (hlog : AccurateLog2 lib) :
    vertexBits lib ⟨vZero, vOne, vZero, vOne, .inf true, vZero⟩ (lit 1 1) (lit 1 1) = (7, 7, 7) := by
  rw [vertexBits, bits_clear hlog] <;> decide +kernel

theorem sunkVertices_deep : Deep sunkVertices where
  y := by
    intro v hv
    simp only [sunkVertices, List.mem_cons, List.not_mem_nil, or_false] at hv
    rcases hv with rfl | rfl | rfl
    · exact .inr rfl
    · exact .inr rfl
    · exact .inl rfl
  z := by
    intro v hv
    simp only [sunkVertices, List.mem_cons, List.not_mem_nil, or_false] at hv
    rcases hv with rfl | rfl | rfl <;> exact .inr rfl
  some := ⟨(vOne, .inf true, vZero), by simp [sunkVertices], .inl rfl⟩

/-- A mesh of these vertices. -/
def sunkMesh : Mesh (Val b32) := { (Mesh.empty : Mesh (Val b32)) with vertices := some sunkVertices }

theorem sunk_flat : ∀ v ∈ sunkVertices, v.2.2 = vZero := by
  intro v hv
  simp only [sunkVertices, List.mem_cons, List.not_mem_nil, or_false] at hv
  rcases hv with rfl | rfl | rfl <;> rfl

theorem sunk_fits : MeshFits creepPrec sunkMesh := by
  refine ⟨?_, ?_, ?_, ?_, ?_, ?_, ?_, ?_, ?_, ?_, ?_⟩ <;> simp [LengthFits, IndicesFit, sunkMesh, sunkVertices, Mesh.empty]

theorem sunk_limits (hlog : AccurateLog2 lib) : LimitsLow (ops lib) fb .wrapping creepPrec [(sunkMesh, [65])] where
  count := show 1 < 2 ^ 32 by decide
  names := by
    intro mn h
    rcases List.mem_singleton.mp h with rfl
    exact ⟨show 1 < 2 ^ 16 by decide, ⟨['A'], rfl⟩⟩
  fits := by
    intro mn h
    rcases List.mem_singleton.mp h with rfl
    exact sunk_fits
  segments := by
    intro mn h segs hs
    rcases List.mem_singleton.mp h with rfl
    refine lt_of_le_of_lt (encodeMesh_count (orderLaws lib) sunk_fits hs) ?_
    norm_num [segmentBound, mostPieces, indexPieces, onePiece, sunkMesh, sunkVertices, Mesh.empty]
  low := by
    right
    intro mn h
    rcases List.mem_singleton.mp h with rfl
    refine ⟨(fun h => nomatch h), (fun h => nomatch h), (fun h => nomatch h), (fun c hc => nomatch hc), ?_⟩
    intro l edge pieces piece s hl he hp hm hs
    cases hl
    cases flat_cut sunk_flat hp
    cases List.mem_singleton.mp hm
    replace he := (show calcShortestEdge (ops lib) none (some sunkVertices) = .ok (lit 1 1 : Val b32) from rfl).symm.trans he
    cases he
    rw [sunkVertices, vertexBox_ops, box_sunkVertices] at hs
    cases hs
    rw [show creepPrec.vertex = lit 1 1 from rfl, precs_ops lib, bits_sunkVertices hlog]
    decide

theorem sunk_saved (fb : F64Bytes (ops lib)) : ∃ bytes, tmfBytes (ops lib) fb .wrapping creepPrec [(sunkMesh, [65])] = .ok bytes := by
  refine C29_saved_partial (orderLaws lib) .wrapping _ _ ?_ ?_ ?_ ?_ ?_
  · intro mn hm
    cases List.mem_singleton.mp hm
    refine ⟨rfl, ⟨?_, ?_, ?_⟩, ?_, ?_, ?_, ?_, ?_⟩
    · intro l hl; cases hl; show 3 < 2 ^ 32; decide
    · intro l hl; cases hl
    · intro l hl; cases hl
    · intro t ht; cases ht
    · intro t ht; cases ht
    · intro t ht; cases ht
    · intro t ht; cases ht
    · intro c hc; cases hc
  · intro mn hm; cases List.mem_singleton.mp hm; simp [sunkMesh, sunkVertices]
  · intro mn hm vs t hv ht
    cases List.mem_singleton.mp hm
    cases ht
  · intro mn hm
    cases List.mem_singleton.mp hm
    refine ⟨show isFinite (lit 1 1 : Val b32) = true by decide +kernel, fun vs t hv ht _ => ?_⟩
    cases ht
  · intro h; cases h

/-- C111 is false for `y = -∞` in the last vertex: with the default settings, a release build saves the file with the
vertices `(0,0,0)`, `(1,1,0)`, `(1,-∞,0)`, every build loads it, and all three vertices come back with NaN for `z`. -/
theorem C111_sunk_violated (hlog : AccurateLog2 lib) :
    ∃ bytes, tmfBytes (ops lib) fb .wrapping (PrecisionInfo.default (ops lib)) [(sunkMesh, [65])] = .ok bytes ∧
      ∀ b' junk sched, ∃ m x y z, readTmf (ops lib) fb b' ⟨bytes ++ junk, sched, false⟩ = .ok [m] ∧
        m.1.vertices = some [x, y, z] ∧ x.2.2 = .nan ∧ y.2.2 = .nan ∧ z.2.2 = .nan := by
  rw [C91_bits hlog]
  obtain ⟨bytes, hb⟩ := sunk_saved fb
  have hlen : bytes.length ≤ 2 ^ 31 := by
    refine le_trans (C56_linear (orderLaws lib) ⟨show 7 < 256 by decide, show 14 < 256 by decide, show 7 < 256 by decide⟩ ?_ hb) ?_
    · intro mn h
      rcases List.mem_singleton.mp h with rfl
      exact sunk_fits
    · norm_num [meshSizeBound, segmentBound, mostPieces, indexPieces, onePiece, elements, elementCount, customLoad, customCount, sunkMesh,
        sunkVertices, Mesh.empty]
  refine ⟨bytes, hb, fun b' junk sched => ?_⟩
  obtain ⟨out, hr, hf⟩ := C111_file (b' := b') hb (sunk_limits hlog) hlen junk sched
  obtain ⟨m, rfl, h⟩ := forall₂_one hf
  obtain ⟨ps, ps', hq, -, hv, hd⟩ := h sunkVertices rfl
  cases flat_cut sunk_flat hq
  obtain ⟨p', rfl, hd'⟩ := forall₂_one hd
  obtain ⟨hl, hz⟩ := hd' sunkVertices_deep
  rw [List.flatten_cons, List.flatten_nil, List.append_nil] at hv
  match p', hl with
  | [x, y, z], _ => exact ⟨m, x, y, z, hr, hv, hz x (by simp), hz y (by simp), hz z (by simp)⟩

/-- Two vertices, the first with `y = -∞`. -/
def sunkFirst : List (Vec3 (Val b32)) := [(vZero, .inf true, vZero), (vOne, vOne, vZero)]

/-- A mesh of these vertices. -/
def sunkFirstMesh : Mesh (Val b32) := { (Mesh.empty : Mesh (Val b32)) with vertices := some sunkFirst }

theorem sunkFirst_flat : ∀ v ∈ sunkFirst, v.2.2 = vZero := by
  intro v hv
  simp only [sunkFirst, List.mem_cons, List.not_mem_nil, or_false] at hv
  rcases hv with rfl | rfl <;> rfl

/-- The hypotheses of `C111_sunk_refused_partial` can be met. A release build saves the two vertices, but no build loads them. -/
example (hlog : AccurateLog2 lib) : ∃ bytes, tmfBytes (ops lib) fb .wrapping creepPrec [(sunkFirstMesh, [65])] = .ok bytes ∧
    ∀ b junk sched out, readTmf (ops lib) fb b ⟨bytes ++ junk, sched, false⟩ ≠ .ok out := by
  obtain ⟨bytes, hb⟩ : ∃ bytes, tmfBytes (ops lib) fb .wrapping creepPrec [(sunkFirstMesh, [65])] = .ok bytes := by
    refine C29_saved_partial (orderLaws lib) .wrapping _ _ ?_ ?_ ?_ ?_ ?_
    · intro mn hm
      cases List.mem_singleton.mp hm
      refine ⟨rfl, ⟨?_, ?_, ?_⟩, ?_, ?_, ?_, ?_, ?_⟩
      · intro l hl; cases hl; show 2 < 2 ^ 32; decide
      · intro l hl; cases hl
      · intro l hl; cases hl
      · intro t ht; cases ht
      · intro t ht; cases ht
      · intro t ht; cases ht
      · intro t ht; cases ht
      · intro c hc; cases hc
    · intro mn hm; cases List.mem_singleton.mp hm; simp [sunkFirstMesh, sunkFirst]
    · intro mn hm vs t hv ht
      cases List.mem_singleton.mp hm
      cases ht
    · intro mn hm
      cases List.mem_singleton.mp hm
      refine ⟨show isFinite (lit 1 1 : Val b32) = true by decide +kernel, fun vs t hv ht _ => ?_⟩
      cases ht
    · intro h; cases h
  obtain ⟨ps, hps⟩ : ∃ ps, optVertices (ops lib) .wrapping sunkFirst = .ok ps := by
    obtain ⟨enc, hf, -⟩ := tmfBytes_ok _ _ _ _ hb
    obtain ⟨segs, hs⟩ := mapAll_ok_mem hf (sunkFirstMesh, [65]) List.mem_cons_self
    rw [encodeMesh, Outcome.bind_eq_ok] at hs
    obtain ⟨e, he, hs⟩ := hs
    rw [mergeSegments_eq] at hs
    simp only [Outcome.bind_ok, Outcome.bind_eq_ok] at hs
    obtain ⟨pieces, hp, -⟩ := hs
    obtain ⟨o, ho⟩ := mapAll_ok_mem hp (.vertex sunkFirst) (by simp [mergedSegs, sunkFirstMesh])
    obtain ⟨ps, hps, -⟩ := Outcome.bind_eq_ok.mp ho
    exact ⟨ps, hps⟩
  refine ⟨bytes, hb, fun b junk sched out => ?_⟩
  refine C111_sunk_refused_partial (meshes := [(sunkFirstMesh, [65])]) hlog ⟨by decide, by decide, by decide⟩ tenth_exact.1
    (show 0 < valueOf (lit 1 1 : Val b32) by rw [tenth_exact.2]; norm_num) (show 1 < 2 ^ 32 by decide) ?_ ?_ ?_ ?_ List.mem_cons_self
    (vs := sunkFirst) rfl .wrapping b (ps := ps) hps (p := sunkFirst) ?_ ?_ hb junk sched out
  · intro mn h
    rcases List.mem_singleton.mp h with rfl
    exact ⟨show 1 < 2 ^ 16 by decide, ⟨['A'], rfl⟩⟩
  · intro mn h
    rcases List.mem_singleton.mp h with rfl
    refine ⟨?_, ?_, ?_, ?_, ?_, ?_, ?_, ?_, ?_, ?_, ?_⟩ <;> simp [LengthFits, IndicesFit, sunkFirstMesh, sunkFirst, Mesh.empty]
  · intro mn h
    rcases List.mem_singleton.mp h with rfl
    norm_num [segmentBound, mostPieces, indexPieces, onePiece, sunkFirstMesh, sunkFirst, Mesh.empty]
  · norm_num [meshSizeBound, segmentBound, mostPieces, indexPieces, onePiece, elements, elementCount, customLoad, customCount,
      sunkFirstMesh, sunkFirst, Mesh.empty]
  · cases flat_cut sunkFirst_flat hps
    exact List.mem_cons_self
  · refine ⟨⟨(vZero, .inf true, vZero), by simp [sunkFirst], rfl⟩, ?_⟩
    intro v hv
    simp only [sunkFirst, List.mem_cons, List.not_mem_nil, or_false] at hv
    rcases hv with rfl | rfl <;> rfl

end Tmf.Props
