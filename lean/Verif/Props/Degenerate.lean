import Verif.Lemmas.Degenerate
import Verif.Lemmas.Export
import Verif.Props.PolyStuck
/-
C109: a triangle with two corners in one place keeps a file from being stored.
-/

set_option exponentiation.threshold 2000

namespace Tmf.Props
open Spec Ieee

variable {lib : Libm} {fb : F64Bytes (ops lib)}

theorem degenerate_edge {m : Mesh (Val b32)} {vs : List (Vec3 (Val b32))} {t : List Nat} (h : Degenerate m vs t) {e : Val b32}
    (he : calcShortestEdge (ops lib) (some t) (some vs) = .ok e) : ∃ h0, e = .fin false 0 h0 := by
  obtain ⟨i, j, a, c, hij, ha, hc, htog⟩ := h.edge
  have h3 : 3 ≤ t.length := by
    obtain ⟨k, x, y, z, hx, hy, hz, -⟩ := hij
    have := (List.getElem?_eq_some_iff.mp hz).1
    omega
  have hi : ∀ i j, IsEdge t i j → i < vs.length := by
    by_contra hno
    push Not at hno
    obtain ⟨i, j, h1, h2⟩ := hno
    rw [C53_range (ops lib) h1 h2] at he
    cases he
  obtain ⟨e', he', hl⟩ := shortest_least (lib := lib) h.bounded h3 hi
  rw [he] at he'
  cases he'
  have hle := hl.least i j a c hij ha hc
  rw [dist_together (h.bounded a (List.mem_of_getElem? ha)) (h.bounded c (List.mem_of_getElem? hc)) htog] at hle
  obtain ⟨i', j', a', c', -, ha', hc', rfl⟩ := hl.attained
  have ba := h.bounded a' (List.mem_of_getElem? ha')
  have bc := h.bounded c' (List.mem_of_getElem? hc')
  obtain ⟨n1, n2, -⟩ := distV_near ba bc
  exact zero_cases n1 (le_antisymm hle n2) (dist_sign ba bc)

/-- C109: a file with a triangle two corners of which are in the same place, or nearly so, is not stored: no build both saves and loads it. -/
theorem C109_degenerate (hlog : AccurateLog2 lib) (hmono : MonotoneLog2 lib) {prec : PrecisionInfo (Val b32)} (hS : ByteSettings prec)
    (hp : isFinite prec.vertex = true) (p0 : 0 < valueOf prec.vertex) {meshes : List (Mesh (Val b32) × List UInt8)}
    (hcount : meshes.length < 2 ^ 32) (hnames : ∀ mn ∈ meshes, NameOk mn.2) (hfit : ∀ mn ∈ meshes, MeshFits prec mn.1)
    (hseg : ∀ mn ∈ meshes, segmentBound mn.1 < 2 ^ 16) (hsize : 15 + (meshes.map meshSizeBound).sum ≤ 2 ^ 31)
    {mn : Mesh (Val b32) × List UInt8} (hmn : mn ∈ meshes) {vs : List (Vec3 (Val b32))} {t : List Nat} (hd : Degenerate mn.1 vs t)
    (b b' : Build) {bytes : List UInt8} (hb : tmfBytes (ops lib) fb b prec meshes = .ok bytes) (junk : List UInt8) (sched : List Nat)
    (out : List (Mesh (Val b32) × List UInt8)) :
    readTmf (ops lib) fb b' ⟨bytes ++ junk, sched, false⟩ ≠ .ok out := by
  intro hr
  have hlen := le_trans (C56_linear (orderLaws lib) hS hfit hb) hsize
  have hl : LimitsAny (ops lib) fb b prec meshes := by
    refine ⟨hcount, hnames, ?_, ?_⟩
    · intro mn h
      obtain ⟨f1, f2, f3, f4, f5, f6, f7, f8, f9, _⟩ := hfit mn h
      exact ⟨f1, f2, f3, f4, f5, f6, f7, f8, f9⟩
    · intro mn h segs hs
      exact lt_of_le_of_lt (encodeMesh_count (orderLaws lib) (hfit mn h) hs) (hseg mn h)
  have hn := (C49_accepted_iff (ops lib) fb prec (b' := b') hS hb hl hlen junk sched).mp ⟨out, hr⟩ mn hmn
  obtain ⟨ps, hps, hcut⟩ := C09_bounded hlog hmono (vs := vs) (by
    intro v hv
    obtain ⟨h1, h2, h3, h4⟩ := hd.bounded v hv
    have : (2 : ℚ) ^ 58 ≤ 2 ^ 76 := by norm_num
    exact ⟨h1, le_trans h2 this, le_trans h3 this, le_trans h4 this⟩)
  have hne : vs ≠ [] := by
    obtain ⟨i, j, a, c, -, ha, -⟩ := hd.edge
    rintro rfl
    simp at ha
  obtain ⟨piece, rest, rfl⟩ := List.exists_cons_of_ne_nil hcut.2.1
  have hpn := hcut.2.2 hne piece List.mem_cons_self
  obtain ⟨v, l, rfl⟩ := List.exists_cons_of_ne_nil hpn
  have hin : ∀ x ∈ v :: l, x ∈ vs := by
    intro x hx
    rw [← hcut.1]
    exact List.mem_flatten.mpr ⟨_, List.mem_cons_self, hx⟩
  have hbox := vertexBox_ops (lib := lib) v l
  obtain ⟨e, he⟩ : ∃ e, calcShortestEdge (ops lib) mn.1.vertexTriangles mn.1.vertices = .ok e := by
    obtain ⟨enc, hf, -⟩ := tmfBytes_ok _ _ _ _ hb
    obtain ⟨segs, hs⟩ := mapAll_ok_mem hf mn hmn
    unfold encodeMesh at hs
    obtain ⟨e, he, -⟩ := Outcome.bind_eq_ok.mp hs
    exact ⟨e, he⟩
  obtain ⟨bf, bw⟩ := box_within (M := 2 ^ 58) (fun x hx => hd.bounded x (hin x hx)) hbox
  have hw := (hn.vertices vs e _ _ _ hd.vertices he (hps b) List.mem_cons_self hbox).1
  rw [hd.vertices, hd.triangles] at he
  obtain ⟨h0, rfl⟩ := degenerate_edge hd he
  obtain ⟨s1, s2, -⟩ := size_value bf.minX bf.maxX bw.minX bw.maxX (le_refl _)
  rw [precs_ops lib, vertexBits] at hw
  dsimp only at hw
  rw [width_zero hlog s1 (lt_of_lt_of_le (by norm_num) s2) hp p0] at hw
  exact absurd hw (by decide)

/-- A triangle with all its corners at the origin. -/
theorem point_degenerate (lib : Libm) : Degenerate (pointTriangle lib) [(zero32, zero32, zero32)] [0, 0, 0] where
  vertices := rfl
  triangles := rfl
  bounded := by
    intro v hv
    rcases List.mem_singleton.mp hv with rfl
    have hz : valueOf zero32 = 0 := by
      rw [show zero32 = .fin false 0 (by decide +kernel) by decide +kernel, valueOf_fin]
      simp
    have hb : |valueOf zero32| ≤ 2 ^ 58 := by rw [hz]; norm_num
    exact ⟨⟨by decide +kernel, by decide +kernel, by decide +kernel⟩, hb, hb, hb⟩
  edge := by
    refine ⟨0, 0, (zero32, zero32, zero32), (zero32, zero32, zero32), ⟨0, 0, 0, 0, rfl, rfl, rfl, .inl ⟨rfl, rfl⟩⟩, rfl, rfl, ?_⟩
    refine ⟨?_, ?_, ?_⟩ <;> rw [sub_self, abs_zero] <;> norm_num

/-- The hypotheses of `C109_degenerate` can be met. A release build saves the triangle, but no build loads it. -/
example (fb : F64Bytes (ops someLibm)) : ∃ bytes, tmfBytes (ops someLibm) fb .wrapping creepPrec [(pointTriangle someLibm, [65])] = .ok bytes ∧
    ∀ b junk sched out, readTmf (ops someLibm) fb b ⟨bytes ++ junk, sched, false⟩ ≠ .ok out := by
  obtain ⟨bytes, hb⟩ := pointTriangle_saved someLibm fb
  rw [C91_bits someLibm_log2] at hb
  refine ⟨bytes, hb, fun b junk sched out => ?_⟩
  refine C109_degenerate (meshes := [(pointTriangle someLibm, [65])]) someLibm_log2 someLibm_monotone ⟨by decide, by decide, by decide⟩ tenth_exact.1
    (show 0 < valueOf (lit 1 1 : Val b32) by rw [tenth_exact.2]; norm_num) (show 1 < 2 ^ 32 by decide) ?_ ?_ ?_ ?_ List.mem_cons_self
    (point_degenerate someLibm) .wrapping b hb junk sched out
  · intro mn h
    rcases List.mem_singleton.mp h with rfl
    exact ⟨show 1 < 2 ^ 16 by decide, ⟨['A'], rfl⟩⟩
  · intro mn h
    rcases List.mem_singleton.mp h with rfl
    refine ⟨?_, ?_, ?_, ?_, ?_, ?_, ?_, ?_, ?_, ?_, ?_⟩ <;> simp [LengthFits, IndicesFit, pointTriangle, Mesh.empty]
  · intro mn h
    rcases List.mem_singleton.mp h with rfl
    norm_num [segmentBound, mostPieces, indexPieces, onePiece, pointTriangle, Mesh.empty]
  · norm_num [meshSizeBound, segmentBound, mostPieces, indexPieces, onePiece, elements, elementCount, customLoad, customCount, pointTriangle, Mesh.empty]

end Tmf.Props
