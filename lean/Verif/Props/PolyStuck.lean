import Verif.Props.PolyConvert
import Verif.Props.Cover
/-
C108: pentagons cannot be stored.
-/

set_option exponentiation.threshold 2000

namespace Tmf.Props
open Spec Ieee

variable {lib : Libm} {fb : F64Bytes (ops lib)}

/-- The corners of a pentagon. -/
def pentCorners : List Corner := [⟨0, 0, 0⟩, ⟨1, 0, 0⟩, ⟨2, 0, 0⟩, ⟨3, 0, 0⟩, ⟨4, 0, 0⟩]

/-- A file with a pentagon in the shape of a house. -/
def pentLines : List (PolyLine (Val b32)) :=
  [.plain (plainLine "v 0 0 0" (.vertex (num "0", num "0", num "0"))),
   .plain (plainLine "v 1 0 0" (.vertex (num "1", num "0", num "0"))),
   .plain (plainLine "v 1 1 0" (.vertex (num "1", num "1", num "0"))),
   .plain (plainLine "v 0.5 1.5 0" (.vertex (num "0.5", num "1.5", num "0"))),
   .plain (plainLine "v 0 1 0" (.vertex (num "0", num "1", num "0"))),
   .plain (plainLine "vn 0 0 1" (.normal (num "0", num "0", num "1"))),
   .plain (plainLine "vt 0 1" (.uv (num "0", num "1"))),
   .face pentCorners false false]

/-- The file as text. -/
def pentText : String := "v 0 0 0\nv 1 0 0\nv 1 1 0\nv 0.5 1.5 0\nv 0 1 0\nvn 0 0 1\nvt 0 1\nf 1/1/1 2/1/1 3/1/1 4/1/1 5/1/1\n"

theorem pent_text : ascii pentText = fileText (pentLines.map PolyLine.line) none := by decide +kernel

/-- Its vertices. -/
def pentVertices : List (Vec3 (Val b32)) :=
  [(num "0", num "0", num "0"), (num "1", num "0", num "0"), (num "1", num "1", num "0"), (num "0.5", num "1.5", num "0"), (num "0", num "1", num "0")]

/-- The triangles a pentagon may be cut into. -/
def pentCuts : List (List Nat) :=
  [[0, 0, 1, 4, 1, 2, 2, 3, 4], [0, 0, 1, 1, 2, 3, 1, 3, 4], [0, 0, 1, 2, 3, 4, 1, 2, 4], [0, 0, 1, 3, 4, 1, 1, 2, 3]]

/-- The mesh with these triangles. -/
def pentMesh (t : List Nat) : Mesh (Val b32) :=
  ⟨some [(num "0", num "0", num "1")], some (List.replicate 9 0), some pentVertices, some t, some [(num "0", num "1")], some (List.replicate 9 0), none, none, []⟩

/-- What is known before the face is read. -/
def pentBefore : Importer (Val b32) := ⟨pentVertices, [(num "0", num "0", num "1")], [(num "0", num "1")], [], [], [], []⟩

theorem pent_lines : textLines (ascii pentText) = (["v 0 0 0", "v 1 0 0", "v 1 1 0", "v 0.5 1.5 0", "v 0 1 0", "vn 0 0 1", "vt 0 1"].map ascii) ++
    [polygonText pentCorners false] := by decide +kernel

theorem pent_before (lib : Libm) (face : PushFace (Val b32)) (b : Build) (rest : List (List UInt8)) :
    readObjLoop (floatText lib) face b ((["v 0 0 0", "v 1 0 0", "v 1 1 0", "v 0.5 1.5 0", "v 0 1 0", "vn 0 0 1", "vt 0 1"].map ascii) ++ rest) .new =
      readObjLoop (floatText lib) face b rest pentBefore := by
  have sp : ∀ s : String, IsWord (ascii s) → (Ieee.parseVal (ascii s) : Option (Ieee.Val Ieee.b32)) = some (num s) →
    Spells (Ieee.floatText lib) (ascii s) (num s) := fun s h1 h2 => ⟨h1, h2⟩
  have h0 := sp "0" (by unfold IsWord; decide) (by decide +kernel)
  have h1 := sp "1" (by unfold IsWord; decide) (by decide +kernel)
  have h2 := sp "1.5" (by unfold IsWord; decide) (by decide +kernel)
  have h3 := sp "0.5" (by unfold IsWord; decide) (by decide +kernel)
  have none_step : ∀ {l l' : List UInt8} {rest : List (List UInt8)} {oi oi' : Importer (Val b32)},
      parseLine (floatText lib) face b l' oi = .ok (none, oi') → l = l' →
      readObjLoop (floatText lib) face b (l :: rest) oi = readObjLoop (floatText lib) face b rest oi' := by
    rintro l _ rest oi oi' h rfl
    rw [readObjLoop]
    rw [h, Outcome.bind_ok]
    dsimp only
    cases readObjLoop (floatText lib) face b rest oi' <;> rfl
  simp only [List.map_cons, List.map_nil, List.cons_append, List.nil_append]
  refine (none_step (l := ascii "v 0 0 0") (parseLine_means_vertex (fo := ops lib) (floatText lib) face b (x := (num "0", num "0", num "0")) (rest := []) _ h0 h0 h0 (.inl rfl)
    (by decide +kernel)) (by decide +kernel)).trans ?_
  refine (none_step (l := ascii "v 1 0 0") (parseLine_means_vertex (fo := ops lib) (floatText lib) face b (x := (num "1", num "0", num "0")) (rest := []) _ h1 h0 h0 (.inl rfl)
    (by decide +kernel)) (by decide +kernel)).trans ?_
  refine (none_step (l := ascii "v 1 1 0") (parseLine_means_vertex (fo := ops lib) (floatText lib) face b (x := (num "1", num "1", num "0")) (rest := []) _ h1 h1 h0 (.inl rfl)
    (by decide +kernel)) (by decide +kernel)).trans ?_
  refine (none_step (l := ascii "v 0.5 1.5 0") (parseLine_means_vertex (fo := ops lib) (floatText lib) face b (x := (num "0.5", num "1.5", num "0")) (rest := []) _ h3 h2 h0 (.inl rfl)
    (by decide +kernel)) (by decide +kernel)).trans ?_
  refine (none_step (l := ascii "v 0 1 0") (parseLine_means_vertex (fo := ops lib) (floatText lib) face b (x := (num "0", num "1", num "0")) (rest := []) _ h0 h1 h0 (.inl rfl)
    (by decide +kernel)) (by decide +kernel)).trans ?_
  refine (none_step (l := ascii "vn 0 0 1") (parseLine_means_normal (fo := ops lib) (floatText lib) face b (x := (num "0", num "0", num "1")) (rest := []) _ h0 h0 h1 (.inl rfl)
    (by decide +kernel)) (by decide +kernel)).trans ?_
  refine (none_step (l := ascii "vt 0 1") (parseLine_means_uv (fo := ops lib) (floatText lib) face b (x := (num "0", num "1")) (rest := []) _ h0 h1 (.inl rfl)
    (by decide +kernel)) (by decide +kernel)).trans ?_
  rfl

/-- Four ways to cut. -/
theorem pent_cuts {ps : List Nat} {tris : List Triangle} (h : CutOff pentCorners ps tris) (h0 : (triangleIndices Corner.vertex tris)[1]? = some 0) :
    triangleIndices Corner.vertex tris ∈ pentCuts ∧ triangleIndices Corner.uv tris = List.replicate 9 0 ∧
      triangleIndices Corner.normal tris = List.replicate 9 0 := by
  cases h with
  | @corner _ i x y z ps l h4 hx hy hz hr =>
    have hi : i = 0 := by
      have : y.vertex = 0 := by simpa [triangleIndices] using h0
      have hi := (List.getElem?_eq_some_iff.mp hy).1
      simp only [pentCorners, List.length_cons, List.length_nil] at hi
      obtain rfl | rfl | rfl | rfl | rfl : i = 0 ∨ i = 1 ∨ i = 2 ∨ i = 3 ∨ i = 4 := by omega
      all_goals first | rfl | (cases hy; cases this)
    subst hi
    cases hx; cases hy; cases hz
    have e : pentCorners.eraseIdx 0 = [⟨1, 0, 0⟩, ⟨2, 0, 0⟩, ⟨3, 0, 0⟩, ⟨4, 0, 0⟩] := rfl
    rw [e] at hr
    cases hr with
    | @corner _ i x y z ps l h4 hx hy hz hr =>
      have hi := (List.getElem?_eq_some_iff.mp hy).1
      simp only [List.length_cons, List.length_nil] at hi
      obtain rfl | rfl | rfl | rfl : i = 0 ∨ i = 1 ∨ i = 2 ∨ i = 3 := by omega
      all_goals
        cases hx; cases hy; cases hz
        simp only [List.eraseIdx] at hr
        cases hr with
        | last => decide
        | corner h _ _ _ _ => exact absurd h (by decide)

theorem pent_finish (b : Build) : ∀ t ∈ pentCuts, Importer.finish b (pentBefore.pushIndices t (List.replicate 9 0) (List.replicate 9 0)) =
    .ok (pentMesh t, []) := by
  cases b <;> decide +kernel

/-- The file is read. The first triangle has no area. -/
theorem pent_read (acos : Val b32 → Val b32) (hacos : acos .nan = .nan) (b : Build) : ∃ t ∈ pentCuts,
    readFromObj (floatText lib) (Importer.pushFaceTri (ops lib) acos) b (ascii pentText) = .ok [(pentMesh t, [])] := by
  have hin : ∀ c ∈ pentCorners, c.vertex < pentBefore.vertices.length := by decide
  obtain ⟨tris, ps, h1, -, h2, -⟩ := pushed_triangles (fo := ops lib) acos pentBefore pentCorners (by decide) hin
  obtain ⟨tris', oi', g1, g2, g3, -⟩ := C76_violated lib acos hacos pentBefore ⟨0, 0, 0⟩ ⟨1, 0, 0⟩ [⟨2, 0, 0⟩, ⟨3, 0, 0⟩, ⟨4, 0, 0⟩] (by decide) (by decide)
    (by decide) hin (v := (num "0", num "0", num "0")) rfl ⟨num_finite.1, num_finite.1, num_finite.1⟩
  have e := h1.symm.trans g1
  cases e
  have h0 : (triangleIndices Corner.vertex tris)[1]? = some 0 := by
    have e1 : triangleIndices Corner.vertex tris = triangleIndices Corner.vertex tris' := g2.1
    rw [e1]
    cases tris' with
    | nil => cases g3
    | cons t ts => cases g3; rfl
  obtain ⟨c1, c2, c3⟩ := pent_cuts h2 h0
  refine ⟨_, c1, ?_⟩
  rw [readFromObj, pent_lines, pent_before, readObjLoop,
    parseLine_polygon (fo := ops lib) (floatText lib) _ b (by unfold NumbersFit; decide) false, h1, Outcome.bind_ok, Outcome.bind_ok]
  dsimp only
  rw [readObjLoop, c2, c3, pent_finish b _ c1]
  rfl

theorem pent_flat : ∀ v ∈ pentVertices, v.2.2 = vZero := by decide +kernel

theorem pent_span : ∀ v ∈ pentVertices, WithinSpan v := by
  have h5 : num "0.5" = .fin false (2 ^ 148) (by decide +kernel) := by decide +kernel
  have v5 : valueOf (num "0.5") = 1 / 2 := by
    rw [h5]
    simp only [valueOf_fin, show b32.scale = 149 from rfl]
    norm_num [sgn]
  have f5 : isFinite (num "0.5") = true := by rw [h5]; rfl
  obtain ⟨v0, v1, v2, -⟩ := num_values
  obtain ⟨f0, f1, f2, -⟩ := num_finite
  intro v hv
  simp only [pentVertices, List.mem_cons, List.not_mem_nil, or_false] at hv
  rcases hv with rfl | rfl | rfl | rfl | rfl
  · exact ⟨⟨f0, f0, f0⟩, by simp only [v0]; norm_num⟩
  · exact ⟨⟨f1, f0, f0⟩, by simp only [v0, v1]; norm_num⟩
  · exact ⟨⟨f1, f1, f0⟩, by simp only [v0, v1]; norm_num⟩
  · exact ⟨⟨f5, f2, f0⟩, by simp only [v0, v2, v5]; norm_num [abs_of_pos]⟩
  · exact ⟨⟨f0, f1, f0⟩, by simp only [v0, v1]; norm_num⟩

theorem pent_box : boxOf (num "0", num "0", num "0") pentVertices.tail = ⟨num "0", num "1.5", num "0", num "1.5", num "0", num "0"⟩ := by decide +kernel

theorem pent_bits (hlog : AccurateLog2 lib) :
    vertexBits lib ⟨num "0", num "1.5", num "0", num "1.5", num "0", num "0"⟩ (lit 1 1) vZero = (255, 255, 255) := by
  rw [vertexBits, bits_clear hlog] <;> decide +kernel

theorem pent_min : Ieee.min (distV (num "0", num "0", num "0") (num "0", num "0", num "0"))
    (Ieee.min (distV (num "0", num "0", num "0") (num "1", num "0", num "0")) (distV (num "1", num "0", num "0") (num "0", num "0", num "0"))) = vZero := by
  decide +kernel

/-- No edge is shorter than nothing. -/
theorem pent_edge : ∀ t ∈ pentCuts, calcShortestEdge (ops lib) (some t) (some pentVertices) = .ok vZero := by
  have key : ∀ rest acc a b c d e f (va vb vc vd ve vf : Vec3 (Val b32)), rest = [a, b, c, d, e, f] → pentVertices[a]? = some va → pentVertices[b]? = some vb →
      pentVertices[c]? = some vc → pentVertices[d]? = some vd → pentVertices[e]? = some ve → pentVertices[f]? = some vf → acc = vZero →
      Ieee.min (Ieee.min vZero (Ieee.min (distV va vb) (Ieee.min (distV vb vc) (distV vc va)))) (Ieee.min (distV vd ve) (Ieee.min (distV ve vf) (distV vf vd))) =
        vZero →
      calcShortestEdge (ops lib) (some (0 :: 0 :: 1 :: rest)) (some pentVertices) = .ok vZero := by
    rintro rest acc a b c d e f va vb vc vd ve vf rfl ha hb hc hd he hf rfl hm
    rw [calcShortestEdge]
    · show (shortestEdgeLoop (ops lib) pentVertices (0 :: 0 :: 1 :: [a, b, c, d, e, f]) (.inf false) >>= assertFinite (ops lib)) = _
      rw [loop_cons (a := (num "0", num "0", num "0")) (b := (num "0", num "0", num "0")) (c := (num "1", num "0", num "0")) rfl rfl rfl, pent_min,
        min_inf rfl, loop_cons ha hb hc, loop_cons hd he hf, hm]
      rfl
    · simp
  intro t ht
  simp only [pentCuts, List.mem_cons, List.not_mem_nil, or_false] at ht
  rcases ht with rfl | rfl | rfl | rfl
  all_goals exact key _ vZero _ _ _ _ _ _ _ _ _ _ _ _ rfl rfl rfl rfl rfl rfl rfl rfl (by decide +kernel)

theorem pent_fits : ∀ t ∈ pentCuts, MeshFits creepPrec (pentMesh t) := by
  intro t ht
  have hr : ∀ t ∈ pentCuts, t.length = 9 ∧ ∀ i ∈ t, i < 2 ^ 31 := by decide
  obtain ⟨h9, hi⟩ := hr t ht
  refine ⟨?_, ?_, ?_, ?_, ?_, ?_, ?_, ?_, ?_, ?_, ?_⟩
  · intro l hl; cases hl; show 5 ≤ 2 ^ 31; decide
  · intro l hl; cases hl; show 1 ≤ 2 ^ 31; decide
  · intro l hl; cases hl; show 1 ≤ 2 ^ 31; decide
  · intro l hl; cases hl
  · intro l hl; cases hl; exact ⟨by rw [h9]; decide, hi⟩
  · intro l hl; cases hl; exact ⟨by decide, by decide⟩
  · intro l hl; cases hl; exact ⟨by decide, by decide⟩
  · intro l hl; cases hl
  · intro c hc; cases hc
  · intro h; cases h
  · intro h; cases h

theorem pent_stuck (hlog : AccurateLog2 lib) (hmono : MonotoneLog2 lib) (b b' : Build) {t : List Nat} (ht : t ∈ pentCuts) {bytes : List UInt8}
    (hb : tmfBytes (ops lib) fb b creepPrec [(pentMesh t, [])] = .ok bytes) (out : List (Mesh (Val b32) × List UInt8)) :
    readTmf (ops lib) fb b' ⟨bytes, [], false⟩ ≠ .ok out := by
  intro hr
  have hS : ByteSettings creepPrec := ⟨by decide, by decide, by decide⟩
  have hm : List.foldr Max.max 0 t = 4 := (by decide : ∀ t ∈ pentCuts, List.foldr Max.max 0 t = 4) t ht
  have hm0 : List.foldr Max.max 0 (List.replicate 9 0) = 0 := by decide
  have hl9 : t.length = 9 := (by decide : ∀ t ∈ pentCuts, t.length = 9) t ht
  have hfit : ∀ mn ∈ [(pentMesh t, ([] : List UInt8))], MeshFits creepPrec mn.1 := by
    intro mn hmn
    rcases List.mem_singleton.mp hmn with rfl
    exact pent_fits t ht
  have hlen : bytes.length ≤ 2 ^ 31 := by
    refine le_trans (C56_linear (orderLaws lib) hS hfit hb) ?_
    norm_num [meshSizeBound, segmentBound, mostPieces, indexPieces, onePiece, elements, elementCount, customLoad, customCount, pentMesh,
      pentVertices, hl9, hm, hm0, show Nat.log2 4 = 2 from rfl, show Nat.log2 0 = 0 from rfl]
  have hl : LimitsAny (ops lib) fb b creepPrec [(pentMesh t, [])] := by
    refine ⟨show 1 < 2 ^ 32 by decide, ?_, ?_, ?_⟩
    · intro mn h
      rcases List.mem_singleton.mp h with rfl
      exact ⟨show 0 < 2 ^ 16 by decide, ⟨[], rfl⟩⟩
    · intro mn h
      rcases List.mem_singleton.mp h with rfl
      obtain ⟨f1, f2, f3, f4, f5, f6, f7, f8, f9, _⟩ := pent_fits t ht
      exact ⟨f1, f2, f3, f4, f5, f6, f7, f8, f9⟩
    · intro mn h segs hs
      rcases List.mem_singleton.mp h with rfl
      refine lt_of_le_of_lt (encodeMesh_count (orderLaws lib) (pent_fits t ht) hs) ?_
      norm_num [segmentBound, mostPieces, indexPieces, onePiece, pentMesh, pentVertices, hl9, hm, hm0, show Nat.log2 4 = 2 from rfl, show Nat.log2 0 = 0 from rfl]
  have hn := (C49_accepted_iff (ops lib) fb creepPrec (b' := b') hS hb hl hlen [] []).mp ⟨out, by simpa using hr⟩ _ List.mem_cons_self
  obtain ⟨ps, hps, -⟩ := C09_bounded hlog hmono pent_span
  have hps' := hps b
  cases flat_cut pent_flat hps'
  have hbox : vertexBox (ops lib) pentVertices = .ok ⟨num "0", num "1.5", num "0", num "1.5", num "0", num "0"⟩ := by
    rw [pentVertices, vertexBox_ops]
    exact congrArg _ pent_box
  have hw := (hn.vertices pentVertices vZero [pentVertices] pentVertices _ rfl (pent_edge t ht) hps' List.mem_cons_self hbox).1
  rw [show creepPrec.vertex = lit 1 1 from rfl, precs_ops lib, pent_bits hlog] at hw
  exact absurd hw (by decide)

/-- C108 is false as stated: a file with one pentagon is read, in every build. What was read cannot be saved with the default settings and
loaded again in any build, as the first triangle cut off has no area. (`acos` need only map NaN to NaN.) -/
theorem C108_violated (hlog : AccurateLog2 lib) (hmono : MonotoneLog2 lib) (acos : Val b32 → Val b32) (hacos : acos .nan = .nan) (b : Build) :
    ∃ m, readFromObj (floatText lib) (Importer.pushFaceTri (ops lib) acos) b (ascii pentText) = .ok [(m, [])] ∧
      ∀ b' b'' bytes out, tmfBytes (ops lib) fb b' (PrecisionInfo.default (ops lib)) [(m, [])] = .ok bytes →
        readTmf (ops lib) fb b'' ⟨bytes, [], false⟩ ≠ .ok out := by
  obtain ⟨t, ht, h⟩ := pent_read acos hacos b
  rw [C91_bits hlog]
  exact ⟨_, h, fun b' b'' bytes out hb => pent_stuck hlog hmono b' b'' ht hb out⟩

/-- The hypotheses of `C108_violated` can be met. -/
example (fb : F64Bytes (ops someLibm)) (b : Build) :
    ∃ m, readFromObj (floatText someLibm) (Importer.pushFaceTri (ops someLibm) id) b (ascii pentText) = .ok [(m, [])] ∧
      ∀ b' b'' bytes out, tmfBytes (ops someLibm) fb b' (PrecisionInfo.default (ops someLibm)) [(m, [])] = .ok bytes →
        readTmf (ops someLibm) fb b'' ⟨bytes, [], false⟩ ≠ .ok out :=
  C108_violated someLibm_log2 someLibm_monotone id rfl b

end Tmf.Props
