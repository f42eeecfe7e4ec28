import Verif.Lemmas.LayoutNumbers
import Verif.Lemmas.LayoutUnique
import Verif.Props.FileAccuracy
/-
C62: what lies where in a saved file, and what the numbers in it mean, said without the reader: a
program that follows the written layout gets the arrays of the mesh out of the file.
-/

namespace Tmf.Props
open Spec Ieee

section
variable (fo : FloatOps) (fb : F64Bytes fo) (b : Build) (prec : PrecisionInfo fo.F)

/-- A saved file is a 0.2 header and, per mesh, name and segments; the segments are laid out as `Lies`
says and hold the arrays of the mesh, the index arrays exactly and one code per element of the others. -/
theorem C62_layout {meshes : List (Mesh fo.F × List UInt8)} {bytes : List UInt8}
    (h : tmfBytes fo fb b prec meshes = .ok bytes) (hm : ∀ mn ∈ meshes, MeshFits prec mn.1)
    (hq : b = .checked ∨ ∀ mn ∈ meshes, Low fo b prec mn.1) :
    ∃ raws, bytes = fileBytes 2 raws ∧ FileHolds (.none fo.F) prec meshes raws := by
  obtain ⟨raws, e, hf, _⟩ := tmfBytes_holds h hm hq (μ := .none fo.F) fun mn _ edge _ =>
    exact_none (fb := fb) (prec := prec) (edge := edge) (b := b) mn.1
  exact ⟨raws, e, hf⟩

end

/-- The bytes of a file leave no doubt about its meshes and segments, nor those of a segment about what
it holds. -/
theorem C62_unambiguous :
    (∀ {l l' : List RawMesh}, (∀ s ∈ l, s.Framed .new) → (∀ s ∈ l', s.Framed .new) → l.length < 2 ^ 32 →
      l'.length < 2 ^ 32 → fileBytes 2 l = fileBytes 2 l' → l = l') ∧
    ∀ {s : RawSeg} {c c' : Content}, Lies s c → Lies s c' → c = c' :=
  ⟨fileBytes_inj, fun h h' => lies_inj h h' rfl⟩

theorem raws_framed {fo : FloatOps} {fb : F64Bytes fo} {b : Build} {prec : PrecisionInfo fo.F}
    {meshes : List (Mesh fo.F × List UInt8)} {raws : List RawMesh} {μ : Meaning fo.F}
    (hn : ∀ mn ∈ meshes, NameOk mn.2)
    (hs : ∀ mn ∈ meshes, ∀ segs, encodeMesh fo fb b prec mn.1 = .ok segs → segs.length < 2 ^ 16)
    (hf : FileHolds μ prec meshes raws)
    (he : List.Forall₂ (fun mn r => ∃ segs, encodeMesh fo fb b prec mn.1 = .ok segs ∧ r.segs = segs.map rawOf) meshes raws)
    (hlen : (fileBytes 2 raws).length ≤ 2 ^ 31) : ∀ r ∈ raws, r.Framed .new := by
  intro r hr
  obtain ⟨mn, hmn, hname, cs, hl, _⟩ := forall₂_mem hf.flip r hr
  obtain ⟨mn', hmn', segs, hseg, hrs⟩ := forall₂_mem he.flip r hr
  refine ⟨by rw [hname]; exact hn mn hmn, by rw [hrs, List.length_map]; exact hs mn' hmn' segs hseg, fun s hs' => ?_⟩
  obtain ⟨c, _, hc⟩ := forall₂_mem hl s hs'
  have hk : s.kind < 256 ∧ s.comp = 0 := by
    cases hc with
    | custom k _ _ _ _ h =>
      have := customLies_kind h
      exact ⟨show k < 256 by omega, rfl⟩
    | _ => exact ⟨by dsimp only; decide, rfl⟩
  refine ⟨hk.1, .inl hk.2, le_trans ?_ hlen⟩
  have h1 : s.data.length ≤ (s.bytes .new).length := by rw [RawSeg.bytes, List.length_append]; omega
  have h2 : ∀ {α : Type} {f : α → List UInt8} {l : List α} {a : α}, a ∈ l → (f a).length ≤ (l.flatMap f).length := by
    intro α f l a ha
    induction l with
    | nil => cases ha
    | cons x l ih =>
      rw [List.flatMap_cons, List.length_append]
      rcases List.mem_cons.mp ha with rfl | ha
      · omega
      · have := ih ha; omega
  have h3 := h2 (f := RawSeg.bytes .new) hs'
  have h4 : (r.segs.flatMap (RawSeg.bytes .new)).length ≤ (r.bytes .new).length := by
    rw [RawMesh.bytes, List.length_append]; omega
  have h5 := h2 (f := RawMesh.bytes .new) hr
  have h6 : (raws.flatMap (RawMesh.bytes .new)).length ≤ (fileBytes 2 raws).length := by
    rw [fileBytes, List.length_append]
    show _ ≤ _ + (raws.flatMap (RawMesh.bytes .new)).length
    omega
  omega

/-- However a program takes the file apart, as long as what it finds is laid out as said, it finds the
names and the arrays of the meshes. -/
theorem C62_any_reading {fo : FloatOps} {fb : F64Bytes fo} {b : Build} {prec : PrecisionInfo fo.F}
    {meshes : List (Mesh fo.F × List UInt8)} {bytes : List UInt8}
    (h : tmfBytes fo fb b prec meshes = .ok bytes) (hl : LimitsLow fo fb b prec meshes) (hlen : bytes.length ≤ 2 ^ 31)
    {raws : List RawMesh} {found : List (List Content)} (hr : ∀ r ∈ raws, r.Framed .new) (hc : raws.length < 2 ^ 32)
    (he : bytes = fileBytes 2 raws) (hf : List.Forall₂ (fun r cs => List.Forall₂ Lies r.segs cs) raws found) :
    List.Forall₂ (fun mn r => r.name = mn.2) meshes raws ∧
    List.Forall₂ (fun mn cs => Holds (.none fo.F) prec mn.1 cs) meshes found := by
  obtain ⟨raws', e, hh, hs⟩ := tmfBytes_holds h hl.fits hl.low (μ := .none fo.F) fun mn _ edge _ =>
    exact_none (fb := fb) (prec := prec) (edge := edge) (b := b) mn.1
  have hfr := raws_framed hl.names hl.segments hh hs (by rw [← e]; exact hlen)
  have hcount : raws'.length < 2 ^ 32 := by rw [← hs.length_eq]; exact hl.count
  cases C62_unambiguous.1 hr hfr hc hcount (he ▸ e)
  refine ⟨hh.imp fun _ _ h => h.1, ?_⟩
  clear hs hfr hr he e hc hcount hl h hlen
  rw [FileHolds] at hh
  induction hh generalizing found with
  | nil => cases hf; exact .nil
  | @cons mn r _ _ h _ ih =>
    cases hf with
    | cons hc hf =>
      refine .cons ?_ (ih hf)
      obtain ⟨-, cs, hl, hholds⟩ := h
      have : ∀ {segs : List RawSeg} {a a' : List Content}, List.Forall₂ Lies segs a → List.Forall₂ Lies segs a' → a = a' := by
        intro segs a a' h h'
        induction h generalizing a' with
        | nil => cases h'; rfl
        | cons h1 _ ih =>
          cases h' with
          | cons h1' h2' => rw [C62_unambiguous.2 h1 h1', ih h2']
      rw [this hc hl]
      exact hholds

/-- In f32 arithmetic, the codes mean what `numbers` says: coordinates, uv coordinates, heights of
normals, floats and colour channels are points on a scale; signs are signs; the angle of a normal is
given in quarter turns. Below a scale, beyond it and at its upper end, and in boxes less than a millionth
wide, the code is still a number of steps, but only its low bits are in the file (`StepsCode`): with 25
bits or more the upper end has code 0 (see `C36_one_violated`, `C37_top_violated`, `C38_up_violated`).
Missing: numbers more than 2^30 scales away. -/
theorem C62_numbers_partial {lib : Libm} (hlib : AccurateLibm lib) {b : Build} {prec : PrecisionInfo (Val b32)}
    {meshes : List (Mesh (Val b32) × List UInt8)} {bytes : List UInt8}
    (h : tmfBytes (ops lib) (f64Le lib) b prec meshes = .ok bytes) (hm : ∀ mn ∈ meshes, MeshFits prec mn.1)
    (hq : b = .checked ∨ ∀ mn ∈ meshes, Low (ops lib) b prec mn.1) :
    ∃ raws, bytes = fileBytes 2 raws ∧ FileHolds numbers prec meshes raws := by
  obtain ⟨raws, e, hf, _⟩ := tmfBytes_holds (fo := ops lib) (fb := f64Le lib) h hm hq (μ := numbers) fun mn _ _ _ =>
    exact_numbers hlib mn.1
  exact ⟨raws, e, hf⟩

/-! ### Examples -/

/-- The triangle 0, 1, 2 in two bits each, and no other indices. -/
theorem triangle_lies : Lies ⟨2, 0, [2] ++ leBytes 8 3 ++ leBytes 8 0 ++ [0x18]⟩ (.vertexIndices [0, 1, 2]) :=
  .vertexIndices _ _ (.mk 2 0 [0x18] [0, 1, 2] (by decide) (by decide) (by decide) (by decide) ⟨2, by decide, by decide⟩)

example {l : List Nat} (h : Lies ⟨2, 0, [2] ++ leBytes 8 3 ++ leBytes 8 0 ++ [0x18]⟩ (.vertexIndices l)) : l = [0, 1, 2] := by
  have := C62_unambiguous.2 h triangle_lies
  cases this
  rfl

/-- Two index arrays: what a program finds in the file. -/
example (fo : FloatOps) (fb : F64Bytes fo) (prec : PrecisionInfo fo.F) : ∃ raws, indexMeshBytes = fileBytes 2 raws ∧
    FileHolds (.none fo.F) prec [indexMesh fo] raws :=
  C62_layout fo fb .checked prec (indexMesh_saved fo fb .checked prec) (indexMesh_limits fo fb prec).fits (.inl rfl)

/-- Whoever takes the file of `kit` apart into one mesh with segments of the given content finds one
triangle. -/
example (fb : F64Bytes (ops someLibm)) : ∃ bytes, tmfBytes (ops someLibm) fb .wrapping kitPrec [(kit, [65])] = .ok bytes ∧
    ∀ (r : RawMesh) (cs : List Content), r.Framed .new → bytes = fileBytes 2 [r] → List.Forall₂ Lies r.segs cs →
      r.name = [65] ∧ joined (cs.flatMap Content.vertexIndexPieces) = some [0, 1, 2] := by
  obtain ⟨bytes, h, hb⟩ := kit_saved (lib := someLibm) fb
  refine ⟨bytes, h, fun r cs hr he hf => ?_⟩
  obtain ⟨h1, h2⟩ := C62_any_reading h (kit_limits someLibm_log2 fb) hb (raws := [r]) (found := [cs])
    (fun x hx => by cases List.mem_singleton.mp hx; exact hr) (by show 1 < 2 ^ 32; decide) he (.cons hf .nil)
  cases h1 with
  | cons h1 _ => cases h2 with
    | cons h2 _ => exact ⟨h1, h2.vertexIndices⟩

/-- The uv coordinates (9/64, 9/64) of `kit` are in the file as two numbers of three bits, 0 or 1 of
seven parts. -/
example : ∃ bytes raws segs, tmfBytes (ops someLibm) (f64Le someLibm) .wrapping kitPrec [(kit, [65])] = .ok bytes ∧
    bytes = fileBytes 2 raws ∧ raws = [⟨[65], segs⟩] ∧ ∃ s ∈ segs, ∃ u v, Lies s (.uvs 3 [(u, v)]) ∧ (u = 0 ∨ u = 1) := by
  obtain ⟨bytes, h, _⟩ := kit_saved (lib := someLibm) (f64Le someLibm)
  have hl := kit_limits (lib := someLibm) someLibm_log2 (f64Le someLibm)
  obtain ⟨raws, e, hf⟩ := C62_numbers_partial someLibm_accurate h hl.fits hl.low
  obtain ⟨⟨name, segs⟩, rfl, rfl, cs, hs, hh⟩ := forall₂_one hf
  refine ⟨bytes, _, segs, h, e, rfl, ?_⟩
  obtain ⟨⟨w, codes⟩, huv, hw, hc⟩ := forall₂_one (a := [(nine64, nine64)]) hh.uvs
  obtain ⟨⟨u, v⟩, hcodes, h1, h2⟩ := forall₂_one hc
  have hmem : (w, codes) ∈ cs.flatMap Content.uvPieces := by rw [huv]; exact List.mem_singleton.mpr rfl
  obtain ⟨c, hcs, hcm⟩ := List.mem_flatMap.mp hmem
  obtain ⟨s, hseg, hlies⟩ := forall₂_mem hs.flip c hcs
  have hcc : c = .uvs w codes := by
    cases c <;> simp [Content.uvPieces] at hcm
    obtain ⟨rfl, rfl⟩ := hcm
    rfl
  dsimp only at hw hcodes h1
  have hw3 : w = 3 := hw
  subst hcc hcodes hw3
  refine ⟨s, hseg, u, v, hlies, ?_⟩
  obtain ⟨-, g1, g2⟩ := (h1 (by decide) (by decide)).2 (storable_nine64 3)
  rw [valueOf_nine64] at g1 g2
  have : (u : ℚ) < 2 := by norm_num at g1; linarith
  have : u < 2 := by exact_mod_cast this
  omega

/-- A uv coordinate of 2 is twice the scale away: 14 steps of a seventh, or 13 if rounding takes one, of which three
bits are in the file. -/
example {x : Val b32} (hf : isFinite x = true) (hx : valueOf x = 2) {c : Nat} (h : UnitCode 3 x c) : c = 6 ∨ c = 5 := by
  obtain ⟨k, rfl, h1, h2⟩ := ((h (by decide) (by decide)).1 hf (by rw [hx]; norm_num)).2 (by rw [hx]; norm_num)
  rw [hx] at h1 h2
  norm_num at h1 h2
  have a1 : (k : ℚ) < 15 := by linarith
  have a2 : (12 : ℚ) < k := by linarith
  have b1 : k < 15 := by exact_mod_cast a1
  have b2 : 12 < k := by exact_mod_cast a2
  have : k = 13 ∨ k = 14 := by omega
  rcases this with rfl | rfl
  · exact .inr (by decide)
  · exact .inl (by decide)

end Tmf.Props
