import Verif.Lemmas.SteadyFile
import Verif.Props.Damage
import Verif.Props.FileAccuracy
import Verif.Props.Layout
/-
C100: overwriting packed data never makes a file unreadable.
-/

namespace Tmf.Props
open Tmf Spec

variable {fo : FloatOps} {fb : F64Bytes fo} {b : Build}

/-- The damaged meshes frame a file as the undamaged ones do. -/
theorem damaged_framed {L : Layout} {ctx : DecodeCtx} {raws raws' : List RawMesh} (hd : List.Forall₂ (DamagedMesh ctx) raws raws')
    (h : ∀ m ∈ raws, RawMesh.Framed L m) : ∀ m ∈ raws', RawMesh.Framed L m := by
  intro m' hm'
  obtain ⟨m, hm, hn, hs⟩ := forall₂_mem hd.flip m' hm'
  have hf := h m hm
  refine ⟨hn ▸ hf.name, by rw [← hs.length_eq]; exact hf.count, fun s' hs' => ?_⟩
  obtain ⟨s, hsm, hk, hc, hl, _⟩ := forall₂_mem hs.flip s' hs'
  have hfs := hf.segs s hsm
  exact ⟨hk ▸ hfs.kind, hc ▸ hfs.comp, hl ▸ hfs.len⟩

/-- **C100.** If a file loads and any bytes of the packed data behind the heads of its arrays are
overwritten, in any number of segments, it still loads: the same names in the same order, and every
mesh with the same arrays of the same lengths and the same custom segments. With overflow checks the
minima of the index arrays must leave room for the width (`C100_room_needed`). -/
theorem C100_file {minMinor : Nat} (h2 : minMinor ≤ 2) {raws raws' : List RawMesh}
    (h : ∀ m ∈ raws, RawMesh.Framed (layoutOf minMinor) m) (hn : raws.length < 2 ^ 32)
    (hd : List.Forall₂ (DamagedMesh (ctxOf (layoutOf minMinor)).decode) raws raws')
    (hr : b = .checked → ∀ m ∈ raws, ∀ s ∈ m.segs,
      IndexRoom (ctxOf (layoutOf minMinor)).decode (SectionType.fromU16 s.kind) s.data)
    (junk junk' : List UInt8) (sched sched' : List Nat) {l : List (Mesh fo.F × List UInt8)}
    (e : readTmf fo fb b ⟨fileBytes minMinor raws ++ junk, sched, false⟩ = .ok l) :
    ∃ l', readTmf fo fb b ⟨fileBytes minMinor raws' ++ junk', sched', false⟩ = .ok l' ∧
      List.Forall₂ (fun mn mn' => mn'.2 = mn.2 ∧ SameOutline mn.1 mn'.1) l l' := by
  rw [readTmf_file fo fb b h2 h hn] at e
  rw [readTmf_file fo fb b h2 (damaged_framed hd h) (by rw [← hd.length_eq]; exact hn)]
  refine mapAll_forall₂_step hd (fun m m' y hm hdm ey => ?_) e
  rw [rawMesh, Outcome.bind_eq_ok] at ey
  obtain ⟨mesh, em, ey⟩ := ey
  cases ey
  obtain ⟨mesh', em', hs⟩ := assembleMesh_steady hdm.segs (fun hb => hr hb m hm) em
  refine ⟨(mesh', m'.name), ?_, hdm.name, hs⟩
  rw [rawMesh, em']
  rfl

/-- **C100.** A file the writer made, in either build, falls apart into segments such that whatever is
written over their packed data, every build loads the result, with the names and the outlines of the
undamaged file. -/
theorem C100_saved {prec : PrecisionInfo fo.F} {meshes : List (Mesh fo.F × List UInt8)} {bytes : List UInt8}
    (h : tmfBytes fo fb b prec meshes = .ok bytes) (hl : LimitsLow fo fb b prec meshes) (hb : bytes.length ≤ 2 ^ 31) :
    ∃ raws, bytes = fileBytes 2 raws ∧ FileHolds (.none fo.F) prec meshes raws ∧
      ∀ (b' : Build) (junk : List UInt8) (sched : List Nat), ∃ out,
        readTmf fo fb b' ⟨bytes ++ junk, sched, false⟩ = .ok out ∧ out.map Prod.snd = meshes.map Prod.snd ∧
        ∀ raws', List.Forall₂ (DamagedMesh ⟨true⟩) raws raws' → ∀ (junk' : List UInt8) (sched' : List Nat), ∃ out',
          readTmf fo fb b' ⟨fileBytes 2 raws' ++ junk', sched', false⟩ = .ok out' ∧
          List.Forall₂ (fun mn mn' => mn'.2 = mn.2 ∧ SameOutline mn.1 mn'.1) out out' := by
  obtain ⟨raws, e, hh, hs⟩ := tmfBytes_holds h hl.fits hl.low (μ := .none fo.F) fun mn _ edge _ =>
    exact_none (fb := fb) (prec := prec) (edge := edge) (b := b) mn.1
  have hfr := raws_framed hl.names hl.segments hh hs (by rw [← e]; exact hb)
  refine ⟨raws, e, hh, fun b' junk sched => ?_⟩
  obtain ⟨out, hr, ho⟩ := readTmf_low (b' := b') h hl hb junk sched
  refine ⟨out, hr, ?_, fun raws' hd junk' sched' => ?_⟩
  · have names : ∀ {l l' : List (Mesh fo.F × List UInt8)}, List.Forall₂ (fun mn mn' => mn'.2 = mn.2) l l' →
        l'.map Prod.snd = l.map Prod.snd := by
      intro l l' hf
      induction hf with
      | nil => rfl
      | cons hx _ ih => rw [List.map_cons, List.map_cons, hx, ih]
    exact names (ho.imp fun _ _ hx => hx.1)
  · rw [e] at hr
    refine C100_file (le_refl 2) hfr (by rw [← hs.length_eq]; exact hl.count) hd (fun _ m hm s hsm => ?_) junk junk' sched sched' hr
    obtain ⟨mn, hmn, segs, henc, hsegs⟩ := forall₂_mem hs.flip m hm
    rw [hsegs] at hsm
    obtain ⟨enc, hin, rfl⟩ := List.mem_map.mp hsm
    have := encodeMesh_room (hl.fits mn hmn) henc enc hin
    have h1 : SectionType.fromU16 (rawOf enc).kind = enc.segType := congrArg EncodedSegment.segType (encodedOf_rawOf enc)
    rw [h1]
    exact this

/-- A mesh of one index array above a minimum close to the top of 64 bits. -/
def topMesh (x : UInt8) : RawMesh := ⟨[97], [⟨2, 0, topIndex x⟩]⟩

theorem topMesh_framed (x : UInt8) : RawMesh.Framed .new (topMesh x) :=
  ⟨⟨by simp [topMesh], ['a'], rfl⟩, by simp [topMesh], by
    intro s hs
    simp only [topMesh, List.mem_cons, List.not_mem_nil, or_false] at hs
    subst hs
    exact ⟨(by decide : 2 < 256), Or.inl rfl, by simp [topIndex, length_leBytes]⟩⟩

/-- **C100, why the room is needed.** With overflow checks one damaged byte makes loading panic where
the minimum is close to the top of 64 bits. -/
theorem C100_room_needed : ∃ raws raws' : List RawMesh,
    (∀ m ∈ raws, RawMesh.Framed .new m) ∧ List.Forall₂ (DamagedMesh ⟨true⟩) raws raws' ∧
    (∃ l, readTmf fo fb .checked ⟨fileBytes 2 raws, [], false⟩ = .ok l) ∧
    readTmf fo fb .checked ⟨fileBytes 2 raws', [], false⟩ = .panic := by
  refine ⟨[topMesh 1], [topMesh 2], ?_, .cons ⟨rfl, .cons ⟨rfl, rfl, rfl, rfl⟩ .nil⟩ .nil, ?_, ?_⟩
  · intro m hm
    rw [List.mem_singleton.mp hm]
    exact topMesh_framed 1
  · refine ⟨[({ (Mesh.empty : Mesh fo.F) with vertexTriangles := some [2 ^ 32 - 1] }, [97])], ?_⟩
    rw [← List.append_nil (fileBytes 2 [topMesh 1]), readTmf_file fo fb .checked (le_refl 2) (by
      intro m hm
      rw [List.mem_singleton.mp hm]
      exact topMesh_framed 1) (by simp)]
    rfl
  · rw [← List.append_nil (fileBytes 2 [topMesh 2]), readTmf_file fo fb .checked (le_refl 2) (by
      intro m hm
      rw [List.mem_singleton.mp hm]
      exact topMesh_framed 2) (by simp)]
    rfl

/-- Every byte of the indices may be anything: `twoArrays` always loads. -/
example (y : UInt8) (junk : List UInt8) : ∃ m m' : Mesh fo.F × List UInt8,
    readTmf fo fb b ⟨fileBytes 2 [twoArrays 2, twoArrays y] ++ junk, [], false⟩ = .ok [m, m'] ∧ m'.2 = [97] ∧
    m'.1.vertexTriangles.map List.length = some 3 := by
  have h0 := twoMeshes_load (fo := fo) (fb := fb) (b := b) junk 2 []
  obtain ⟨l', e, hf⟩ := C100_file (fo := fo) (fb := fb) (b := b) (raws := [twoArrays 2, twoArrays 2]) (raws' := [twoArrays 2, twoArrays y])
    (le_refl 2) (by
      intro m hm
      simp only [List.mem_cons, List.not_mem_nil, or_false, or_self] at hm
      subst hm
      exact twoArrays_framed 2) (by simp)
    (.cons ⟨rfl, .cons ⟨rfl, rfl, rfl, rfl⟩ (.cons ⟨rfl, rfl, rfl, rfl⟩ .nil)⟩
      (.cons ⟨rfl, .cons ⟨rfl, rfl, rfl, rfl⟩ (.cons ⟨rfl, rfl, rfl, rfl⟩ .nil)⟩ .nil))
    (by
      intro _ m hm s hs
      simp only [List.mem_cons, List.not_mem_nil, or_false, or_self] at hm
      subst hm
      simp only [twoArrays, List.mem_cons, List.not_mem_nil, or_false] at hs
      rcases hs with rfl | rfl
      · show leNat (((threeBytes 1 2 3).drop 9).take 8) + 2 ^ 8 ≤ 2 ^ 64
        decide
      · show leNat (((threeBytes 5 6 7).drop 9).take 8) + 2 ^ 8 ≤ 2 ^ 64
        decide)
    junk junk [] []
    (l := [({ (Mesh.empty : Mesh fo.F) with vertexTriangles := some [101, 102, 103], normalTriangles := some [105, 106, 107] }, [97]),
        ({ (Mesh.empty : Mesh fo.F) with vertexTriangles := some [101, 102, 103], normalTriangles := some [105, 106, 107] }, [97])])
    (by
      refine h0.trans ?_
      cases b <;> rfl)
  cases hf with
  | cons h1 hf =>
    cases hf with
    | cons h2 hf =>
      cases hf
      exact ⟨_, _, e, h2.1, h2.2.vertexTriangles⟩

/-- A file saved from `kit` can be damaged in all its arrays and still loads. -/
example (lib : Ieee.Libm) (hlog : AccurateLog2 lib) (fb : F64Bytes (Ieee.ops lib)) (b' : Build) : ∃ bytes raws,
    tmfBytes (Ieee.ops lib) fb .wrapping kitPrec [(kit, [65])] = .ok bytes ∧ bytes = fileBytes 2 raws ∧
    ∀ raws', List.Forall₂ (DamagedMesh ⟨true⟩) raws raws' →
      ∃ out, readTmf (Ieee.ops lib) fb b' ⟨fileBytes 2 raws', [], false⟩ = .ok out := by
  obtain ⟨bytes, h, hb⟩ := kit_saved fb
  obtain ⟨raws, e, _, hr⟩ := C100_saved h (kit_limits hlog fb) hb
  refine ⟨bytes, raws, h, e, fun raws' hd => ?_⟩
  obtain ⟨_, _, _, hd'⟩ := hr b' [] []
  obtain ⟨out, eo, _⟩ := hd' raws' hd [] []
  rw [List.append_nil] at eo
  exact ⟨out, eo⟩

end Tmf.Props
