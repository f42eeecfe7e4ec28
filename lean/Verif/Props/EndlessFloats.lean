import Verif.Lemmas.EndlessFloats
import Verif.Props.Endless
/-
C114: a file with an infinite custom fraction is not stored.
-/

set_option exponentiation.threshold 2000

namespace Tmf.Props
open Spec Ieee

variable {lib : Libm} {fb : F64Bytes (ops lib)}

/-- C114: no build both saves and loads a file with an infinite fraction in some custom data, whatever else the array
holds, if its precision is a number without a sign. -/
theorem C114_refused (hlog : AccurateLog2 lib) {prec : PrecisionInfo (Val b32)} (hS : ByteSettings prec)
    {meshes : List (Mesh (Val b32) × List UInt8)}
    (hcount : meshes.length < 2 ^ 32) (hnames : ∀ mn ∈ meshes, NameOk mn.2) (hfit : ∀ mn ∈ meshes, MeshFits prec mn.1)
    (hseg : ∀ mn ∈ meshes, segmentBound mn.1 < 2 ^ 16) (hsize : 15 + (meshes.map meshSizeBound).sum ≤ 2 ^ 31)
    {mn : Mesh (Val b32) × List UInt8} (hmn : mn ∈ meshes) {c : CustomSeg (Val b32)} (hc : c ∈ mn.1.customData)
    {data : List (Val b32)} {pr : Val b32} (hv : c.data = .float data pr) (hd : ∃ s, .inf s ∈ data)
    (hp : isFinite pr = true) (p0 : isSignNegative pr = false)
    (b b' : Build) {bytes : List UInt8} (hb : tmfBytes (ops lib) fb b prec meshes = .ok bytes) (junk : List UInt8) (sched : List Nat)
    (out : List (Mesh (Val b32) × List UInt8)) :
    readTmf (ops lib) fb b' ⟨bytes ++ junk, sched, false⟩ ≠ .ok out := by
  intro hr
  have hlen := le_trans (C56_linear (orderLaws lib) hS hfit hb) hsize
  have hl : LimitsAny (ops lib) fb b prec meshes := by
    refine ⟨hcount, hnames, ?_, ?_⟩
    · intro mn h
      obtain ⟨f1, f2, f3, f4, f5, f6, f7, f8, f9, _⟩ := hfit mn h
      exact ⟨f1, f2, f3, f4, f5, f6, f7, f8, f9⟩
    · intro mn h segs hs
      exact lt_of_le_of_lt (encodeMesh_count (orderLaws lib) (hfit mn h) hs) (hseg mn h)
  have hn := ((C49_accepted_iff (ops lib) fb prec (b' := b') hS hb hl hlen junk sched).mp ⟨out, hr⟩ mn hmn).custom c hc
  rw [hv] at hn
  have hn : floatPrec (ops lib) data pr < 64 := hn
  rw [floatBits_endless hlog hd hp p0] at hn
  exact absurd hn (by decide)

/-- C114 for the writer alone: with overflow checks it does not even save such a file. -/
theorem C114_unsaved (hlog : AccurateLog2 lib) {prec : PrecisionInfo (Val b32)} {meshes : List (Mesh (Val b32) × List UInt8)}
    {mn : Mesh (Val b32) × List UInt8} (hmn : mn ∈ meshes) {c : CustomSeg (Val b32)} (hc : c ∈ mn.1.customData)
    {data : List (Val b32)} {pr : Val b32} (hv : c.data = .float data pr) (hd : ∃ s, .inf s ∈ data)
    (hp : isFinite pr = true) (p0 : isSignNegative pr = false) (bytes : List UInt8) :
    tmfBytes (ops lib) fb .checked prec meshes ≠ .ok bytes := by
  intro hb
  obtain ⟨enc, hf, -⟩ := tmfBytes_ok _ _ _ _ hb
  obtain ⟨segs, hs⟩ := mapAll_ok_mem hf mn hmn
  have hn := (narrow_of_checked hs).custom c hc
  rw [hv] at hn
  have hn : floatPrec (ops lib) data pr ≤ 30 := hn
  rw [floatBits_endless hlog hd hp p0] at hn
  exact absurd hn (by decide)

/-- A mesh with three custom fractions, one of them `-∞` and one NaN. -/
def endlessFloats : Mesh (Val b32) :=
  { (Mesh.empty : Mesh (Val b32)) with customData := [⟨[102], .float [vOne, .inf true, .nan] (lit 1 2)⟩] }

/-- The hypotheses of `C114_refused` and `C114_unsaved` can be met. A build without overflow checks saves these fractions, but no
build loads them; a build with overflow checks does not save them. -/
example (hlog : AccurateLog2 lib) : (∃ bytes, tmfBytes (ops lib) fb .wrapping creepPrec [(endlessFloats, [65])] = .ok bytes ∧
    ∀ b junk sched out, readTmf (ops lib) fb b ⟨bytes ++ junk, sched, false⟩ ≠ .ok out) ∧
    ∀ bytes, tmfBytes (ops lib) fb .checked creepPrec [(endlessFloats, [65])] ≠ .ok bytes := by
  have hd : ∃ s, .inf s ∈ [vOne, .inf true, (.nan : Val b32)] := ⟨true, by simp⟩
  have hp : isFinite (lit 1 2 : Val b32) = true := by decide +kernel
  have p0 : isSignNegative (lit 1 2 : Val b32) = false := by decide +kernel
  obtain ⟨bytes, hb⟩ : ∃ bytes, tmfBytes (ops lib) fb .wrapping creepPrec [(endlessFloats, [65])] = .ok bytes := by
    refine C29_saved_partial (orderLaws lib) .wrapping _ _ ?_ ?_ ?_ ?_ ?_
    · intro mn hm
      cases List.mem_singleton.mp hm
      refine ⟨rfl, ⟨?_, ?_, ?_⟩, ?_, ?_, ?_, ?_, ?_⟩
      · intro l hl; cases hl
      · intro l hl; cases hl
      · intro l hl; cases hl
      · intro t ht; cases ht
      · intro t ht; cases ht
      · intro t ht; cases ht
      · intro t ht; cases ht
      · intro c hc
        cases List.mem_singleton.mp hc
        intro l k h
        rcases h with h | h <;> cases h
    · intro mn hm; cases List.mem_singleton.mp hm; exact fun h => nomatch h
    · intro mn hm vs t hv ht
      cases List.mem_singleton.mp hm
      cases ht
    · intro mn hm
      cases List.mem_singleton.mp hm
      refine ⟨show isFinite (lit 1 1 : Val b32) = true by decide +kernel, fun vs t hv ht _ => ?_⟩
      cases ht
    · intro h; cases h
  refine ⟨⟨bytes, hb, fun b junk sched out => ?_⟩, fun bytes => ?_⟩
  · refine C114_refused (meshes := [(endlessFloats, [65])]) hlog ⟨by decide, by decide, by decide⟩ (show 1 < 2 ^ 32 by decide) ?_ ?_ ?_ ?_
      List.mem_cons_self (c := ⟨[102], .float [vOne, .inf true, .nan] (lit 1 2)⟩) List.mem_cons_self rfl hd hp p0 .wrapping b hb junk sched out
    · intro mn h
      rcases List.mem_singleton.mp h with rfl
      exact ⟨show 1 < 2 ^ 16 by decide, ⟨['A'], rfl⟩⟩
    · intro mn h
      rcases List.mem_singleton.mp h with rfl
      refine ⟨?_, ?_, ?_, ?_, ?_, ?_, ?_, ?_, ?_, ?_, ?_⟩ <;> simp [LengthFits, IndicesFit, endlessFloats, Mesh.empty]
      exact .float _ _ _ (show 1 < 256 by decide) (show 3 ≤ 2 ^ 31 by decide)
    · intro mn h
      rcases List.mem_singleton.mp h with rfl
      norm_num [segmentBound, mostPieces, indexPieces, onePiece, endlessFloats, Mesh.empty]
    · norm_num [meshSizeBound, segmentBound, mostPieces, indexPieces, onePiece, elements, elementCount, customLoad, customCount,
        endlessFloats, Mesh.empty]
  · exact C114_unsaved hlog List.mem_cons_self (c := ⟨[102], .float [vOne, .inf true, .nan] (lit 1 2)⟩) List.mem_cons_self rfl hd hp p0 bytes

end Tmf.Props
