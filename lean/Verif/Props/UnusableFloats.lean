import Verif.Spec.UnusableFloats
import Verif.Lemmas.UnusableFloats
import Verif.Props.MissingFloats
import Verif.Props.Endless
/-
C116: with a precision that is no positive number, custom fractions are stored all the same, but at most two
values are left of the array.
-/

set_option exponentiation.threshold 2000

namespace Tmf.Props
open Spec Ieee

variable {lib : Libm} {fb : F64Bytes (ops lib)}

theorem two_values {data : List (Val b32)} {p : Val b32} (hw : floatPrec (ops lib) data p = 1) :
    ∃ data' p', quantFloats (ops lib) data p = .float data' p' ∧ data'.length = data.length ∧ TwoValues data' := by
  obtain ⟨a, c, h⟩ := floatQ_one (rangeOf data).1 (rangeOf data).2
  rw [quantFloats, floatRange_ops lib]
  refine ⟨_, _, rfl, List.length_map _, a, c, fun y hy => ?_⟩
  obtain ⟨x, -, rfl⟩ := List.mem_map.mp hy
  rw [quantFloat_ops lib, hw]
  exact h x

/-- C116: an array that holds anything but NaN takes one bit per fraction, and every build stores it. At most two values come back. -/
theorem C116_stored (hlog : AccurateLog2 lib) {b : Build} {data : List (Val b32)} (hl : data.length ≤ 2 ^ 31) (hne : ∃ x ∈ data, x ≠ .nan)
    {p : Val b32} (hp : Unusable p) :
    ∃ bytes data' p', saveFloats (ops lib) fb b data p = .ok bytes ∧ readFloats (ops lib) fb bytes = .ok (.float data' p') ∧
      data'.length = data.length ∧ TwoValues data' := by
  have hw := floatPrec_unusable hlog hne hp
  obtain ⟨bytes, hs, hr⟩ := readFloats_writable (fo := ops lib) (fb := fb) (b := b) (data := data) (prec := p)
    (.inl (by rw [hw]; decide)) hl
  obtain ⟨data', p', e, h1, h2⟩ := two_values (lib := lib) hw
  exact ⟨bytes, data', p', hs, by rw [hr, e], h1, h2⟩

/-- C116 for whole files: every build loads what was saved, and all custom fractions with such a precision come back like this. -/
theorem C116_file (hlog : AccurateLog2 lib) {b b' : Build} {prec : PrecisionInfo (Val b32)} {meshes : List (Mesh (Val b32) × List UInt8)}
    {bytes : List UInt8} (h : tmfBytes (ops lib) fb b prec meshes = .ok bytes) (hl : LimitsLow (ops lib) fb b prec meshes)
    (hb : bytes.length ≤ 2 ^ 31) (junk : List UInt8) (sched : List Nat) :
    ∃ out, readTmf (ops lib) fb b' ⟨bytes ++ junk, sched, false⟩ = .ok out ∧
      List.Forall₂ (fun mn mn' => List.Forall₂ (fun c c' => c'.name = c.name ∧ ∀ data p, c.data = .float data p → (∃ x ∈ data, x ≠ .nan) →
        Unusable p → ∃ data' p', c'.data = .float data' p' ∧ data'.length = data.length ∧ TwoValues data')
        mn.1.customData.reverse mn'.1.customData) meshes out := by
  obtain ⟨out, e, hf⟩ := readTmf_low (b' := b') h hl hb junk sched
  refine ⟨out, e, forall₂_imp hf ?_⟩
  rintro mn hmn mn' ⟨_, edge, he, hm, hcut⟩
  rw [hm]
  show List.Forall₂ _ mn.1.customData.reverse (mn.1.customData.reverse.map (CustomSeg.loaded (ops lib)))
  refine forall₂_map fun c hc => ⟨rfl, fun data p hd hx hp => ?_⟩
  have e : (CustomSeg.loaded (ops lib) c).data = quantFloats (ops lib) data p := by
    show c.data.loaded (ops lib) = _
    rw [hd]
    rfl
  rw [e]
  exact two_values (floatPrec_unusable hlog hx hp)

/-- What C116 leaves out: with a finite precision that has a sign, a file with an array that is empty or holds only NaN is not
saved with overflow checks. -/
theorem C116_blank_unsaved (hlog : AccurateLog2 lib) {prec : PrecisionInfo (Val b32)} {meshes : List (Mesh (Val b32) × List UInt8)}
    {mn : Mesh (Val b32) × List UInt8} (hmn : mn ∈ meshes) {c : CustomSeg (Val b32)} (hc : c ∈ mn.1.customData)
    {data : List (Val b32)} {pr : Val b32} (hv : c.data = .float data pr) (hd : ∀ x ∈ data, x = .nan)
    (hp : isFinite pr = true) (p0 : isSignNegative pr = true) (bytes : List UInt8) :
    tmfBytes (ops lib) fb .checked prec meshes ≠ .ok bytes := by
  intro hb
  obtain ⟨enc, hf, -⟩ := tmfBytes_ok _ _ _ _ hb
  obtain ⟨segs, hs⟩ := mapAll_ok_mem hf mn hmn
  have hn := (narrow_of_checked hs).custom c hc
  rw [hv] at hn
  have hn : floatPrec (ops lib) data pr ≤ 30 := hn
  rw [floatBits_blank hlog hd hp p0] at hn
  exact absurd hn (by decide)

/-- With a precision that is NaN or infinite, such an array is stored by every build. -/
theorem C116_blank_stored (hlog : AccurateLog2 lib) {b : Build} {data : List (Val b32)} (hl : data.length ≤ 2 ^ 31)
    (hd : ∀ x ∈ data, x = .nan) {p : Val b32} (hp : isFinite p = false) :
    ∃ bytes data' p', saveFloats (ops lib) fb b data p = .ok bytes ∧ readFloats (ops lib) fb bytes = .ok (.float data' p') ∧
      data'.length = data.length ∧ TwoValues data' := by
  have hw := floatPrec_blank hlog hd hp
  obtain ⟨bytes, hs, hr⟩ := readFloats_writable (fo := ops lib) (fb := fb) (b := b) (data := data) (prec := p)
    (.inl (by rw [hw]; decide)) hl
  obtain ⟨data', p', e, h1, h2⟩ := two_values (lib := lib) hw
  exact ⟨bytes, data', p', hs, by rw [hr, e], h1, h2⟩

/-- The hypotheses of `C116_blank_unsaved` can be met: an empty array with precision `-1`. -/
example (hlog : AccurateLog2 lib) (bytes : List UInt8) : tmfBytes (ops lib) fb .checked creepPrec
    [({ (Mesh.empty : Mesh (Val b32)) with customData := [⟨[102], .float [] (neg vOne)⟩] }, [65])] ≠ .ok bytes :=
  C116_blank_unsaved hlog (List.mem_singleton.mpr rfl) (List.mem_singleton.mpr rfl) rfl (data := []) (by simp) rfl rfl bytes

/-- The hypotheses of `C116_blank_stored` can be met. -/
example (hlog : AccurateLog2 lib) (b : Build) : ∃ bytes data' p', saveFloats (ops lib) fb b [.nan, .nan] (.inf true) = .ok bytes ∧
    readFloats (ops lib) fb bytes = .ok (.float data' p') ∧ data'.length = 2 ∧ TwoValues data' :=
  C116_blank_stored (data := [.nan, .nan]) hlog (show 2 ≤ 2 ^ 31 by decide) (by simp) rfl

/-- The hypotheses of `C116_stored` can be met: a NaN precision, NaN among the fractions, and an infinity. -/
example (hlog : AccurateLog2 lib) (b : Build) : ∃ bytes data' p', saveFloats (ops lib) fb b (.inf true :: holedFloats) .nan = .ok bytes ∧
    readFloats (ops lib) fb bytes = .ok (.float data' p') ∧ data'.length = 5 ∧ TwoValues data' :=
  C116_stored (data := .inf true :: holedFloats) hlog (show 5 ≤ 2 ^ 31 by decide) ⟨.inf true, by simp, by simp⟩ trivial

/-- Three values are more than two. -/
example : ¬ TwoValues [vOne, vZero, .nan] := by
  rintro ⟨a, c, h⟩
  have h1 := h vOne (by simp)
  have h2 := h vZero (by simp)
  have h3 := h .nan (by simp)
  have e : valueOf vOne ≠ valueOf vZero := by rw [valueOf_vOne, valueOf_vZero]; norm_num
  have e2 : vOne ≠ .nan := by intro h; cases h
  have e3 : vZero ≠ .nan := by intro h; cases h
  have e1 : vOne ≠ vZero := fun h => e (by rw [h])
  rcases h1 with h1 | h1 <;> rcases h2 with h2 | h2 <;> rcases h3 with h3 | h3 <;>
    first | exact e1 (h1.trans h2.symm) | exact e2 (h1.trans h3.symm) | exact e3 (h2.trans h3.symm)

end Tmf.Props
