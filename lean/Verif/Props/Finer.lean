import Verif.Lemmas.Finer
import Verif.Props.Builds
import Verif.Props.EndToEnd
/-
C82: more accuracy never makes a file smaller.
-/

set_option exponentiation.threshold 2000

namespace Tmf.Props
open Spec Ieee DecodedSegment

variable {lib : Libm} {fb : F64Bytes (ops lib)} {b b' : Build} {fine coarse : PrecisionInfo (Val b32)}

/-- C82 for one segment, whatever is in it. -/
theorem C82_segment (hlog : AccurateLog2 lib) (hmono : MonotoneLog2 lib) (h : Finer fine coarse) {edge : Val b32}
    {s : DecodedSegment (Val b32)} {e e' : EncodedSegment} (hc : encode (ops lib) fb b coarse edge s = .ok e)
    (hf : encode (ops lib) fb b' fine edge s = .ok e') : e.data.length ≤ e'.data.length := by
  rw [encode_dataSize hc, encode_dataSize hf]
  exact dataSize_finer hlog hmono h edge s

/-- C82: the same meshes saved with finer settings, by any builds, give a file that is not smaller. The meshes may be
anything that can be saved. -/
theorem C82_file (hlog : AccurateLog2 lib) (hmono : MonotoneLog2 lib) (h : Finer fine coarse)
    {meshes : List (Mesh (Val b32) × List UInt8)} {bytes bytes' : List UInt8}
    (hc : tmfBytes (ops lib) fb b coarse meshes = .ok bytes) (hf : tmfBytes (ops lib) fb b' fine meshes = .ok bytes') :
    bytes.length ≤ bytes'.length := by
  have hw : ∀ {b : Build} {prec : PrecisionInfo (Val b32)} {bytes : List UInt8}, tmfBytes (ops lib) fb b prec meshes = .ok bytes →
      tmfBytes (ops lib) fb .wrapping prec meshes = .ok bytes := by
    intro b prec bytes h
    cases b with
    | checked => exact C64_bytes h
    | wrapping => exact h
  obtain ⟨sizes, h1, e1⟩ := tmfBytes_size (hw hc)
  obtain ⟨sizes', h2, e2⟩ := tmfBytes_size (hw hf)
  rw [e1, e2]
  refine Nat.add_le_add_left ?_ _
  clear e1 e2 hc hf hw
  induction h1 generalizing sizes' with
  | nil => cases h2; exact le_refl _
  | cons h3 _ ih =>
    cases h2 with
    | cons h4 h5 =>
      rw [List.sum_cons, List.sum_cons]
      exact Nat.add_le_add (meshSize_mono hlog hmono h h3 h4) (ih _ h5)

/-- C82, settings: a smaller angle in degrees or radians gives as many bits or more. -/
theorem C82_angles (hlog : AccurateLog2 lib) (hmono : MonotoneLog2 lib) {x y : Val b32} (hx : isFinite x = true) (h0 : 0 < valueOf x)
    (hy : isFinite y = true) (h : valueOf x ≤ valueOf y) :
    normalPrecFromDeg (ops lib) y ≤ normalPrecFromDeg (ops lib) x ∧ normalPrecFromRad (ops lib) y ≤ normalPrecFromRad (ops lib) x := by
  have hle := ordered_of_value hx h0 hy h
  have h90 : (lit 90 0 : Val b32) = .fin false (90 * 2 ^ 149) (by decide +kernel) := by decide +kernel
  have hpi : ((ops lib).fracPi2 : Val b32) = .fin false (13176795 * 2 ^ 126) (by decide +kernel) := by
    show (rounded false (31415926535897932 * 2 ^ 149) (2 * 10 ^ 16) : Val b32) = _
    decide +kernel
  refine ⟨?_, ?_⟩
  · show Max.max (bitsFor lib (div (lit 90 0) y)) 1 ≤ Max.max (bitsFor lib (div (lit 90 0) x)) 1
    rw [h90]
    exact max_le_max (bits_ordered hlog hmono (quotient_le _ _ (by norm_num) hle)) (le_refl 1)
  · show bitsFor lib (div (ops lib).fracPi2 y) ≤ bitsFor lib (div (ops lib).fracPi2 x)
    rw [hpi]
    exact bits_ordered hlog hmono (quotient_le _ _ (by norm_num) hle)

/-- C82, settings: a larger texture and a smaller part of a pixel give as many bits or more. -/
theorem C82_texture (hlog : AccurateLog2 lib) (hmono : MonotoneLog2 lib) {res res' dev dev' : Val b32} (hr : isFinite res = true)
    (hr' : isFinite res' = true) (hd : isFinite dev = true) (hd' : isFinite dev' = true) (hr0 : 0 < valueOf res) (hd0 : 0 < valueOf dev')
    (h : valueOf res ≤ valueOf res') (h' : valueOf dev' ≤ valueOf dev) :
    uvPrecFromTexture (ops lib) res dev ≤ uvPrecFromTexture (ops lib) res' dev' :=
  bits_ordered hlog hmono (ratio_ordered hr hr' hd hd' hr0 hd0 h h')

/-! ### Examples -/

/-- Three bits more for normals and six more for uv coordinates. -/
def sharpPrec : PrecisionInfo (Val b32) := { kitPrec with normal := 10, uv := 9 }

theorem sharp_finer : Finer sharpPrec kitPrec where
  positive := ⟨tenth_exact.1, show 0 < valueOf (lit 1 1 : Val b32) by rw [tenth_exact.2]; norm_num⟩
  vertex := ⟨tenth_exact.1, le_refl _⟩
  normal := by decide
  uv := by decide
  tangent := by decide

theorem sharp_saveable : Saveable 30 sharpPrec [(kit, [65])] :=
  { saveable_mono (k := 24) (k' := 30) (by decide) kit_sensible.saveable with normal := by decide, uv := by decide }

/-- Both files exist, written by different builds. -/
example (fb : F64Bytes (ops someLibm)) : ∃ bytes bytes', tmfBytes (ops someLibm) fb .wrapping kitPrec [(kit, [65])] = .ok bytes ∧
    tmfBytes (ops someLibm) fb .checked sharpPrec [(kit, [65])] = .ok bytes' ∧ bytes.length ≤ bytes'.length := by
  obtain ⟨bytes, -, h1, -⟩ := C65_saved (fb := fb) someLibm_log2 someLibm_monotone (saveable_mono (by decide) kit_sensible.saveable)
  obtain ⟨bytes', -, h2, -⟩ := C65_saved (fb := fb) someLibm_log2 someLibm_monotone sharp_saveable
  exact ⟨bytes, bytes', h1 _, h2 _, C82_file someLibm_log2 someLibm_monotone sharp_finer (h1 .wrapping) (h2 .checked)⟩

/-- A tenth of a degree needs as many bits as a degree, or more. -/
example : normalPrecFromDeg (ops someLibm) (lit 1 0) ≤ normalPrecFromDeg (ops someLibm) (lit 1 1) :=
  (C82_angles someLibm_log2 someLibm_monotone tenth_exact.1 (by rw [tenth_exact.2]; norm_num) lit_one.1
    (by rw [tenth_exact.2, lit_one.2]; norm_num)).1

/-- A texture of the same size and a tenth of a pixel. -/
example : uvPrecFromTexture (ops someLibm) (lit 1 0) (lit 1 0) ≤ uvPrecFromTexture (ops someLibm) (lit 1 0) (lit 1 1) :=
  C82_texture someLibm_log2 someLibm_monotone lit_one.1 lit_one.1 lit_one.1 tenth_exact.1 (by rw [lit_one.2]; norm_num)
    (by rw [tenth_exact.2]; norm_num) (le_refl _) (by rw [tenth_exact.2, lit_one.2]; norm_num)

end Tmf.Props
