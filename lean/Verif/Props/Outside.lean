import Verif.Lemmas.Outside
import Verif.Props.Order
/-
C110: uv coordinates and colour channels outside [0,1]. What is below 0 (or NaN) comes back as 0; the
positive infinity and numbers of 2^64 steps or more come back as 1. Numbers above 1 come back neither as
1 nor as the same place of a repeated texture (`C110_violated`): with every repetition they are one more
step below it.
-/

set_option exponentiation.threshold 2000

namespace Tmf.Props
open Spec Ieee

variable {lib : Libm} {fb : F64Bytes (ops lib)} {b b' : Build} {prec : PrecisionInfo (Val b32)}
  {meshes : List (Mesh (Val b32) × List UInt8)} {bytes : List UInt8}

/-- C110 for the uv coordinates of whole files (the full claim, that a number above 1 keeps its place in a
repeated texture or becomes 1, is false: `C110_violated`; for more than 24 bits, numbers above 1 are left out). -/
theorem C110_uvs_partial (h : tmfBytes (ops lib) fb b prec meshes = .ok bytes) (hl : LimitsLow (ops lib) fb b prec meshes)
    (hb : bytes.length ≤ 2 ^ 31) (hp1 : 1 ≤ prec.uv) (junk : List UInt8) (sched : List Nat) :
    ∃ out, readTmf (ops lib) fb b' ⟨bytes ++ junk, sched, false⟩ = .ok out ∧
      List.Forall₂ (fun mn mn' => ∀ l, mn.1.uvs = some l → ∃ l', mn'.1.uvs = some l' ∧
        List.Forall₂ (fun uv uv' => Outside prec.uv uv.1 uv'.1 ∧ Outside prec.uv uv.2 uv'.2) l l') meshes out := by
  obtain ⟨out, e, hf⟩ := readTmf_low (b' := b') h hl hb junk sched
  refine ⟨out, e, forall₂_imp hf ?_⟩
  rintro mn hmn mn' ⟨_, edge, _, hm, _⟩ l hml
  rw [hm]
  refine ⟨l.map (quantUv (ops lib) prec.uv), by simp only [loadedMesh, hml, Option.map_some], forall₂_map fun uv _ => ?_⟩
  have hp := (saved_narrow h hl mn hmn).uvs l hml
  rw [quantUv, if_neg (by omega), uvOfCodes, ops_toU64 lib, ops_mul lib, ops_div lib, ops_ofNat lib]
  exact ⟨outside_single hp1 hp _, outside_single hp1 hp _⟩

/-- C110 for the colours of whole files, each channel by itself (partial as `C110_uvs_partial`). -/
theorem C110_colors_partial (h : tmfBytes (ops lib) fb b prec meshes = .ok bytes) (hl : LimitsLow (ops lib) fb b prec meshes)
    (hb : bytes.length ≤ 2 ^ 31) (junk : List UInt8) (sched : List Nat) :
    ∃ out, readTmf (ops lib) fb b' ⟨bytes ++ junk, sched, false⟩ = .ok out ∧
      List.Forall₂ (fun mn mn' => List.Forall₂ (fun c c' => c'.name = c.name ∧
        ∀ data p, c.data = .color data p → 1 ≤ colorPrec (ops lib) p →
          ∃ data' p', c'.data = .color data' p' ∧ List.Forall₂ (fun k k' =>
            Outside (colorPrec (ops lib) p) k.1 k'.1 ∧ Outside (colorPrec (ops lib) p) k.2.1 k'.2.1 ∧
            Outside (colorPrec (ops lib) p) k.2.2.1 k'.2.2.1 ∧ Outside (colorPrec (ops lib) p) k.2.2.2 k'.2.2.2) data data')
        mn.1.customData.reverse mn'.1.customData) meshes out := by
  obtain ⟨out, e, hf⟩ := readTmf_low (b' := b') h hl hb junk sched
  refine ⟨out, e, forall₂_imp hf ?_⟩
  rintro mn hmn mn' ⟨_, edge, he, hm, hcut⟩
  rw [hm]
  show List.Forall₂ _ mn.1.customData.reverse (mn.1.customData.reverse.map (CustomSeg.loaded (ops lib)))
  refine forall₂_map fun c hc => ⟨rfl, ?_⟩
  obtain ⟨name, d⟩ := c
  intro data p hd hp1
  dsimp only at hd
  subst hd
  refine ⟨_, _, rfl, forall₂_map fun k _ => ?_⟩
  have hp : colorPrec (ops lib) p ≤ 30 := (saved_narrow h hl mn hmn).custom _ (List.mem_reverse.mp hc)
  have e : ∀ x, Outside (colorPrec (ops lib) p) x (quantChannel (ops lib) (colorPrec (ops lib) p) x) := by
    intro x
    rw [quantChannel, channelOfCode, ops_ofD lib, ops_dDiv lib, ops_dOfNat lib, ops_toU64 lib, ops_mul lib, ops_ofNat lib]
    exact outside_double hp1 hp x
  exact ⟨e _, e _, e _, e _⟩

/-- `100.5`. -/
def v100half : Val b32 := .fin false (201 * 2 ^ 148) (by decide +kernel)

theorem valueOf_v100half : valueOf v100half = (100 : ℕ) + 1 / 2 := by
  rw [v100half, valueOf_pos, show b32.scale = 149 from rfl]; norm_num

/-- The kinds of numbers C110 speaks of: NaN, an infinity and a place in the texture's hundredth repetition. -/
example : NotAbove .nan ∧ NotAbove (.inf true) ∧ TooFar 10 (.inf false) ∧ TooFar 10 vHuge ∧
    isFinite v100half = true ∧ valueOf v100half = (100 : ℕ) + 1 / 2 ∧
    ((100 : ℕ) : ℚ) + 2 ≤ 1 / 2 * (2 ^ 10 - 1) ∧ valueOf v100half * (2 ^ 10 - 1) ≤ 2 ^ 20 := by
  refine ⟨trivial, rfl, rfl, ?_, rfl, valueOf_v100half, by norm_num, by rw [valueOf_v100half]; norm_num⟩
  show (2 : ℚ) ^ 64 ≤ valueOf vHuge * (2 ^ 10 - 1)
  rw [vHuge, valueOf_pos, show b32.scale = 149 from rfl]; norm_num

/-- C110 is false above 1: the uv coordinate 100.5, the middle of a repeated texture, comes back as about 0.4 if
it is stored in 10 bits (whose steps are less than a thousandth). -/
theorem C110_violated : ∃ bytes y, saveUvs (ops lib) b [(v100half, v100half)] 10 = .ok bytes ∧
    readUvs (ops lib) bytes = .ok [(y, y)] ∧ 4 / 10 < valueOf y ∧ valueOf y < 403 / 1000 := by
  obtain ⟨bytes, hs, hr⟩ := readUvs_writable (fo := ops lib) (b := b) (l := [(v100half, v100half)]) (p := 10)
    (.inl (by decide)) (by show 1 ≤ 2 ^ 31; decide)
  rw [List.map_cons, List.map_nil, quantUv_eq lib (by decide) (by decide)] at hr
  obtain ⟨-, h1, h2⟩ := (outside_unitDec (p := 10) (by decide) (by decide) v100half).beyond (by decide) 100 (1 / 2) rfl valueOf_v100half
    (by norm_num) (by norm_num) (by norm_num) (by rw [valueOf_v100half]; norm_num)
  refine ⟨bytes, _, hs, hr, lt_of_lt_of_le ?_ h1, lt_of_le_of_lt h2 ?_⟩ <;> norm_num

end Tmf.Props
