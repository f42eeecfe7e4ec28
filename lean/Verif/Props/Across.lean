import Verif.Lemmas.Across
import Verif.Props.DoublePrecision
/-
C67: the same file with and without the feature `double_precision`.
-/

set_option exponentiation.threshold 2000

namespace Tmf.Props
open Spec Ieee
open Ieee.Double (f64Le64)

variable {lib : Libm64} {b b' : Build} {prec : PrecisionInfo (Val b64)} {meshes : List (Mesh (Val b64) × List UInt8)} {bytes : List UInt8}

/-- C67, across: on every input the program without `double_precision` succeeds, fails (with the same error) or panics exactly
if the one with it does; the meshes have the same names, arrays, lengths and indices, and differ by rounding only in uv
coordinates, in z of normals and tangents, and in custom data. -/
theorem C67_across (lib : Libm) (lib' : Libm64) (b : Build) (s : Source) :
    Both (List.Forall₂ fun x y => AcrossMesh x.1 y.1 ∧ x.2 = y.2) (readTmf (ops lib) (f64Le lib) b s)
      (readTmf (ops64 lib') (f64Le64 lib') b s) := readTmf_across lib lib' b s

theorem Both.of_right {ε α β : Type} {R : α → β → Prop} {x : Outcome ε α} {y : Outcome ε β} (h : Both R x y) {c : β} (e : y = .ok c) :
    ∃ a, x = .ok a ∧ R a c := by
  cases h with
  | ok h => cases e; exact ⟨_, rfl, h⟩
  | err => cases e
  | panic => cases e

theorem forall₂_trans' {α β γ : Type} {R : α → β → Prop} {S : γ → β → Prop} {T : α → γ → Prop} (h : ∀ a b c, R a b → S c b → T a c)
    {l : List α} {l' : List β} {l'' : List γ} (h1 : List.Forall₂ R l l') (h2 : List.Forall₂ S l'' l') : List.Forall₂ T l l'' := by
  induction h1 generalizing l'' with
  | nil => cases h2; exact .nil
  | cons h1 _ ih =>
    cases h2 with
    | cons h2 h2' => exact .cons (h _ _ _ h1 h2) (ih h2')

theorem near_unit {p : Nat} {x y : Val b64} {z : Val b32} (h : StepBelow p x y) (hz : NearValue z y) : NearUnit p x z := by
  refine ⟨hz.finite.1, ?_⟩
  obtain ⟨_, h1, h2⟩ := h
  have h3 := abs_le.mp hz.near
  rw [abs_le]
  constructor <;> linarith [h3.1, h3.2]

/-- C67, a file saved with `double_precision` and loaded without: it loads, under the same names, with the same triangles, and
with every uv coordinate from 0 to 1 at most one step and a rounding away from what was saved. -/
theorem C67_saved_across (h : tmfBytes (ops64 lib) (f64Le64 lib) b prec meshes = .ok bytes)
    (hl : LimitsLow (ops64 lib) (f64Le64 lib) b prec meshes) (hb : bytes.length ≤ 2 ^ 31) (lib' : Libm)
    (junk : List UInt8) (sched : List Nat) :
    ∃ out, readTmf (ops lib') (f64Le lib') b' ⟨bytes ++ junk, sched, false⟩ = .ok out ∧
      List.Forall₂ (fun mn mn' => mn'.2 = mn.2 ∧ mn'.1.vertexTriangles = mn.1.vertexTriangles ∧
        mn'.1.normalTriangles = mn.1.normalTriangles ∧ mn'.1.uvTriangles = mn.1.uvTriangles ∧
        mn'.1.tangentTriangles = mn.1.tangentTriangles ∧
        ∀ l, mn.1.uvs = some l → ∃ l', mn'.1.uvs = some l' ∧ l'.length = l.length ∧
          (1 ≤ prec.uv → (∀ uv ∈ l, UnitValue uv.1 ∧ UnitValue uv.2) →
            List.Forall₂ (fun uv uv' => NearUnit prec.uv uv.1 uv'.1 ∧ NearUnit prec.uv uv.2 uv'.2) l l')) meshes out := by
  obtain ⟨out, e, hf⟩ := readTmf_low (b' := b') h hl hb junk sched
  obtain ⟨out', e', hf'⟩ := Both.of_right (C67_across lib' lib b' ⟨bytes ++ junk, sched, false⟩) e
  refine ⟨out', e', forall₂_trans' (fun a b c (h1 : _ ∧ _) h2 => ?_) (forall₂_imp hf fun mn hmn mn' hk => And.intro hmn hk) hf'⟩
  obtain ⟨hmn, hname, edge, he, hm, -⟩ := h1
  obtain ⟨hx, hname'⟩ := h2
  rw [hm] at hx
  refine ⟨hname'.trans hname, hx.vertexTriangles, hx.normalTriangles, hx.uvTriangles, hx.tangentTriangles, fun l hml => ?_⟩
  have hp := (saved_narrow h hl a hmn).uvs l hml
  have ha := hx.uvs
  simp only [loadedMesh, hml, Option.map_some] at ha
  generalize hq : c.1.uvs = q at ha
  cases q with
  | none => exact ha.elim
  | some l'' =>
    have ha : List.Forall₂ _ l'' (l.map (quantUv (ops64 lib) prec.uv)) := ha
    refine ⟨l'', rfl, ha.length_eq.trans (List.length_map ..), fun hp1 hv => ?_⟩
    have hu : List.Forall₂ (fun uv uv' => StepBelow prec.uv uv.1 uv'.1 ∧ StepBelow prec.uv uv.2 uv'.2) l
        (l.map (quantUv (ops64 lib) prec.uv)) := forall₂_map fun uv huv => Double.quantUv_step lib hp1 hp (hv uv huv).1 (hv uv huv).2
    refine forall₂_trans' ?_ hu ha
    rintro u u' u'' ⟨h1, h2⟩ ⟨h3, h4⟩
    exact ⟨near_unit h1 h3, near_unit h2 h4⟩

theorem convert_near {v : Val b64} (hf : isFinite v = true) (h : |valueOf v| ≤ 2 ^ 124) :
    isFinite (convert v : Val b32) = true ∧ |valueOf (convert v : Val b32) - valueOf v| ≤ 1 / 2 ^ 24 * |valueOf v| + 1 / 2 ^ 150 := by
  obtain ⟨e, ev⟩ := convert_value (g := b32) (by decide) hf (le_trans h (le_trans (by norm_num) maxV32))
  exact ⟨e, by rw [ev]; exact rnd32_error _⟩

theorem float_across {x y : Val b64} {lo hi : ℚ} {p : Nat} (hp1 : 1 ≤ p) (hx : lo ≤ valueOf x ∧ valueOf x ≤ hi) (hlo : |lo| ≤ 2 ^ 120)
    (hhi : |hi| ≤ 2 ^ 120) (h : Within ((hi - lo) / (2 ^ p - 1) + Max.max |lo| |hi| / 2 ^ 48 + 1 / 2 ^ 1073) x y) :
    WithinF32 ((hi - lo) / (2 ^ p - 1) + Max.max |lo| |hi| / 2 ^ 22 + 1 / 2 ^ 149) x (convert y) := by
  obtain ⟨hf, hd⟩ := h
  have hM : Max.max |lo| |hi| ≤ 2 ^ 120 := max_le hlo hhi
  have hM1 := le_max_left |lo| |hi|
  have hM2 := le_max_right |lo| |hi|
  generalize Max.max |lo| |hi| = M at *
  have hl := abs_le.mp (le_trans (le_refl |lo|) hM1)
  have hh := abs_le.mp (le_trans (le_refl |hi|) hM2)
  have hmask : (1 : ℚ) ≤ 2 ^ p - 1 := by
    have : (2 : ℚ) ^ 1 ≤ 2 ^ p := pow_le_pow_right₀ (by norm_num) hp1
    linarith
  have hstep : (hi - lo) / (2 ^ p - 1) ≤ hi - lo := div_le_self (by linarith [hx.1, hx.2]) hmask
  have ht : (1 : ℚ) / 2 ^ 1073 ≤ 1 / 2 ^ 160 := by
    rw [one_div_le_one_div (by positivity) (by positivity)]
    exact pow_le_pow_right₀ (by norm_num) (by norm_num)
  have hd2 := abs_le.mp hd
  generalize (1 : ℚ) / 2 ^ 1073 = t at *
  generalize (hi - lo) / (2 ^ p - 1) = z at *
  have hv : |valueOf y| ≤ 3 * M + M / 2 ^ 48 + t := by
    rw [abs_le]
    constructor <;> linarith [hd2.1, hd2.2, hl.1, hl.2, hh.1, hh.2, hx.1, hx.2]
  have hM0 : 0 ≤ M := le_trans (abs_nonneg lo) hM1
  have hv2 : |valueOf y| ≤ 2 ^ 124 := by
    norm_num at *
    linarith
  obtain ⟨e, he⟩ := convert_near hf hv2
  refine ⟨e, ?_⟩
  have tri := abs_add_le (valueOf (convert y : Val b32) - valueOf y) (valueOf y - valueOf x)
  rw [sub_add_sub_cancel] at tri
  generalize |valueOf y| = w at *
  generalize |valueOf (convert y : Val b32) - valueOf x| = u at *
  generalize |valueOf (convert y : Val b32) - valueOf y| = u' at *
  generalize |valueOf y - valueOf x| = u'' at *
  norm_num at *
  linarith

theorem channel_across {p : Nat} {x y : Val b64} (hx : UnitValue x) (h : StepBelow p x y) (hp1 : 1 ≤ p) : NearUnit p x (convert y) := by
  obtain ⟨hf, h1, h2⟩ := h
  obtain ⟨_, hx0, hx1⟩ := hx
  have hmask : (1 : ℚ) ≤ 2 ^ p - 1 := by
    have : (2 : ℚ) ^ 1 ≤ 2 ^ p := pow_le_pow_right₀ (by norm_num) hp1
    linarith
  have hs : 1 / (2 ^ p - 1) ≤ (1 : ℚ) := by rw [div_le_one (by linarith)]; exact hmask
  have hv : |valueOf y| ≤ 1 := by rw [abs_le]; constructor <;> linarith
  obtain ⟨e, he⟩ := convert_near hf (le_trans hv (by norm_num))
  refine ⟨e, ?_⟩
  have he2 := abs_le.mp he
  rw [abs_le]
  generalize 1 / ((2 : ℚ) ^ p - 1) = z at *
  norm_num at *
  constructor <;> linarith [he2.1, he2.2]

theorem kept_across {pf : List (Val b64) → Val b64 → Nat} {pc : Val b64 → Nat} {c c' : CustomData (Val b64)} {d : CustomData (Val b32)}
    (h : KeptCustom64 pf pc c c') (hx : AcrossCustom d c') : KeptAcross pf pc c d := by
  cases h with
  | index l m m' => cases hx; exact .index l m _
  | integer l m m' => cases hx; exact .integer l m _
  | float data data' p p' hlen hp h =>
    cases hx
    refine .float data _ p _ (by rw [List.length_map, hlen]) hp fun lo hi he hlt hlo hhi => ?_
    refine forall₂_trans' (S := fun y x => y = convert x) ?_ (forall₂_imp (h lo hi he hlt hlo hhi) fun x hx y hy => And.intro hx hy)
      (by rw [List.forall₂_map_left_iff]; exact List.forall₂_same.mpr fun _ _ => rfl)
    rintro x y z ⟨hm, hk⟩ rfl
    exact float_across hp.1 (he.bounds x hm) hlo hhi hk
  | color data data' p p' hlen hp h =>
    cases hx
    refine .color data _ p _ (by rw [List.length_map, hlen]) hp fun hp1 hu => ?_
    refine forall₂_trans' (S := fun y x => y = nearestColor x) ?_ (forall₂_imp (h hp1 hu) fun x hx y hy => And.intro hx hy)
      (by rw [List.forall₂_map_left_iff]; exact List.forall₂_same.mpr fun _ _ => rfl)
    rintro x y z ⟨hm, h1, h2, h3, h4⟩ rfl
    obtain ⟨u1, u2, u3, u4⟩ := hu x hm
    exact ⟨channel_across u1 h1 hp1, channel_across u2 h2 hp1, channel_across u3 h3 hp1, channel_across u4 h4 hp1⟩

/-- C67, the custom data of a file saved with `double_precision` and loaded without. -/
theorem C67_saved_across_custom (h : tmfBytes (ops64 lib) (f64Le64 lib) b prec meshes = .ok bytes)
    (hl : LimitsLow (ops64 lib) (f64Le64 lib) b prec meshes) (hb : bytes.length ≤ 2 ^ 31) (lib' : Libm)
    (junk : List UInt8) (sched : List Nat) :
    ∃ out, readTmf (ops lib') (f64Le lib') b' ⟨bytes ++ junk, sched, false⟩ = .ok out ∧
      List.Forall₂ (fun mn mn' => List.Forall₂ (fun c c' => c'.name = c.name ∧
        KeptAcross (floatPrec (ops64 lib)) (colorPrec (ops64 lib)) c.data c'.data)
        mn.1.customData.reverse mn'.1.customData) meshes out := by
  obtain ⟨out, e, hf⟩ := C67_custom (b' := b') h hl hb junk sched
  obtain ⟨out', e', hf'⟩ := Both.of_right (C67_across lib' lib b' ⟨bytes ++ junk, sched, false⟩) e
  refine ⟨out', e', forall₂_trans' (fun mn mn' mn'' hk hx => ?_) hf hf'⟩
  refine forall₂_trans' (fun c c' c'' h1 h2 => ?_) hk hx.1.customData
  exact ⟨h2.1.trans h1.1, kept_across h1.2 h2.2⟩

/-- The tile saved with `double_precision` loads without it. -/
example (b' : Build) (lib' : Libm) : ∃ bytes mn uv c f,
    tmfBytes (ops64 thirty) (f64Le64 thirty) .wrapping tilePrec [(tile, [65])] = .ok bytes ∧
    readTmf (ops lib') (f64Le lib') b' ⟨bytes ++ [], [], false⟩ = .ok [mn] ∧ mn.1.uvTriangles = some [0, 0, 0] ∧
    mn.1.uvs = some [uv] ∧ NearUnit 30 wOne uv.1 ∧ NearUnit 30 wQuarter uv.2 ∧
    mn.1.customData = [c, f] ∧ c.name = [99] ∧ f.name = [102] ∧
    KeptAcross (floatPrec (ops64 thirty)) (colorPrec (ops64 thirty)) (.color [(wOne, wOne, wQuarter, wZero)] wQuarter) c.data ∧
    KeptAcross (floatPrec (ops64 thirty)) (colorPrec (ops64 thirty)) (.float [wOne, wQuarter, wFive] wQuarter) f.data := by
  obtain ⟨bytes, h, hb⟩ := tile_saved (f64Le64 thirty)
  obtain ⟨out, e, hf⟩ := C67_saved_across (b' := b') h (tile_limits _) hb lib' [] []
  obtain ⟨out', e', hf'⟩ := C67_saved_across_custom (b' := b') h (tile_limits _) hb lib' [] []
  obtain rfl : out = out' := by rw [e] at e'; injection e'
  obtain ⟨mn, rfl, _, _, _, ht, _, hu⟩ := only hf
  obtain ⟨l', hl', _, hk⟩ := hu _ rfl
  obtain ⟨uv, rfl, hk'⟩ := only (hk (show 1 ≤ 30 by decide)
    (fun n hn => by rcases List.mem_singleton.mp hn with rfl; exact ⟨unit_wOne, unit_wQuarter⟩))
  obtain ⟨mn', e3, hm⟩ := only hf'
  obtain rfl : mn = mn' := by injection e3
  have hm' : List.Forall₂ (fun c c' => c'.name = c.name ∧
      KeptAcross (floatPrec (ops64 thirty)) (colorPrec (ops64 thirty)) c.data c'.data)
      [(⟨[99], .color [(wOne, wOne, wQuarter, wZero)] wQuarter⟩ : CustomSeg (Val b64)),
        ⟨[102], .float [wOne, wQuarter, wFive] wQuarter⟩] mn.1.customData := hm
  generalize hcd : mn.1.customData = cd at hm'
  cases hm' with
  | @cons _ c _ _ h1 hm' =>
  obtain ⟨f, rfl, h2⟩ := only hm'
  exact ⟨bytes, mn, uv, c, f, h, e, ht, hl', hk'.1, hk'.2, hcd, h1.1, h2.1, h1.2, h2.2⟩

end Tmf.Props
