import Verif.Lemmas.MissingFloats
import Verif.Props.FileAccuracy
/-
C113: what becomes of custom fractions that are NaN.
-/

set_option exponentiation.threshold 2000

namespace Tmf.Props
open Spec Ieee

variable {lib : Libm} {fb : F64Bytes (ops lib)}

theorem floats_filled {data : List (Val b32)} {M : ℚ} (h : ∀ x ∈ data, Plain M x) (hM : M ≤ 2 ^ 120) {p : Nat} (hp1 : 1 ≤ p)
    (hp : p ≤ 31) : ∀ x ∈ data, FloatFilled data p M x (floatQ p (rangeOf data).1 (rangeOf data).2 x) := by
  intro x hx
  refine ⟨?_, ?_, ?_⟩
  · rintro rfl hy
    obtain ⟨h1, h2⟩ := range_ends h hM hy
    exact least_other h1 (floatQ_nan hp1 hp h1.finite h2.finite)
  · intro hn
    rw [hn x hx, range_none hn]
    have := floatQ_nan hp1 hp valueOf_pack_max.1 valueOf_pack_min.1
    rw [valueOf_pack_max.2, maxV32_eq] at this
    exact this
  · intro hp hf
    obtain ⟨h1, h2⟩ := range_ends h hM ⟨x, hx, hf⟩
    have b1 := least_size h1 h
    have b2 := greatest_size h2 h
    have l1 := h1.le x hx hf
    have l2 := h2.ge x hx hf
    have hm : (0 : ℚ) < 2 ^ p - 1 := by
      have : (2 : ℚ) ^ 1 ≤ 2 ^ p := pow_le_pow_right₀ (by norm_num) hp1
      linarith
    have hM0 : 0 ≤ M := le_trans (abs_nonneg _) b1
    rcases lt_or_eq_of_le (le_trans l1 l2) with hlt | heq
    · obtain ⟨f, e⟩ := float_near hp1 hp hf h1.finite h2.finite l1 l2 hlt b1 b2 hM
      refine ⟨f, le_trans e ?_⟩
      rw [abs_le] at b1 b2
      have := div_le_div_of_nonneg_right (show valueOf (rangeOf data).2 - valueOf (rangeOf data).1 ≤ 2 * M by linarith) hm.le
      rw [besideRoom]
      linarith
    · have ex : valueOf x = valueOf (rangeOf data).1 := le_antisymm (by rw [heq]; exact l2) l1
      obtain ⟨f, e⟩ := floatQ_level hp1 (le_trans hp (by decide)) hf h1.finite h2.finite heq.symm ex
      refine ⟨f, ?_⟩
      rw [e, ex, sub_self, abs_zero, besideRoom]
      positivity

/-- C113: fractions up to `2^120` and NaNs in any order, in up to 30 bits (31 without overflow checks). Each NaN comes back as the
least number of the array, or as the largest number there is if there are only NaNs. With up to 24 bits, the numbers beside
them come back within a step. -/
theorem C113_filled {b : Build} {data : List (Val b32)} {prec : Val b32} {M : ℚ} (h : ∀ x ∈ data, Plain M x) (hM : M ≤ 2 ^ 120)
    (hp : Writable b (floatPrec (ops lib) data prec)) (hl : data.length ≤ 2 ^ 31) :
    ∃ bytes data' prec', saveFloats (ops lib) fb b data prec = .ok bytes ∧ readFloats (ops lib) fb bytes = .ok (.float data' prec') ∧
      List.Forall₂ (FloatFilled data (floatPrec (ops lib) data prec) M) data data' := by
  obtain ⟨bytes, hs, hr⟩ := readFloats_writable (fo := ops lib) (fb := fb) (b := b) (data := data) (prec := prec) hp hl
  rw [quantFloats, floatRange_ops lib] at hr
  refine ⟨bytes, _, _, hs, hr, ?_⟩
  rw [List.forall₂_map_right_iff, List.forall₂_same]
  intro x hx
  rw [quantFloat_ops lib]
  exact floats_filled h hM (le_max_right _ _) hp.le x hx

/-- C113 for whole files: every build loads what was saved, and all custom fractions come back like this. -/
theorem C113_file {b b' : Build} {prec : PrecisionInfo (Val b32)} {meshes : List (Mesh (Val b32) × List UInt8)} {bytes : List UInt8}
    (h : tmfBytes (ops lib) fb b prec meshes = .ok bytes) (hl : LimitsLow (ops lib) fb b prec meshes) (hb : bytes.length ≤ 2 ^ 31)
    (junk : List UInt8) (sched : List Nat) :
    ∃ out, readTmf (ops lib) fb b' ⟨bytes ++ junk, sched, false⟩ = .ok out ∧
      List.Forall₂ (fun mn mn' => List.Forall₂ (fun c c' => c'.name = c.name ∧ ∀ data p M, c.data = .float data p → (∀ x ∈ data, Plain M x) →
        M ≤ 2 ^ 120 → ∃ data' p', c'.data = .float data' p' ∧ List.Forall₂ (FloatFilled data (floatPrec (ops lib) data p) M) data data')
        mn.1.customData.reverse mn'.1.customData) meshes out := by
  obtain ⟨out, e, hf⟩ := readTmf_low (b' := b') h hl hb junk sched
  refine ⟨out, e, forall₂_imp hf ?_⟩
  rintro mn hmn mn' ⟨_, edge, he, hm, hcut⟩
  rw [hm]
  show List.Forall₂ _ mn.1.customData.reverse (mn.1.customData.reverse.map (CustomSeg.loaded (ops lib)))
  refine forall₂_map fun c hc => ⟨rfl, fun data p M hd hx hM => ?_⟩
  have hw := (saved_narrow h hl mn hmn).custom c (List.mem_reverse.mp hc)
  rw [hd] at hw
  have hw : floatPrec (ops lib) data p ≤ 30 := hw
  have e : (CustomSeg.loaded (ops lib) c).data = quantFloats (ops lib) data p := by
    show c.data.loaded (ops lib) = _
    rw [hd]
    rfl
  rw [e, quantFloats, floatRange_ops lib]
  refine ⟨_, _, rfl, ?_⟩
  rw [List.forall₂_map_right_iff, List.forall₂_same]
  intro x hx'
  rw [quantFloat_ops lib]
  exact floats_filled hx hM (le_max_right _ _) (le_trans hw (by decide)) x hx'

/-! ### Examples -/

/-- Two fractions and two NaNs. -/
def holedFloats : List (Val b32) := [.nan, vOne, .nan, vZero]

theorem holedFloats_plain : ∀ x ∈ holedFloats, Plain 1 x := by
  intro x hx
  simp only [holedFloats, List.mem_cons, List.not_mem_nil, or_false] at hx
  rcases hx with rfl | rfl | rfl | rfl
  · exact .inl rfl
  · exact .inr ⟨rfl, by rw [valueOf_vOne]; norm_num⟩
  · exact .inl rfl
  · exact .inr ⟨rfl, by rw [valueOf_vZero]; norm_num⟩

/-- The hypotheses of `C113_filled` can be met. The NaNs come back as 0. -/
example (hlog : AccurateLog2 lib) (b : Build) : ∃ bytes x a y c p', saveFloats (ops lib) fb b holedFloats (lit 1 2) = .ok bytes ∧
    readFloats (ops lib) fb bytes = .ok (.float [x, a, y, c] p') ∧ valueOf x = 0 ∧ valueOf y = 0 := by
  have hp : floatPrec (ops lib) holedFloats (lit 1 2) = 7 := by
    rw [floatPrec_ops lib, holedFloats, floatBits_clear lib hlog] <;> decide +kernel
  obtain ⟨bytes, data', p', hs, hr, hk⟩ := C113_filled (lib := lib) (fb := fb) (b := b) (prec := lit 1 2) holedFloats_plain (by norm_num)
    (.inl (by rw [hp]; decide)) (show 4 ≤ 2 ^ 31 by decide)
  have zero : ∀ x : Val b32, Spec.Least holedFloats x → valueOf x = 0 := by
    intro x h
    obtain ⟨y, hy, hf, e⟩ := h.among
    have h0 := h.le vZero (by simp [holedFloats]) rfl
    rw [valueOf_vZero] at h0
    rw [← e] at h0 ⊢
    simp only [holedFloats, List.mem_cons, List.not_mem_nil, or_false] at hy
    rcases hy with rfl | rfl | rfl | rfl
    · cases hf
    · rw [valueOf_vOne] at h0; norm_num at h0
    · cases hf
    · exact valueOf_vZero
  have hsome : ∃ y ∈ holedFloats, isFinite y = true := ⟨vZero, by simp [holedFloats], rfl⟩
  obtain ⟨x, a, y, c, rfl⟩ : ∃ x a y c, data' = [x, a, y, c] := by
    match data', hk.length_eq with
    | [x, a, y, c], _ => exact ⟨x, a, y, c, rfl⟩
  rw [holedFloats, List.forall₂_cons, List.forall₂_cons, List.forall₂_cons] at hk
  exact ⟨bytes, x, a, y, c, p', hs, hr, zero x (hk.1.nan rfl hsome), zero y (hk.2.2.1.nan rfl hsome)⟩

end Tmf.Props
