import Verif.Spec.CorrectMath
import Verif.Props.Drift
import Verif.Lemmas.LibmWitness
/-
What the other theorems assume of sine, cosine, arcsine and the logarithm holds in every library that rounds correctly.
-/

set_option exponentiation.threshold 2000

namespace Tmf.Props
open Spec Ieee

variable {lib : Libm} {fb : F64Bytes (ops lib)}

theorem nearest_le {r : ℝ} {v w : Val b32} (h : NearestVal r v) (hw : isFinite w = true) (hr : r ≤ realOf w) : valueOf v ≤ valueOf w := by
  by_contra hc
  have hlt : realOf w < realOf v := by simp only [realOf]; exact_mod_cast not_le.mp hc
  have := h.2 w hw
  rw [abs_of_nonneg (by linarith), abs_of_nonneg (by linarith)] at this
  linarith

theorem nearest_ge {r : ℝ} {v w : Val b32} (h : NearestVal r v) (hw : isFinite w = true) (hr : realOf w ≤ r) : valueOf w ≤ valueOf v := by
  by_contra hc
  have hlt : realOf v < realOf w := by simp only [realOf]; exact_mod_cast not_le.mp hc
  have := h.2 w hw
  rw [abs_of_nonpos (by linarith), abs_of_nonpos (by linarith)] at this
  linarith

theorem zeroV_value : valueOf zeroV = 0 := by
  have := realOf_zeroV
  rw [realOf] at this
  exact_mod_cast this

theorem nearest_nonneg {r : ℝ} {v : Val b32} (h : NearestVal r v) (hr : 0 ≤ r) : 0 ≤ valueOf v := by
  have := nearest_ge h (w := zeroV) rfl (by rw [realOf_zeroV]; exact hr)
  rwa [zeroV_value] at this

theorem nearest_places {r : ℝ} {v : Val b32} (h : NearestVal r v) (hr : |r| ≤ 2) : |realOf v - r| ≤ 1 / 2 ^ 22 :=
  le_trans (h.2 _ (toPlaces_value hr).1) (toPlaces_value hr).2.1

/-- A nearest value to a larger number is not smaller. -/
theorem nearest_lt {r s : ℝ} {v w : Val b32} (hv : NearestVal r v) (hw : NearestVal s w) (h : r < s) : valueOf v ≤ valueOf w := by
  by_contra hc
  have hlt : realOf w < realOf v := by simp only [realOf]; exact_mod_cast not_le.mp hc
  have h1 := hv.2 w hw.1
  have h2 := hw.2 v hv.1
  rcases le_total r (realOf w) with a | a
  · rw [abs_of_nonneg (by linarith), abs_of_nonneg (by linarith)] at h1
    linarith
  rcases le_total s (realOf v) with c | c
  · rw [abs_of_nonpos (by linarith : realOf w - r ≤ 0)] at h1
    rw [abs_of_nonneg (by linarith : 0 ≤ realOf v - s)] at h2
    have := le_abs_self (realOf v - r)
    have := neg_abs_le (realOf w - s)
    linarith
  · rw [abs_of_nonpos (by linarith : realOf v - s ≤ 0)] at h2
    have := neg_abs_le (realOf w - s)
    linarith

theorem correct_accurate (h : CorrectLibm lib) : AccurateLibm lib where
  sin_near x hx h0 h2 := by
    have hr0 : 0 ≤ realOf x := by simp only [realOf]; exact_mod_cast h0
    have hr2 : realOf x ≤ 2 := by simp only [realOf]; exact_mod_cast h2
    have n := h.sin x hx
    exact ⟨n.1, nearest_places n ((Real.abs_sin_le_one _).trans (by norm_num)),
      nearest_nonneg n (Real.sin_nonneg_of_nonneg_of_le_pi hr0 (by linarith [Real.pi_gt_three]))⟩
  cos_near x hx h0 h2 := by
    have n := h.cos x hx
    exact ⟨n.1, nearest_places n ((Real.abs_cos_le_one _).trans (by norm_num)), fun hc => nearest_nonneg n hc⟩
  asin_near x hx := by
    have n := h.asin x hx
    have hr0 : 0 ≤ realOf x := by simp only [realOf]; exact_mod_cast hx.2.1
    have a0 := Real.arcsin_nonneg.mpr hr0
    have a1 := Real.arcsin_le_pi_div_two (realOf x)
    refine ⟨n.1, nearest_places n ?_, nearest_nonneg n a0, nearest_le n halfPi_value.1 (by linarith [halfPi_above.1])⟩
    rw [abs_of_nonneg a0]
    linarith [Real.pi_lt_four]

theorem correct_log2 (h : CorrectLog2 lib) : AccurateLog2 lib where
  nan := h.nan
  infinite := h.infinite
  negative := h.negative
  zero := h.zero
  below_one x hx h0 h1 := by
    have n := h.positive x hx h0
    have hr0 : 0 < realOf x := realOf_pos h0
    have hr1 : realOf x < 1 := by simp only [realOf]; exact_mod_cast h1
    have := nearest_le n (w := zeroV) rfl (by rw [realOf_zeroV]; exact (Real.logb_neg (by norm_num) hr0 hr1).le)
    rw [zeroV_value] at this
    exact ⟨n.1, this⟩
  near x hx h1 := by
    have n := h.positive x hx (by linarith)
    obtain ⟨a, b, c⟩ := someLibm_log2.near x hx h1
    have hr1 : 1 ≤ realOf x := by simp only [realOf]; exact_mod_cast h1
    exact ⟨n.1, nearest_nonneg n (Real.logb_nonneg (by norm_num) hr1), le_trans (n.2 _ a) c⟩
  power x hx k hk := by
    have h1 : 1 ≤ valueOf x := by rw [hk]; exact one_le_pow₀ (by norm_num)
    have n := h.positive x hx (by linarith)
    have e : Real.logb 2 (realOf x) = k := by
      rw [realOf, hk]
      push_cast
      rw [Real.logb_pow, Real.logb_self_eq_one (by norm_num), mul_one]
    have hs := someLibm_log2.power x hx k hk
    have := n.2 _ (someLibm_log2.near x hx h1).1
    rw [e, show realOf (someLibm.log2 x) = k by rw [realOf, hs]; norm_num, sub_self, abs_zero] at this
    have h0 := sub_eq_zero.mp (abs_eq_zero.mp (le_antisymm this (abs_nonneg _)))
    rw [realOf] at h0
    exact_mod_cast h0

theorem correct_monotone (h : CorrectLog2 lib) : MonotoneLog2 lib := by
  intro x y hx hy h1 hxy
  rcases hxy.eq_or_lt with e | e
  · have : x = y := by
      match x, y, hx, hy with
      | .fin s n hn, .fin t m hm, _, _ =>
        have hp : ∀ {s n} {hn : b32.Rep n}, 0 < valueOf (.fin s n hn : Val b32) → s = false := by
          intro s n hn hv
          cases s with
          | false => rfl
          | true =>
            rw [valueOf_fin, sgn] at hv
            simp only [if_true] at hv
            have : (0 : ℚ) ≤ (n : ℚ) / 2 ^ b32.scale := by positivity
            linarith
        have h3 := hp (by linarith : 0 < valueOf (.fin s n hn : Val b32))
        have h4 := hp (by linarith : 0 < valueOf (.fin t m hm : Val b32))
        subst h3 h4
        rw [valueOf_pos, valueOf_pos, div_left_inj' (by positivity)] at e
        cases Nat.cast_injective e
        rfl
    rw [this]
  · have hx0 : 0 < realOf x := realOf_pos (by linarith)
    have hlt : realOf x < realOf y := by simp only [realOf]; exact_mod_cast e
    exact nearest_lt (h.positive x hx (by linarith)) (h.positive y hy (by linarith)) (Real.logb_lt_logb (by norm_num) hx0 hlt)

/-- In a library that rounds correctly, everything holds that is assumed of it. -/
theorem correct_suffices (h : CorrectMath lib) : AccurateLibm lib ∧ AccurateLog2 lib ∧ MonotoneLog2 lib :=
  ⟨correct_accurate h.toCorrectLibm, correct_log2 h.toCorrectLog2, correct_monotone h.toCorrectLog2⟩

/-- There is such a library. -/
theorem correctMath_exists : ∃ lib, CorrectMath lib := by
  choose f hf using nearest_exists
  let g : Val b32 → Val b32 := fun x => match x with
    | .nan => .nan
    | .inf false => .inf false
    | .inf true => .nan
    | .fin s n h => if n = 0 then .inf true else if s then .nan else f (Real.logb 2 (realOf (.fin s n h)))
  refine ⟨{ asin := fun x => f (Real.arcsin (realOf x)), sin := fun x => f (Real.sin (realOf x)), cos := fun x => f (Real.cos (realOf x)),
            log2 := g }, ⟨⟨fun _ _ => hf _, fun _ _ => hf _, fun _ _ => hf _⟩, ⟨rfl, rfl, ⟨rfl, fun n h h0 => ?_⟩, fun s h => ?_, ?_⟩⟩⟩
  · simp only [g, if_neg h0, if_true]
  · simp only [g, if_true]
  · intro x hx h0
    match x, hx with
    | .fin s n h, _ =>
      have hn : n ≠ 0 := by
        rintro rfl
        rw [valueOf_fin] at h0
        simp at h0
      cases s with
      | true =>
        exfalso
        rw [valueOf_fin, sgn] at h0
        simp only [if_true] at h0
        have : (0 : ℚ) ≤ (n : ℚ) / 2 ^ b32.scale := by positivity
        linarith
      | false =>
        simp only [g, if_neg hn, Bool.false_eq_true, if_false]
        exact hf _

/-- C65 with a library that rounds correctly, in place of the assumptions of `C65_accurate_partial`. -/
theorem C65_correct_partial (hlib : CorrectMath lib) {prec : PrecisionInfo (Val b32)} {meshes : List (Mesh (Val b32) × List UInt8)} {k : Nat}
    (hk1 : 1 ≤ k) (hk : k ≤ 30) (h : Sensible k prec meshes) :
    ∃ bytes out, (∀ b, tmfBytes (ops lib) fb b prec meshes = .ok bytes) ∧ bytes.length ≤ 2 ^ 31 ∧
      (∀ b' junk sched, readTmf (ops lib) fb b' ⟨bytes ++ junk, sched, false⟩ = .ok out) ∧
      List.Forall₂ (fun mn mn' => mn'.2 = mn.2 ∧
        Faithful k (fun l runs => ∀ b, optVertices (ops lib) b l = .ok runs) prec mn.1 mn'.1) meshes out :=
  C65_accurate_partial (correct_suffices hlib).1 (correct_suffices hlib).2.1 (correct_suffices hlib).2.2 hk1 hk h

/-- C91 with a library that rounds correctly, in place of the assumptions of `C91_file_partial`. -/
theorem C91_correct_partial (hlib : CorrectMath lib) {meshes : List (Mesh (Val b32) × List UInt8)} {k : Nat} (hk1 : 1 ≤ k) (hk : k ≤ 30)
    (h : Sensible k (PrecisionInfo.default (ops lib)) meshes) :
    ∃ bytes out, (∀ b, tmfBytes (ops lib) fb b (.default (ops lib)) meshes = .ok bytes) ∧ bytes.length ≤ 2 ^ 31 ∧
      (∀ b' junk sched, readTmf (ops lib) fb b' ⟨bytes ++ junk, sched, false⟩ = .ok out) ∧
      List.Forall₂ (fun mn mn' => mn'.2 = mn.2 ∧ DefaultKept k (fun l runs => ∀ b, optVertices (ops lib) b l = .ok runs) mn.1 mn'.1)
        meshes out :=
  C91_file_partial (correct_suffices hlib).1 (correct_suffices hlib).2.1 (correct_suffices hlib).2.2 hk1 hk h

/-- A mesh with all kinds of arrays, with some library that rounds correctly. -/
example : ∃ lib, CorrectMath lib ∧ ∀ fb : F64Bytes (ops lib), ∃ bytes mn, (∀ b, tmfBytes (ops lib) fb b kitPrec [(kit, [65])] = .ok bytes) ∧
    (∀ b' junk sched, readTmf (ops lib) fb b' ⟨bytes ++ junk, sched, false⟩ = .ok [mn]) ∧ mn.2 = [65] := by
  obtain ⟨lib, h⟩ := correctMath_exists
  refine ⟨lib, h, fun fb => ?_⟩
  obtain ⟨bytes, out, hb, _, hr, hf⟩ := C65_correct_partial (fb := fb) h (by decide) (by decide) kit_sensible
  obtain ⟨mn, rfl, hn, _⟩ := forall₂_one hf
  exact ⟨bytes, mn, hb, hr, hn⟩

end Tmf.Props
