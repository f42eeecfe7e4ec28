import Verif.Props.CustomDrift
import Verif.Lemmas.FloatCycle
/-
C96 for floats in general: how far numbers move while a float array is saved and loaded again and again.
-/

set_option exponentiation.threshold 2000

namespace Tmf.Props
open Spec Ieee

variable {lib : Libm} {fb : F64Bytes (ops lib)}

/-- The bound kept after `k` cycles on the range. -/
structure AgedRange (k : Nat) (M lo hi lo' hi' : ℚ) : Prop where
  low : |lo' - lo| ≤ k * (M / 2 ^ 47)
  high : |hi' - hi| ≤ k * (M / 2 ^ 47)

theorem aged_facts {k : Nat} (hk : k ≤ 25) {M lo hi lo' hi' : ℚ} (h : AgedRange k M lo hi lo' hi') (hlo : |lo| ≤ M) (hhi : |hi| ≤ M)
    (hS : M ≤ 2 ^ 20 * (hi - lo)) :
    |lo'| ≤ M * (3 / 2) ∧ |hi'| ≤ M * (3 / 2) ∧ |(hi' - lo') - (hi - lo)| ≤ k * (M / 2 ^ 46) ∧ (hi - lo) * (1 / 2) ≤ hi' - lo' := by
  have hM : 0 ≤ M := le_trans (abs_nonneg _) hlo
  have hk' : (k : ℚ) ≤ 25 := by exact_mod_cast hk
  have h1 : k * (M / 2 ^ 47) ≤ 25 * (M / 2 ^ 47) := mul_le_mul_of_nonneg_right hk' (by positivity)
  have h2 : (k : ℚ) * (M / 2 ^ 46) = k * (M / 2 ^ 47) + k * (M / 2 ^ 47) := by ring
  obtain ⟨a1, a2⟩ := abs_le.mp h.low
  obtain ⟨b1, b2⟩ := abs_le.mp h.high
  obtain ⟨c1, c2⟩ := abs_le.mp hlo
  obtain ⟨d1, d2⟩ := abs_le.mp hhi
  generalize (k : ℚ) * (M / 2 ^ 47) = t at *
  rw [h2]
  norm_num at *
  refine ⟨abs_le.mpr ⟨?_, ?_⟩, abs_le.mpr ⟨?_, ?_⟩, abs_le.mpr ⟨?_, ?_⟩, ?_⟩ <;> linarith

theorem fade_scaled {p k : Nat} (hp : 1 ≤ p) {S : ℚ} (hS : 0 ≤ S) :
    (2 - 2 / 2 ^ k) * S / (2 ^ p - 1) + S / (2 ^ (p + k) - 1) ≤ (2 - 2 / 2 ^ (k + 1)) * S / (2 ^ p - 1) := by
  have := mul_le_mul_of_nonneg_left (fade_sum (k := k) hp) hS
  rw [show (2 - 2 / 2 ^ k) * S / (2 ^ p - 1) + S / (2 ^ (p + k) - 1) = S * ((2 - 2 / 2 ^ k) / (2 ^ p - 1) + 1 / (2 ^ (p + k) - 1)) by ring,
    show (2 - 2 / 2 ^ (k + 1)) * S / (2 ^ p - 1) = S * ((2 - 2 / 2 ^ (k + 1)) / (2 ^ p - 1)) by ring]
  exact this

theorem floats_age (hlog : AccurateLog2 lib) {b b' : Build} {prec : PrecisionInfo (Val b32)} {mname name : List UInt8}
    {data : List (Val b32)} {q : Val b32} {p : Nat} {lo hi M : ℚ} (hm : NameOk mname) (hn : name.length < 256) (hl : data.length ≤ 2 ^ 26)
    (he : Extent data lo hi) (hlo : |lo| ≤ M) (hhi : |hi| ≤ M) (hM : M ≤ 2 ^ 100) (hS : M ≤ 2 ^ 20 * (hi - lo)) (hS0 : 1 / 2 ^ 79 ≤ hi - lo)
    (hp : floatPrec (ops lib) data q = p) (hp1 : 1 ≤ p) {k : Nat} (hk : p + k ≤ 25) :
    ∃ (data' : List (Val b32)) (q' : Val b32) (lo' hi' : ℚ), FileCycles (ops lib) fb b b' prec k [(onlyCustom ⟨name, .float data q⟩, mname)]
        [(onlyCustom ⟨name, .float data' q'⟩, mname)] ∧ floatPrec (ops lib) data' q' = p + k ∧ data'.length = data.length ∧
      Extent data' lo' hi' ∧ AgedRange k M lo hi lo' hi' ∧
      List.Forall₂ (Within ((2 - 2 / 2 ^ k) * (hi - lo) / (2 ^ p - 1) + k * (M / 2 ^ 18))) data data' := by
  induction k with
  | zero =>
    refine ⟨data, q, lo, hi, .none _, hp, rfl, he, ⟨by simp, by simp⟩, ?_⟩
    rw [List.forall₂_same]
    intro x hx
    refine ⟨he.finite x hx, ?_⟩
    rw [sub_self, abs_zero]
    norm_num
  | succ k ih =>
    obtain ⟨d, q', l, h, hc, hw, hlen, hd, ha, hf⟩ := ih (by omega)
    obtain ⟨a1, a2, a3, a4⟩ := aged_facts (by omega) ha hlo hhi hS
    have hMS : hi - lo ≤ 2 * M := by rw [abs_le] at hlo hhi; linarith
    have hpos : 0 < hi - lo := lt_of_lt_of_le (by positivity) hS0
    have hM0 : 1 / 2 ^ 80 ≤ M := by
      have : (1 : ℚ) / 2 ^ 80 = 1 / 2 ^ 79 * (1 / 2) := by norm_num
      linarith
    have hN : M * (3 / 2) ≤ 2 ^ 120 := by linarith [show (2 : ℚ) ^ 100 * (3 / 2) ≤ 2 ^ 120 by norm_num]
    have hN0 : 1 / 2 ^ 90 ≤ M * (3 / 2) := by linarith [show (1 : ℚ) / 2 ^ 90 ≤ 1 / 2 ^ 80 by norm_num]
    have hlt : l < h := by linarith
    obtain ⟨⟨l', h', hd', n1, n2⟩, hmv⟩ := float_moved (p := p + k) (by omega) (by omega) hd hlt a1 a2 hN hN0
    obtain ⟨m1, m2, v1, v2⟩ := extent_range hd (le_trans a1 hN) (le_trans a2 hN)
    have hcyc := float_cycle (fb := fb) (b := b) (b' := b') (prec := prec) hm hn (by rw [hlen]; exact hl) hw (by omega)
    have hquant : quantFloats (ops lib) d q' = .float (d.map (floatQ (p + k) (rangeOf d).1 (rangeOf d).2))
        (floatPrec32 (rangeOf d).1 (rangeOf d).2 (p + k)) := by
      rw [quantFloats, floatRange_ops lib, hw]
      dsimp only
      rw [floatLoadedPrec_ops lib, List.map_congr_left fun x _ => quantFloat_ops lib _ _ x]
    rw [hquant] at hcyc
    have hk' : (k : ℚ) ≤ 25 := by exact_mod_cast (by omega : k ≤ 25)
    have ha' : AgedRange (k + 1) M lo hi l' h' := by
      have e1 : ((k + 1 : Nat) : ℚ) * (M / 2 ^ 47) = k * (M / 2 ^ 47) + M / 2 ^ 47 := by push_cast; ring
      have e2 : M * (3 / 2) / 2 ^ 48 ≤ M / 2 ^ 47 := by
        have : M / 2 ^ 47 = M * (3 / 2) / 2 ^ 48 + M / 2 ^ 49 := by ring
        have : 0 ≤ M / 2 ^ 49 := div_nonneg (by linarith [show (0 : ℚ) ≤ 1 / 2 ^ 80 by positivity]) (by positivity)
        linarith
      constructor
      · rw [e1]; have := abs_sub_le l' l lo; linarith [ha.low]
      · rw [e1]; have := abs_sub_le h' h hi; linarith [ha.high]
    obtain ⟨g1, g2, -, -⟩ := aged_facts (by omega) ha' hlo hhi hS
    have hsmall : h - l ≤ 2 ^ 121 := by
      rw [abs_le] at a1 a2; linarith [show (2 : ℚ) ^ 120 + 2 ^ 120 = 2 ^ 121 by norm_num]
    have hbig : 1 / 2 ^ 80 ≤ h - l := by
      have : (1 : ℚ) / 2 ^ 80 = 1 / 2 ^ 79 * (1 / 2) := by norm_num
      linarith
    obtain ⟨p1, p2, p3⟩ := loaded_precision (p := p + k) (by omega) (hd.finite _ m1) (hd.finite _ m2)
      (by rw [v1, v2]; exact hbig) (by rw [v1, v2]; exact hsmall)
    rw [v1, v2] at p2 p3
    have hclose : |(h' - l') - (h - l)| ≤ (h - l) * (1 / 2 ^ 22) := by
      have t : M * (3 / 2) / 2 ^ 48 + M * (3 / 2) / 2 ^ 48 ≤ (h - l) * (1 / 2 ^ 22) := by
        have : M * (3 / 2) / 2 ^ 48 + M * (3 / 2) / 2 ^ 48 = M * (3 / 2 ^ 48) := by ring
        rw [this]
        have : (h - l) * (1 / 2 ^ 22) ≥ (hi - lo) * (1 / 2) * (1 / 2 ^ 22) := mul_le_mul_of_nonneg_right a4 (by positivity)
        have : M * (3 / 2 ^ 48) ≤ 2 ^ 20 * (hi - lo) * (3 / 2 ^ 48) := mul_le_mul_of_nonneg_right hS (by positivity)
        have : 2 ^ 20 * (hi - lo) * (3 / 2 ^ 48) ≤ (hi - lo) * (1 / 2) * (1 / 2 ^ 22) := by
          rw [show 2 ^ 20 * (hi - lo) * (3 / 2 ^ 48) = (hi - lo) * (3 / 2 ^ 28) by ring, mul_assoc]
          exact mul_le_mul_of_nonneg_left (by norm_num) hpos.le
        linarith
      obtain ⟨x1, x2⟩ := abs_le.mp n1
      obtain ⟨y1, y2⟩ := abs_le.mp n2
      exact abs_le.mpr ⟨by linarith, by linarith⟩
    obtain ⟨z1, z2⟩ := abs_le.mp hclose
    refine ⟨_, _, l', h', .more hc hcyc, ?_, by rw [List.length_map, hlen], hd', ha', ?_⟩
    · exact bits_grow (p := p + k) hlog hd' (le_trans g1 hN) (le_trans g2 hN) p1 (S := h - l) (by linarith) (by omega) p2 p3 (by linarith) (by linarith)
    · rw [List.forall₂_map_right_iff]
      have hmv' : ∀ x y, y ∈ d → Within ((2 - 2 / 2 ^ k) * (hi - lo) / (2 ^ p - 1) + k * (M / 2 ^ 18)) x y →
          Within ((2 - 2 / 2 ^ (k + 1)) * (hi - lo) / (2 ^ p - 1) + ((k + 1 : Nat) : ℚ) * (M / 2 ^ 18)) x
            (floatQ (p + k) (rangeOf d).1 (rangeOf d).2 y) := by
        intro x y hy hxy
        obtain ⟨w1, w2⟩ := hmv y hy
        refine ⟨w1, ?_⟩
        have t := abs_sub_le (valueOf (floatQ (p + k) (rangeOf d).1 (rangeOf d).2 y)) (valueOf y) (valueOf x)
        have u := fade_scaled (k := k) hp1 hpos.le
        have hden : (1 : ℚ) ≤ 2 ^ (p + k) - 1 := by
          have : (2 : ℚ) ^ 1 ≤ 2 ^ (p + k) := pow_le_pow_right₀ (by norm_num) (by omega)
          linarith
        have r : (h - l) / (2 ^ (p + k) - 1) ≤ (hi - lo) / (2 ^ (p + k) - 1) + k * (M / 2 ^ 46) := by
          have e : (h - l) / (2 ^ (p + k) - 1) = (hi - lo) / (2 ^ (p + k) - 1) + ((h - l) - (hi - lo)) / (2 ^ (p + k) - 1) := by ring
          rw [e]
          have : ((h - l) - (hi - lo)) / (2 ^ (p + k) - 1) ≤ |(h - l) - (hi - lo)| := by
            refine le_trans (div_le_div_of_nonneg_right (le_abs_self _) (by linarith)) ?_
            exact div_le_self (abs_nonneg _) hden
          linarith
        have s1 : (k : ℚ) * (M / 2 ^ 46) ≤ 25 * (M / 2 ^ 46) :=
          mul_le_mul_of_nonneg_right hk' (div_nonneg (by linarith [show (0 : ℚ) ≤ 1 / 2 ^ 80 by positivity]) (by positivity))
        have s2 : M * (3 / 2) / 2 ^ 19 + 25 * (M / 2 ^ 46) + 1 / 2 ^ 148 ≤ M / 2 ^ 18 := by
          have : (1 : ℚ) / 2 ^ 148 ≤ 1 / 2 ^ 80 * (1 / 2 ^ 68) := by norm_num
          have : (1 : ℚ) / 2 ^ 80 * (1 / 2 ^ 68) ≤ M * (1 / 2 ^ 68) := mul_le_mul_of_nonneg_right hM0 (by positivity)
          have : M * (3 / 2 / 2 ^ 19 + 25 / 2 ^ 46 + 1 / 2 ^ 68) ≤ M * (1 / 2 ^ 18) :=
            mul_le_mul_of_nonneg_left (by norm_num) (by linarith [show (0 : ℚ) ≤ 1 / 2 ^ 80 by positivity])
          have e : M * (3 / 2 / 2 ^ 19 + 25 / 2 ^ 46 + 1 / 2 ^ 68) = M * (3 / 2) / 2 ^ 19 + 25 * (M / 2 ^ 46) + M * (1 / 2 ^ 68) := by ring
          have e' : M * (1 / 2 ^ 18) = M / 2 ^ 18 := by ring
          linarith
        have s3 : ((k + 1 : Nat) : ℚ) * (M / 2 ^ 18) = k * (M / 2 ^ 18) + M / 2 ^ 18 := by push_cast; ring
        rw [s3]
        have := hxy.2
        linarith
      have hmem : ∀ {xs ys : List (Val b32)} {R Q : Val b32 → Val b32 → Prop}, List.Forall₂ R xs ys → (∀ x y, y ∈ ys → R x y → Q x y) →
          List.Forall₂ Q xs ys := by
        intro xs ys R Q hxs hq
        induction hxs with
        | nil => exact .nil
        | cons hr _ ih => exact .cons (hq _ _ (List.mem_cons_self ..) hr) (ih fun x y hy => hq x y (List.mem_cons_of_mem _ hy))
      exact hmem hf hmv'

/-- C96 for floats, as long as at most 24 bits are used (the full claim is for any number of cycles; see `C96_floats_violated`):
every cycle uses one bit more, the ends of the range stay where they are but for the rounding of f64, and in all cycles together
no number moves by two steps of the first, but for the rounding of f32. -/
theorem C96_floats_partial (hlog : AccurateLog2 lib) {b b' : Build} {prec : PrecisionInfo (Val b32)} {mname name : List UInt8}
    {data : List (Val b32)} {q : Val b32} {p : Nat} {lo hi M : ℚ} (hm : NameOk mname) (hn : name.length < 256) (hl : data.length ≤ 2 ^ 26)
    (he : Extent data lo hi) (hlo : |lo| ≤ M) (hhi : |hi| ≤ M) (hM : M ≤ 2 ^ 100) (hS : M ≤ 2 ^ 20 * (hi - lo)) (hS0 : 1 / 2 ^ 79 ≤ hi - lo)
    (hp : floatPrec (ops lib) data q = p) {k : Nat} (hk : p + k ≤ 25) :
    ∃ (data' : List (Val b32)) (q' : Val b32), FileCycles (ops lib) fb b b' prec k [(onlyCustom ⟨name, .float data q⟩, mname)]
        [(onlyCustom ⟨name, .float data' q'⟩, mname)] ∧ floatPrec (ops lib) data' q' = p + k ∧
      (∃ lo' hi', Extent data' lo' hi' ∧ |lo' - lo| ≤ k * (M / 2 ^ 47) ∧ |hi' - hi| ≤ k * (M / 2 ^ 47)) ∧
      List.Forall₂ (Within ((2 - 2 / 2 ^ k) * (hi - lo) / (2 ^ p - 1) + k * (M / 2 ^ 18))) data data' := by
  have hp1 : 1 ≤ p := by rw [← hp, floatPrec_ops lib, floatBits]; exact Nat.le_max_right _ _
  obtain ⟨d, q', l, h, h1, h2, -, h3, h4, h5⟩ := floats_age (fb := fb) (b := b) (b' := b') (prec := prec) hlog hm hn hl he hlo hhi hM hS hS0
    hp hp1 hk
  exact ⟨d, q', h1, h2, ⟨l, h, h3, h4.low, h4.high⟩, h5⟩

theorem extent_kit : Extent [vOne, nine64, threeHalves] (9 / 64) (3 / 2) where
  finite := by
    intro x hx
    simp only [List.mem_cons, List.not_mem_nil, or_false] at hx
    rcases hx with rfl | rfl | rfl <;> rfl
  lo_mem := ⟨_, by simp, valueOf_nine64⟩
  hi_mem := ⟨_, by simp, valueOf_threeHalves⟩
  bounds := by
    intro x hx
    simp only [List.mem_cons, List.not_mem_nil, or_false] at hx
    rcases hx with rfl | rfl | rfl
    · rw [valueOf_vOne]; norm_num
    · rw [valueOf_nine64]; norm_num
    · rw [valueOf_threeHalves]; norm_num

/-- Three numbers with the precision 0.01, saved and loaded 16 times: none moves by more than 0.011. -/
example (fb : F64Bytes (ops someLibm)) (b b' : Build) (prec : PrecisionInfo (Val b32)) : ∃ (data' : List (Val b32)) (q' : Val b32),
    FileCycles (ops someLibm) fb b b' prec 16 [(onlyCustom ⟨[99], .float [vOne, nine64, threeHalves] (lit 1 2)⟩, [65])]
      [(onlyCustom ⟨[99], .float data' q'⟩, [65])] ∧ List.Forall₂ (Within (11 / 1000)) [vOne, nine64, threeHalves] data' := by
  obtain ⟨data', q', h1, -, -, h2⟩ := C96_floats_partial (fb := fb) (b := b) (b' := b') (prec := prec) (mname := [65]) (name := [99])
    (M := 3 / 2) someLibm_log2 ⟨by decide, ⟨['A'], by decide⟩⟩ (by decide) (by show 3 ≤ 2 ^ 26; decide) extent_kit
    (by rw [abs_of_pos (by norm_num)]; norm_num) (by rw [abs_of_pos (by norm_num)]) (by norm_num) (by norm_num) (by norm_num)
    (kit_float someLibm_log2) (k := 16) (by decide)
  refine ⟨data', q', h1, h2.imp fun x y h => ⟨h.1, le_trans h.2 (by norm_num)⟩⟩

end Tmf.Props
