import Verif.Spec.Finer
import Verif.Lemmas.BitCount
import Verif.Lemmas.FileSize
import Verif.Lemmas.NormalAngle
import Verif.Lemmas.VertexAccuracy
/-
More bits for more accuracy, and more bytes for more bits.
-/

set_option exponentiation.threshold 2000

namespace Tmf.Ieee
open Spec

variable {lib : Libm}

/-- Positive numbers and infinity, in order. -/
def NLe (x y : Val b32) : Prop :=
  ((∃ n h, x = .fin false n h) ∨ x = .inf false) ∧ y = .inf false ∨ ∃ n m hn hm, x = .fin false n hn ∧ y = .fin false m hm ∧ n ≤ m

theorem rounded_nonneg (num den : Nat) : (∃ n h, (rounded false num den : Val b32) = .fin false n h) ∨ (rounded false num den : Val b32) = .inf false := by
  rw [rounded, pack]
  split
  · next h => exact .inl ⟨_, h, rfl⟩
  · exact .inr rfl

theorem rounded_le {num den num' den' : Nat} (hd : 0 < den) (hd' : 0 < den') (h : (num : ℚ) / den ≤ (num' : ℚ) / den') :
    NLe (rounded false num den) (rounded false num' den') := by
  have hm := round_mono b32 hd hd' (by decide) h
  by_cases h' : b32.Rep (b32.round num' den')
  · have h1 : b32.Rep (b32.round num den) :=
      (rep_iff b32 (by decide)).mpr ⟨round_flt b32 hd (by decide), le_trans hm ((rep_iff b32 (by decide)).mp h').2⟩
    exact .inr ⟨_, _, h1, h', by rw [rounded, pack, dif_pos h1], by rw [rounded, pack, dif_pos h'], hm⟩
  · exact .inl ⟨rounded_nonneg _ _, by rw [rounded, pack, dif_neg h']⟩

theorem lit_one_eq : (lit 1 0 : Val b32) = .fin false (2 ^ 149) (by decide +kernel) := by decide +kernel

theorem rounded_zero : (rounded false 0 1 : Val b32) = .fin false 0 (by decide +kernel) := by decide +kernel

/-- A larger divisor gives a smaller quotient. -/
theorem quotient_le (k : Nat) (hk : b32.Rep k) (k0 : k ≠ 0) {x y : Val b32} (h : NLe x y) : NLe (div (.fin false k hk) y) (div (.fin false k hk) x) := by
  have hdiv : ∀ n hn, n ≠ 0 → div (.fin false k hk) (.fin false n hn : Val b32) = rounded false (k * 2 ^ b32.scale) n := by
    intro n hn h0
    simp only [div, if_neg h0]
    rfl
  have hzero : ∀ hn, div (.fin false k hk) (.fin false 0 hn : Val b32) = .inf false := by
    intro hn
    simp only [div, if_pos, if_neg k0]
    rfl
  have hinf : div (.fin false k hk) (.inf false : Val b32) = rounded false 0 1 := rfl
  rcases h with ⟨⟨n, hn, rfl⟩ | rfl, rfl⟩ | ⟨n, m, hn, hm, rfl, rfl, hle⟩
  · rw [hinf]
    by_cases h0 : n = 0
    · subst h0
      rw [hzero]
      exact .inl ⟨rounded_nonneg _ _, rfl⟩
    · rw [hdiv n hn h0]
      exact rounded_le (by decide) (by omega) (by simp; positivity)
  · rw [hinf]
    exact rounded_le (by decide) (by decide) (le_refl _)
  · by_cases h0 : n = 0
    · subst h0
      rw [hzero]
      refine .inl ⟨?_, rfl⟩
      by_cases m0 : m = 0
      · subst m0; exact .inr (hzero hm)
      · rw [hdiv m hm m0]; exact rounded_nonneg _ _
    · have m0 : m ≠ 0 := by omega
      rw [hdiv n hn h0, hdiv m hm m0]
      refine rounded_le (by omega) (by omega) (div_le_div_of_nonneg_left (by positivity) ?_ ?_)
      · exact_mod_cast Nat.pos_of_ne_zero h0
      · exact_mod_cast hle

theorem units_le {n m : Nat} {hn : b32.Rep n} {hm : b32.Rep m} (h : valueOf (.fin false n hn : Val b32) ≤ valueOf (.fin false m hm : Val b32)) :
    n ≤ m := by
  rw [valueOf_fin, valueOf_fin] at h
  simp only [sgn, Bool.false_eq_true, if_false, one_mul] at h
  rw [div_le_div_iff_of_pos_right (units_pos b32)] at h
  exact_mod_cast h

theorem ordered_of_value {x y : Val b32} (hx : isFinite x = true) (h0 : 0 < valueOf x) (hy : isFinite y = true) (h : valueOf x ≤ valueOf y) :
    NLe x y := by
  obtain ⟨n, hn, rfl, -⟩ := pos_cases hx h0
  obtain ⟨m, hm, rfl, -⟩ := pos_cases hy (lt_of_lt_of_le h0 h)
  exact .inr ⟨n, m, hn, hm, rfl, rfl, units_le h⟩

theorem ratio_ordered {a a' c c' : Val b32} (ha : isFinite a = true) (ha' : isFinite a' = true) (hc : isFinite c = true)
    (hc' : isFinite c' = true) (h0 : 0 < valueOf a) (h1 : 0 < valueOf c') (h : valueOf a ≤ valueOf a') (h' : valueOf c' ≤ valueOf c) :
    NLe (div a c) (div a' c') := by
  obtain ⟨n, hn, rfl, n0⟩ := pos_cases ha h0
  obtain ⟨n', hn', rfl, n0'⟩ := pos_cases ha' (lt_of_lt_of_le h0 h)
  obtain ⟨m', hm', rfl, m0'⟩ := pos_cases hc' h1
  obtain ⟨m, hm, rfl, m0⟩ := pos_cases hc (lt_of_lt_of_le h1 h')
  have e := units_le h
  have e' := units_le h'
  simp only [div, if_neg m0, if_neg m0']
  refine rounded_le (by omega) (by omega) ?_
  have q1 : ((n * 2 ^ b32.scale : Nat) : ℚ) ≤ ((n' * 2 ^ b32.scale : Nat) : ℚ) := by exact_mod_cast Nat.mul_le_mul_right _ e
  have q2 : (m' : ℚ) ≤ m := by exact_mod_cast e'
  have q3 : (0 : ℚ) < m' := by exact_mod_cast Nat.pos_of_ne_zero m0'
  exact div_le_div₀ (by positivity) q1 q3 q2

theorem ceilU8_le (x : Val b32) : ceilU8 x ≤ 255 := by
  cases x with
  | nan => exact Nat.zero_le _
  | inf s => cases s <;> decide
  | fin s n h =>
    rw [ceilU8]
    split
    · exact Nat.zero_le _
    · exact Nat.min_le_right _ _

theorem bits_ordered (hlog : AccurateLog2 lib) (hmono : MonotoneLog2 lib) {x y : Val b32} (h : NLe x y) : bitsFor lib x ≤ bitsFor lib y := by
  rcases h with ⟨-, rfl⟩ | ⟨n, m, hn, hm, rfl, rfl, hle⟩
  · rw [show bitsFor lib (.inf false) = 255 by show ceilU8 (lib.log2 (.inf false)) = 255; rw [hlog.infinite]; rfl]
    exact ceilU8_le _
  · have hv : valueOf (.fin false n hn : Val b32) ≤ valueOf (.fin false m hm : Val b32) := by
      rw [valueOf_fin, valueOf_fin]
      simp only [sgn, Bool.false_eq_true, if_false, one_mul]
      refine div_le_div_of_nonneg_right ?_ (by positivity)
      exact_mod_cast hle
    rcases le_total (valueOf (.fin false n hn : Val b32)) 1 with h1 | h1
    · rw [bits_small hlog rfl _ h1]
      · exact Nat.zero_le _
      · rw [valueOf_fin]
        simp only [sgn, Bool.false_eq_true, if_false, one_mul]
        positivity
    · rcases Nat.lt_or_ge (bitsFor lib (.fin false m hm)) 255 with hb | hb
      · exact bits_mono hlog hmono rfl rfl h1 hv hb
      · exact le_trans (ceilU8_le _) hb

/-- Negative numbers take no bits. -/
theorem bits_negative (hlog : AccurateLog2 lib) {x : Val b32} (h : isSignNegative x = true) : bitsFor lib (div (lit 1 0) x) = 0 := by
  have hneg : ∀ y : Val b32, isSignNegative y = true → bitsFor lib y = 0 := by
    intro y hy
    show ceilU8 (lib.log2 y) = 0
    cases y with
    | nan => cases hy
    | inf s =>
      cases hy
      rw [hlog.negative.1]
      rfl
    | fin s n hn =>
      cases hy
      by_cases h0 : n = 0
      · subst h0; rw [hlog.zero]; rfl
      · rw [hlog.negative.2 n hn h0]; rfl
  apply hneg
  rw [lit_one_eq]
  cases x with
  | nan => cases h
  | inf s =>
    cases h
    show isSignNegative (rounded (false != true) 0 1 : Val b32) = true
    rw [rounded_sign]; rfl
  | fin s n hn =>
    cases h
    by_cases h0 : n = 0
    · simp only [div, if_pos h0]; rfl
    · simp only [div, if_neg h0]
      rw [rounded_sign]; rfl

/-- The bits of an axis grow as the part of the shortest edge gets smaller, whatever the edge and the box. -/
theorem part_le (hlog : AccurateLog2 lib) (hmono : MonotoneLog2 lib) (q : Val b32) {p p' : Val b32} (hp' : isFinite p' = true)
    (h0 : 0 < valueOf p') (hp : isFinite p = true) (h : valueOf p' ≤ valueOf p) :
    bitsFor lib (div (lit 1 0) (mul q p)) ≤ bitsFor lib (div (lit 1 0) (mul q p')) := by
  obtain ⟨m', hm', rfl, m0'⟩ := pos_cases hp' h0
  obtain ⟨m, hm, rfl, m0⟩ := pos_cases hp (lt_of_lt_of_le h0 h)
  have hle : m' ≤ m := units_le h
  cases q with
  | nan => exact le_refl _
  | inf s => simp only [mul, if_neg m0, if_neg m0']; exact le_refl _
  | fin s n hn =>
    cases s with
    | true =>
      rw [bits_negative hlog]
      · exact Nat.zero_le _
      · show isSignNegative (rounded (true != false) _ _ : Val b32) = true
        rw [rounded_sign]; rfl
    | false =>
      rw [lit_one_eq]
      refine bits_ordered hlog hmono (quotient_le _ _ (by norm_num) ?_)
      show NLe (rounded (false != false) (n * m') (2 ^ b32.scale)) (rounded (false != false) (n * m) (2 ^ b32.scale))
      refine rounded_le (by positivity) (by positivity) (div_le_div_of_nonneg_right ?_ (by positivity))
      exact_mod_cast Nat.mul_le_mul_left n hle

end Tmf.Ieee

namespace Tmf
open Spec Ieee

variable {lib : Libm}

theorem packed_ordered {a b : Nat} (h : a ≤ b) : packed a ≤ packed b := by
  unfold packed
  exact Nat.div_le_div_right (by omega)

theorem vertexWidth_le (hlog : AccurateLog2 lib) (hmono : MonotoneLog2 lib) {fine coarse : PrecisionInfo (Val b32)} (h : Finer fine coarse)
    (edge : Val b32) (l : List (Vec3 (Val b32))) : vertexWidth (ops lib) coarse.vertex edge l ≤ vertexWidth (ops lib) fine.vertex edge l := by
  unfold vertexWidth
  cases vertexBox (ops lib) l with
  | ok s =>
    have key : ∀ q : Val b32, Max.max (bitsFor lib (div (lit 1 0) (mul q coarse.vertex))) 1 ≤
        Max.max (bitsFor lib (div (lit 1 0) (mul q fine.vertex))) 1 := fun q =>
      max_le_max (part_le hlog hmono q h.positive.1 h.positive.2 h.vertex.1 h.vertex.2) (le_refl 1)
    exact Nat.add_le_add (Nat.add_le_add (key _) (key _)) (key _)
  | err e => exact le_refl _
  | panic => exact le_refl _

theorem dataSize_finer (hlog : AccurateLog2 lib) (hmono : MonotoneLog2 lib) {fine coarse : PrecisionInfo (Val b32)} (h : Finer fine coarse)
    (edge : Val b32) (s : DecodedSegment (Val b32)) : dataSize (ops lib) coarse edge s ≤ dataSize (ops lib) fine edge s := by
  cases s with
  | vertex l => exact Nat.add_le_add_left (packed_ordered (Nat.mul_le_mul_left _ (vertexWidth_le hlog hmono h edge l))) _
  | normal l => exact Nat.add_le_add_left (packed_ordered (Nat.mul_le_mul_left _ (by have := h.normal; omega))) _
  | tangent l => exact Nat.add_le_add_left (packed_ordered (Nat.mul_le_mul_left _ (by have := h.tangent; omega))) _
  | uv l => exact Nat.add_le_add_left (packed_ordered (Nat.mul_le_mul_left _ (by have := h.uv; omega))) _
  | _ => exact le_refl _

theorem meshSize_mono (hlog : AccurateLog2 lib) (hmono : MonotoneLog2 lib) {fine coarse : PrecisionInfo (Val b32)} (h : Finer fine coarse)
    {b : Build} {mn : Mesh (Val b32) × List UInt8} {n m : Nat} (hn : MeshSize (ops lib) b coarse mn n) (hm : MeshSize (ops lib) b fine mn m) : n ≤ m := by
  obtain ⟨edge, merged, pieces, e1, e2, e3, rfl⟩ := hn
  obtain ⟨edge', merged', pieces', g1, g2, g3, rfl⟩ := hm
  rw [e1] at g1; cases g1
  rw [e2] at g2; cases g2
  rw [e3] at g3; cases g3
  refine Nat.add_le_add_left (List.sum_le_sum fun s _ => Nat.add_le_add_left (dataSize_finer hlog hmono h edge s) _) _

end Tmf
