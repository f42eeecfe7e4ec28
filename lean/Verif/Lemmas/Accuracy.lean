import Verif.Lemmas.QuantizeWide
import Verif.Lemmas.Arrays
import Verif.Spec.Accuracy
/-
Quantised uv coordinates and colour channels with IEEE arithmetic.
-/

set_option exponentiation.threshold 2000
set_option linter.unusedSectionVars false

namespace Tmf.Ieee
open Spec

variable {f : Fmt}

theorem rounded_fin (hp : 0 < f.prec) (s : Bool) {num den : Nat} (hd : 0 < den) (h : (num : ℚ) / den ≤ f.max) :
    (rounded s num den : Val f) = .fin s (f.round num den) (round_rep f hd hp h) := by
  rw [rounded, pack, dif_pos (round_rep f hd hp h)]

theorem fin_congr {s : Bool} {n m : Nat} (h : n = m) (hn : f.Rep n) (hm : f.Rep m) :
    (Val.fin s n hn : Val f) = .fin s m hm := by
  subst h; rfl

theorem max32 : 2 ^ 150 * 2 ^ 24 ≤ b32.max := by decide +kernel
theorem max64 : 2 ^ 1074 * 2 ^ 64 ≤ b64.max := by decide +kernel

theorem rep_int {c : Nat} (h : c ≤ 2 ^ 24) : b32.Rep (c * 2 ^ 149) := by
  refine (rep_iff b32 (by decide)).mpr ⟨flt_int h, le_trans ?_ max32⟩
  calc c * 2 ^ 149 ≤ 2 ^ 24 * 2 ^ 149 := Nat.mul_le_mul_right _ h
    _ ≤ 2 ^ 150 * 2 ^ 24 := by norm_num

theorem rep_int64 {c : Nat} (h : c ≤ 2 ^ 53) : b64.Rep (c * 2 ^ 1074) := by
  refine (rep_iff b64 (by decide)).mpr ⟨flt_of_le b64 (by decide) h 1074, le_trans ?_ max64⟩
  calc c * 2 ^ 1074 ≤ 2 ^ 64 * 2 ^ 1074 := Nat.mul_le_mul_right _ (le_trans h (by norm_num))
    _ ≤ 2 ^ 1074 * 2 ^ 64 := by rw [Nat.mul_comm]

theorem ofNat_exact {c : Nat} (h : c ≤ 2 ^ 24) : (ofNat c : Val b32) = .fin false (c * 2 ^ 149) (rep_int h) := by
  have := rounded_exact (f := b32) false (n := c * 2 ^ 149) (k := 1) (by decide) (rep_int h)
  rwa [Nat.mul_one] at this

theorem ofNat_exact64 {c : Nat} (h : c ≤ 2 ^ 53) : (ofNat c : Val b64) = .fin false (c * 2 ^ 1074) (rep_int64 h) := by
  have := rounded_exact (f := b64) false (n := c * 2 ^ 1074) (k := 1) (by decide) (rep_int64 h)
  rwa [Nat.mul_one] at this

section
variable {p : Nat} (hp1 : 1 ≤ p) (hp : p ≤ 24)
include hp1 hp

theorem dec_le_one {c : Nat} (hc : c ≤ 2 ^ p - 1) : dec p c ≤ 2 ^ 149 := by
  have hm1 := one_le_mask hp1
  refine round_le_flt b32 hm1 (by decide) ⟨1, 149, by decide, by rw [Nat.one_mul]⟩ ?_
  rw [div_le_iff₀ (by exact_mod_cast hm1)]
  have : c * 2 ^ 149 ≤ 2 ^ 149 * (2 ^ p - 1) := by rw [Nat.mul_comm]; exact Nat.mul_le_mul_left _ hc
  exact_mod_cast this

theorem dec_rep {c : Nat} (hc : c ≤ 2 ^ p - 1) : b32.Rep (dec p c) :=
  (rep_iff b32 (by decide)).mpr ⟨dec_flt hp1 c, le_trans (dec_le_one hp1 hp hc) (le_trans (by norm_num) max32)⟩

/-- `c / (2^p - 1)` in f32. -/
theorem div_code {c : Nat} (hc : c ≤ 2 ^ p - 1) :
    div (ofNat c : Val b32) (ofNat (2 ^ p - 1)) = .fin false (dec p c) (dec_rep hp1 hp hc) := by
  have hm24 := mask_lt hp
  have hm1 := one_le_mask hp1
  rw [ofNat_exact (show c ≤ 2 ^ 24 by omega), ofNat_exact hm24.le]
  simp only [div]
  have hne : (2 ^ p - 1) * 2 ^ 149 ≠ 0 := Nat.mul_ne_zero (by omega) (by positivity)
  have hr : b32.round (c * 2 ^ 149 * 2 ^ b32.scale) ((2 ^ p - 1) * 2 ^ 149) = dec p c := round_scale b32 (by positivity)
  rw [if_neg hne, rounded, hr, pack, dif_pos (dec_rep hp1 hp hc)]
  rfl

theorem decWide_rep {c : Nat} (hc : c ≤ 2 ^ p - 1) : b64.Rep (decWide p c) := by
  have hm1 := one_le_mask hp1
  refine (rep_iff b64 (by decide)).mpr ⟨round_flt b64 hm1 (by decide), le_trans ?_ max64⟩
  refine le_trans (round_le_flt b64 hm1 (by decide) (y := 2 ^ 1074) ⟨1, 1074, by decide, by rw [Nat.one_mul]⟩ ?_)
    (Nat.le_mul_of_pos_right _ (by positivity))
  rw [div_le_iff₀ (by exact_mod_cast hm1)]
  have : c * 2 ^ 1074 ≤ 2 ^ 1074 * (2 ^ p - 1) := by rw [Nat.mul_comm]; exact Nat.mul_le_mul_left _ hc
  exact_mod_cast this

/-- `c / (2^p - 1)` in f64, rounded to f32. -/
theorem div_code64 {c : Nat} (hc : c ≤ 2 ^ p - 1) :
    (convert (div (ofNat c : Val b64) (ofNat (2 ^ p - 1))) : Val b32) = .fin false (dec p c) (dec_rep hp1 hp hc) := by
  have hm24 := mask_lt hp
  have hm1 := one_le_mask hp1
  have h24 : (2 : Nat) ^ 24 ≤ 2 ^ 53 := by norm_num
  rw [ofNat_exact64 (show c ≤ 2 ^ 53 by omega), ofNat_exact64 (show 2 ^ p - 1 ≤ 2 ^ 53 by omega)]
  simp only [div]
  have hne : (2 ^ p - 1) * 2 ^ 1074 ≠ 0 := Nat.mul_ne_zero (by omega) (by positivity)
  have hr : b64.round (c * 2 ^ 1074 * 2 ^ b64.scale) ((2 ^ p - 1) * 2 ^ 1074) = decWide p c := round_scale b64 (by positivity)
  rw [if_neg hne, rounded, hr, pack, dif_pos (decWide_rep hp1 hp hc)]
  simp only [convert]
  rw [rounded, show b32.round (decWide p c * 2 ^ b32.scale) (2 ^ b64.scale) = dec p c from round_decWide hp1 hp hc, pack,
    dif_pos (dec_rep hp1 hp hc)]
  rfl

/-- `(x * (2^p - 1)) as u64`. -/
theorem code_pos {X : Nat} (hX : b32.Rep X) (hX1 : X ≤ 2 ^ 149) :
    toU64 (mul (.fin false X hX : Val b32) (ofNat (2 ^ p - 1))) = mulR p X / 2 ^ 149 := by
  have hm24 := mask_lt hp
  have hm1 := one_le_mask hp1
  rw [ofNat_exact hm24.le]
  simp only [mul]
  have hr : b32.round (X * ((2 ^ p - 1) * 2 ^ 149)) (2 ^ b32.scale) = mulR p X := by
    have := round_scale b32 (num := X * (2 ^ p - 1)) (den := 1) (k := 2 ^ 149) (by positivity)
    rw [Nat.one_mul, Nat.mul_assoc] at this
    exact this
  have hle : mulR p X ≤ (2 ^ p - 1) * 2 ^ 149 :=
    mulR_le (flt_int hm24.le) (by rw [Nat.mul_comm (2 ^ p - 1)]; exact Nat.mul_le_mul_right _ hX1)
  have hrep : b32.Rep (mulR p X) := (rep_iff b32 (by decide)).mpr ⟨mulR_flt p X, le_trans hle (rep_int hm24.le).2⟩
  rw [rounded, hr, pack, dif_pos hrep]
  simp only [toU64, bne_self_eq_false, Bool.false_eq_true, if_false]
  have : mulR p X / 2 ^ 149 ≤ 2 ^ p - 1 := code_le hp1 hp ((rep_iff b32 (by decide)).mp hX).1 hX1
  exact Nat.min_eq_left (by
    have : (2 : Nat) ^ 24 ≤ 2 ^ 64 - 1 := by norm_num
    show mulR p X / 2 ^ 149 ≤ _
    omega)

end

/-- Negative values are stored as 0. -/
theorem code_neg {X m : Nat} (hX : b32.Rep X) (hm : m ≤ 2 ^ 24) :
    toU64 (mul (.fin true X hX : Val b32) (ofNat m)) = 0 := by
  rw [ofNat_exact hm]
  simp only [mul]
  rw [rounded, pack]
  split <;> simp [toU64]

/-- What `(x * (2^p - 1)) as u64`, stored in `p` bits and divided by `2^p - 1` gives. -/
def unitDec (p : Nat) (x : Val b32) : Nat := dec p (toU64 (mul x (ofNat (2 ^ p - 1))) % 2 ^ p)

theorem mod_le_mask (p c : Nat) : c % 2 ^ p ≤ 2 ^ p - 1 := by
  have := Nat.mod_lt c (show 0 < 2 ^ p by positivity)
  omega

theorem unitValue_cases {x : Val b32} (h : UnitValue x) :
    ∃ s X hX, x = .fin s X hX ∧ X ≤ 2 ^ 149 ∧ (s = false ∨ X = 0) := by
  obtain ⟨h0, h1, h2⟩ := h
  cases x with
  | nan => cases h0
  | inf s => cases h0
  | fin s X hX =>
    refine ⟨s, X, hX, rfl, ?_⟩
    have hpos : (0 : ℚ) < 2 ^ b32.scale := by positivity
    cases s with
    | false =>
      refine ⟨?_, .inl rfl⟩
      simp only [valueOf, signed, Bool.false_eq_true, if_false] at h2
      rw [div_le_one hpos] at h2
      exact_mod_cast h2
    | true =>
      simp only [valueOf, signed, if_true] at h1
      have := (div_nonneg_iff.mp h1).resolve_right (fun h => absurd h.2 (not_le.mpr hpos))
      have h3 : (X : ℤ) ≤ 0 := by
        have := this.1
        push_cast at this
        have : (X : ℚ) ≤ 0 := by linarith
        exact_mod_cast this
      have : X = 0 := by omega
      subst this
      exact ⟨by positivity, .inr rfl⟩

/-- The decoded value is below the original by less than one step. -/
theorem stepBelow_unitDec {p : Nat} (hp1 : 1 ≤ p) (hp : p ≤ 24) {x : Val b32} (hx : UnitValue x)
    (h : b32.Rep (unitDec p x)) : StepBelow p x (.fin false (unitDec p x) h) := by
  obtain ⟨s, X, hX, rfl, hX1, hs⟩ := unitValue_cases hx
  have hm1 := one_le_mask hp1
  have hlt2 : 0 < 2 ^ p := by positivity
  have hmq : (0 : ℚ) < 2 ^ p - 1 := by
    have : (1 : ℚ) < 2 ^ p := one_lt_pow₀ (by norm_num) (by omega)
    linarith
  have hS : (0 : ℚ) < 2 ^ b32.scale := by positivity
  have hXf := ((rep_iff b32 (by decide)).mp hX).1
  have hz : valueOf (.fin s X hX : Val b32) = (X : ℚ) / 2 ^ b32.scale := by
    rcases hs with rfl | rfl
    · simp [valueOf, signed]
    · cases s <;> simp [valueOf, signed]
  have key : unitDec p (.fin s X hX) ≤ X ∧ X * (2 ^ p - 1) < unitDec p (.fin s X hX) * (2 ^ p - 1) + 2 ^ 149 := by
    cases s with
    | false =>
      rw [unitDec, code_pos hp1 hp hX hX1,
        Nat.mod_eq_of_lt (by have := code_le hp1 hp hXf hX1; omega)]
      exact ⟨dec_code_le hp1 hp hXf hX1, code_lt_step hp1 hp hXf hX1⟩
    | true =>
      have : X = 0 := by simpa using hs
      subst this
      rw [unitDec, code_neg hX (mask_lt hp).le, Nat.zero_mod, dec_zero p hp1]
      simp
  refine ⟨rfl, ?_, ?_⟩
  · rw [hz]
    simp only [valueOf, signed, Bool.false_eq_true, if_false]
    rw [div_le_div_iff_of_pos_right hS]
    exact_mod_cast key.1
  · rw [hz]
    simp only [valueOf, signed, Bool.false_eq_true, if_false]
    rw [← sub_div, div_lt_div_iff₀ hS hmq, sub_mul, one_mul]
    have h2 : ((X * (2 ^ p - 1) : Nat) : ℚ) < ((unitDec p (.fin s X hX) * (2 ^ p - 1) + 2 ^ 149 : Nat) : ℚ) := by
      exact_mod_cast key.2
    rw [Nat.cast_add, Nat.cast_mul, Nat.cast_mul, Nat.cast_sub (by omega)] at h2
    push_cast at h2 ⊢
    have e : (2 : ℚ) ^ b32.scale = 2 ^ 149 := rfl
    rw [e]
    linarith

/-- Encoding a decoded code gives it back. -/
theorem code_of_dec {p c : Nat} (hp1 : 1 ≤ p) (hp : p ≤ 24) (hc : c ≤ 2 ^ p - 1) :
    toU64 (mul (.fin false (dec p c) (dec_rep hp1 hp hc) : Val b32) (ofNat (2 ^ p - 1))) = c := by
  rw [code_pos hp1 hp _ (dec_le_one hp1 hp hc), code_dec hp1 hp hc]

section
variable (lib : Libm)

theorem ops_toU64 : (ops lib).toU64 = toU64 := rfl
theorem ops_mul : (ops lib).mul = mul := rfl
theorem ops_div : (ops lib).div = div := rfl
theorem ops_ofNat : (ops lib).ofNat = ofNat := rfl
theorem ops_dDiv : (ops lib).dDiv = div := rfl
theorem ops_dOfNat : (ops lib).dOfNat = ofNat := rfl
theorem ops_ofD : (ops lib).ofD = convert := rfl

theorem quantUv_eq {p : Nat} (hp1 : 1 ≤ p) (hp : p ≤ 24) (x : Vec2 (Val b32)) :
    quantUv (ops lib) p x = (.fin false (unitDec p x.1) (dec_rep hp1 hp (mod_le_mask p _)),
      .fin false (unitDec p x.2) (dec_rep hp1 hp (mod_le_mask p _))) := by
  rw [quantUv, if_neg (by omega)]
  rw [uvOfCodes, ops_toU64 lib, ops_mul lib, ops_div lib, ops_ofNat lib]
  dsimp only
  rw [div_code hp1 hp (mod_le_mask p _), div_code hp1 hp (mod_le_mask p _)]
  simp only [unitDec]

theorem quantChannel_eq {p : Nat} (hp1 : 1 ≤ p) (hp : p ≤ 24) (x : Val b32) :
    quantChannel (ops lib) p x = .fin false (unitDec p x) (dec_rep hp1 hp (mod_le_mask p _)) := by
  rw [quantChannel, channelOfCode, ops_ofD lib, ops_dDiv lib, ops_dOfNat lib, ops_toU64 lib, ops_mul lib, ops_ofNat lib,
    div_code64 hp1 hp (mod_le_mask p _)]
  simp only [unitDec]

theorem unitDec_idem {p : Nat} (hp1 : 1 ≤ p) (hp : p ≤ 24) (x : Val b32) :
    unitDec p (.fin false (unitDec p x) (dec_rep hp1 hp (mod_le_mask p _))) = unitDec p x := by
  have h := code_of_dec hp1 hp (mod_le_mask p (toU64 (mul x (ofNat (2 ^ p - 1)))))
  rw [unitDec]
  simp only [unitDec]
  rw [h, Nat.mod_mod]

theorem quantUv_idem {p : Nat} (hp : p ≤ 24) (x : Vec2 (Val b32)) :
    quantUv (ops lib) p (quantUv (ops lib) p x) = quantUv (ops lib) p x := by
  rcases Nat.eq_zero_or_pos p with rfl | hp1
  · rw [quantUv, quantUv, if_pos rfl, if_pos rfl]
  · rw [quantUv_eq lib hp1 hp x, quantUv_eq lib hp1 hp]
    exact Prod.ext (fin_congr (unitDec_idem hp1 hp x.1) _ _) (fin_congr (unitDec_idem hp1 hp x.2) _ _)

end

end Tmf.Ieee
