import Verif.Model.F64Bits
import Verif.Lemmas.Bytes
import Verif.Lemmas.IeeeRound
/-
The binary64 layout: reading undoes writing.
-/

namespace Tmf.Ieee

set_option exponentiation.threshold 3000

/-- Every finite f64 is `m * 2^k` for a 53-bit `m`, whose top digit is set unless `k = 0`. -/
theorem rep_digits {n : Nat} (h : b64.Rep n) : ∃ m k, n = m * 2 ^ k ∧ m < 2 ^ 53 ∧ (k = 0 ∨ 2 ^ 52 ≤ m) ∧ k ≤ 2045 ∧
    b64.spacing n = k := by
  obtain ⟨hf, hm⟩ := (rep_iff b64 (by decide)).mp h
  by_cases hn : n < 2 ^ 53
  · exact ⟨n, 0, by rw [pow_zero, Nat.mul_one], hn, Or.inl rfl, by decide, spacing_of_lt b64 hn⟩
  · obtain ⟨h0, h1, h2⟩ := spacing_bounds b64 (q := n) (Nat.not_lt.mp hn) (by decide)
    generalize hk : b64.spacing n = k at h0 h1 h2
    have hd : 2 ^ (52 + k + 1 - b64.prec) ∣ n := flt_dvd b64 hf h1 (by show 53 ≤ _; omega)
    rw [show 52 + k + 1 - b64.prec = k by show 52 + k + 1 - 53 = k; omega] at hd
    obtain ⟨m, hm'⟩ := hd
    rw [Nat.mul_comm] at hm'
    refine ⟨m, k, hm', ?_, Or.inr ?_, ?_, rfl⟩
    · rw [hm', show b64.prec + k = 53 + k from rfl, Nat.pow_add] at h2
      exact Nat.lt_of_mul_lt_mul_right h2
    · rw [hm', show b64.prec - 1 + k = 52 + k from rfl, Nat.pow_add] at h1
      exact Nat.le_of_mul_le_mul_right h1 (by positivity)
    · have : 2 ^ (52 + k) < 2 ^ (53 + 2045) :=
        calc 2 ^ (52 + k) ≤ n := h1
          _ ≤ (2 ^ 53 - 1) * 2 ^ 2045 := hm
          _ < 2 ^ 53 * 2 ^ 2045 := Nat.mul_lt_mul_of_pos_right (by decide) (by positivity)
          _ = _ := by rw [Nat.pow_add]
      have := (Nat.pow_lt_pow_iff_right (a := 2) (by decide)).mp this
      omega

/-- And the other way round. -/
theorem digits_rep {m k : Nat} (hm : m < 2 ^ 53) (hk : k ≤ 2045) : b64.Rep (m * 2 ^ k) := by
  refine (rep_iff b64 (by decide)).mpr ⟨⟨m, k, hm, rfl⟩, ?_⟩
  exact Nat.mul_le_mul (by show m ≤ 2 ^ 53 - 1; omega) (Nat.pow_le_pow_right (by decide) hk)

theorem digits_spacing {m k : Nat} (hm : m < 2 ^ 53) (h : k = 0 ∨ 2 ^ 52 ≤ m) : b64.spacing (m * 2 ^ k) = k := by
  rcases h with rfl | h
  · rw [pow_zero, Nat.mul_one, spacing_of_lt b64 hm]
  · rw [spacing_of_bounds b64 (t := 52 + k)]
    · show 52 + k + 1 - 53 = k
      omega
    · rw [Nat.pow_add]; exact Nat.mul_le_mul_right _ h
    · rw [show 52 + k + 1 = 53 + k by omega, Nat.pow_add]
      exact Nat.mul_lt_mul_of_pos_right hm (by positivity)
    · show 53 ≤ _; omega

theorem f64Units_rep {e m : Nat} (he : e < 2047) (hm : m < 2 ^ 52) : b64.Rep (f64Units e m) := by
  rw [f64Units]
  split
  · have := digits_rep (m := m) (k := 0) (by omega) (by decide)
    rwa [pow_zero, Nat.mul_one] at this
  · exact digits_rep (by omega) (by omega)

/-- The fields of a bit pattern. -/
theorem fields {s e m : Nat} (hs : s < 2) (he : e < 2 ^ 11) (hm : m < 2 ^ 52) :
    (s * 2 ^ 63 + e * 2 ^ 52 + m) / 2 ^ 63 % 2 = s ∧ (s * 2 ^ 63 + e * 2 ^ 52 + m) / 2 ^ 52 % 2 ^ 11 = e ∧
      (s * 2 ^ 63 + e * 2 ^ 52 + m) % 2 ^ 52 = m := by
  norm_num at *
  omega

theorem f64OfBits_finite {s : Bool} {e m : Nat} (he : e < 2047) (hm : m < 2 ^ 52) :
    f64OfBits (s.toNat * 2 ^ 63 + e * 2 ^ 52 + m) = .fin s (f64Units e m) (f64Units_rep he hm) := by
  obtain ⟨h1, h2, h3⟩ := fields (s := s.toNat) (e := e) (m := m) (Bool.toNat_lt s) (by omega) hm
  rw [f64OfBits, h1, h2, h3, if_neg (by omega), pack, dif_pos (f64Units_rep he hm)]
  cases s <;> rfl

/-- The pattern of a finite value: sign, exponent and fraction. -/
theorem f64ToBits_fin {s : Bool} {n : Nat} (h : b64.Rep n) : ∃ e m, e < 2047 ∧ m < 2 ^ 52 ∧ n = f64Units e m ∧
    f64ToBits (.fin s n h) = s.toNat * 2 ^ 63 + e * 2 ^ 52 + m := by
  obtain ⟨m, k, rfl, hm, hk, hk', hs⟩ := rep_digits h
  have hb : f64ToBits (.fin s (m * 2 ^ k) h) = s.toNat * 2 ^ 63 + (k * 2 ^ 52 + m) := by
    simp only [f64ToBits]
    rw [hs, Nat.mul_div_cancel _ (by positivity)]
  rw [hb]
  by_cases h52 : m < 2 ^ 52
  · obtain rfl : k = 0 := by omega
    refine ⟨0, m, by decide, h52, ?_, by omega⟩
    rw [f64Units, if_pos rfl, pow_zero, Nat.mul_one]
  · refine ⟨k + 1, m - 2 ^ 52, by omega, by omega, ?_, ?_⟩
    · rw [f64Units, if_neg (by omega), Nat.add_sub_cancel, Nat.add_sub_cancel' (by omega)]
    · rw [Nat.add_mul, Nat.one_mul]
      omega

theorem f64ToBits_lt (d : Val b64) : f64ToBits d < 2 ^ 64 := by
  cases d with
  | nan => rw [f64ToBits]; decide
  | inf s => rw [f64ToBits]; cases s <;> decide
  | fin s n h =>
    obtain ⟨e, m, he, hm, _, hb⟩ := f64ToBits_fin (s := s) h
    rw [hb]
    have := Bool.toNat_lt s
    norm_num at *
    omega

theorem f64OfBits_toBits (d : Val b64) : f64OfBits (f64ToBits d) = d := by
  cases d with
  | nan => decide +kernel
  | inf s => cases s <;> decide +kernel
  | fin s n h =>
    obtain ⟨e, m, he, hm, rfl, hb⟩ := f64ToBits_fin (s := s) h
    rw [hb, f64OfBits_finite he hm]

theorem f64OfLe_toLe (d : Val b64) : f64OfLe (f64ToLe d) = d := by
  rw [f64OfLe, f64ToLe, leNat_leBytes_of_lt (by have := f64ToBits_lt d; norm_num at *; omega), f64OfBits_toBits]

/-- The layout used by the program. -/
@[reducible] def f64Le (lib : Libm) : F64Bytes (ops lib) where
  enc := f64ToLe
  dec := f64OfLe
  enc_length _ := length_leBytes 8 _
  dec_enc := f64OfLe_toLe

/-- Every 64-bit number has the three fields. -/
theorem split_fields {b : Nat} (hb : b < 2 ^ 64) : ∃ (s : Bool) (e m : Nat), e < 2 ^ 11 ∧ m < 2 ^ 52 ∧
    b = s.toNat * 2 ^ 63 + e * 2 ^ 52 + m := by
  refine ⟨decide (b / 2 ^ 63 = 1), b / 2 ^ 52 % 2 ^ 11, b % 2 ^ 52, Nat.mod_lt _ (by decide), Nat.mod_lt _ (by decide), ?_⟩
  have : b / 2 ^ 63 = 0 ∨ b / 2 ^ 63 = 1 := by norm_num at *; omega
  rcases this with h | h <;> simp only [h] <;> norm_num at * <;> omega

theorem f64Units_inj {e m e' m' : Nat} (he : e < 2047) (he' : e' < 2047) (hm : m < 2 ^ 52) (hm' : m' < 2 ^ 52)
    (h : f64Units e m = f64Units e' m') : e = e' ∧ m = m' := by
  have key : ∀ e m, e < 2047 → m < 2 ^ 52 → ∃ c k, f64Units e m = c * 2 ^ k ∧ b64.spacing (f64Units e m) = k ∧
      ((e = 0 ∧ k = 0 ∧ c = m) ∨ (e = k + 1 ∧ c = 2 ^ 52 + m)) := by
    intro e m he hm
    rw [f64Units]
    split
    · refine ⟨m, 0, by omega, spacing_of_lt b64 (show m < 2 ^ 53 by omega), Or.inl ⟨by assumption, rfl, rfl⟩⟩
    · exact ⟨2 ^ 52 + m, e - 1, rfl, digits_spacing (by omega) (Or.inr (by omega)), Or.inr ⟨by omega, rfl⟩⟩
  obtain ⟨c, k, h1, h2, h3⟩ := key e m he hm
  obtain ⟨c', k', h1', h2', h3'⟩ := key e' m' he' hm'
  have hk : k = k' := by rw [← h2, ← h2', h]
  subst hk
  have hc : c = c' := by
    rw [h1, h1'] at h
    exact Nat.eq_of_mul_eq_mul_right (by positivity) h
  subst hc
  norm_num at hm hm'
  omega

/-- Writing undoes reading, except for NaN patterns. -/
theorem f64ToBits_ofBits {b : Nat} (hb : b < 2 ^ 64) (h : f64OfBits b ≠ .nan) : f64ToBits (f64OfBits b) = b := by
  obtain ⟨s, e, m, he, hm, rfl⟩ := split_fields hb
  by_cases h7 : e = 2047
  · subst h7
    obtain ⟨h1, h2, h3⟩ := fields (s := s.toNat) (e := 2047) (m := m) (Bool.toNat_lt s) (by omega) hm
    rw [f64OfBits, h1, h2, h3, if_pos rfl] at h ⊢
    split at h
    · rename_i h0
      subst h0
      rw [if_pos rfl, f64ToBits]
      cases s <;> rfl
    · exact absurd rfl h
  · rw [f64OfBits_finite (by omega) hm]
    obtain ⟨e', m', he', hm', hu, hb⟩ := f64ToBits_fin (s := s) (f64Units_rep (e := e) (m := m) (by omega) hm)
    obtain ⟨rfl, rfl⟩ := f64Units_inj (by omega) he' hm hm' hu
    exact hb

end Tmf.Ieee
