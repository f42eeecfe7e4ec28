import Verif.Model.FloatText
import Verif.Spec.Obj
import Verif.Lemmas.ObjRead
/-
The decimal text of IEEE values reads back.
-/

namespace Tmf.Ieee
open Tmf Spec

theorem digit?_some {c : UInt8} (h : 48 ≤ c.toNat ∧ c.toNat ≤ 57) : digit? c = some (c.toNat - 48) := by
  rw [digit?, if_pos h]

/-- Only digits. -/
def Digits (l : List UInt8) : Prop := ∀ c ∈ l, 48 ≤ c.toNat ∧ c.toNat ≤ 57

theorem spanDigits_append : ∀ {l rest : List UInt8}, Digits l → (∀ c, rest.head? = some c → digit? c = none) →
    spanDigits (l ++ rest) = (l, rest)
  | [], rest, _, hr => by
    cases rest with
    | nil => rfl
    | cons c rest => rw [List.nil_append, spanDigits, hr c rfl]
  | c :: l, rest, hl, hr => by
    rw [List.cons_append, spanDigits, digit?_some (hl c List.mem_cons_self),
      spanDigits_append (fun x hx => hl x (List.mem_cons_of_mem _ hx)) hr]

theorem padded_digits : ∀ k n, Digits (padded k n)
  | 0, _, c, h => by simp [padded] at h
  | k + 1, n, c, h => by
    rw [padded] at h
    rcases List.mem_append.mp h with h | h
    · exact padded_digits k _ c h
    · rw [List.mem_singleton] at h
      subst h
      rw [toNat_ofNat_lt (by omega)]
      omega

theorem padded_length : ∀ k n, (padded k n).length = k
  | 0, _ => rfl
  | k + 1, n => by rw [padded, List.length_append, padded_length k]; rfl

theorem digitsValue_padded : ∀ (k n acc : Nat), n < 10 ^ k → digitsValue acc (padded k n) = some (acc * 10 ^ k + n)
  | 0, n, acc, h => by
    have : n = 0 := by simpa using h
    subst this
    simp [padded, digitsValue]
  | k + 1, n, acc, h => by
    rw [pow_succ] at h
    rw [padded, digitsValue_append _ acc _ (n % 10) _ (digitsValue_padded k (n / 10) acc (by omega)) (digit?_ofNat (by omega))]
    congr 1
    rw [pow_succ]
    have : 10 * (acc * 10 ^ k + n / 10) + n % 10 = acc * 10 ^ k * 10 + (10 * (n / 10) + n % 10) := by ring
    rw [this, Nat.div_add_mod]
    ring

theorem digitsValue_two : ∀ (a b : List UInt8) (acc n : Nat), digitsValue acc a = some n →
    digitsValue acc (a ++ b) = digitsValue n b
  | [], b, acc, n, h => by cases h; rfl
  | c :: a, b, acc, n, h => by
    rw [List.cons_append, digitsValue.eq_def]
    rw [digitsValue.eq_def] at h
    simp only at h ⊢
    cases hd : digit? c with
    | none => rw [hd] at h; cases h
    | some d =>
      rw [hd] at h
      exact digitsValue_two a b _ n h

theorem roundHalfEven_scale {num den k : Nat} (hk : 0 < k) : roundHalfEven (num * k) (den * k) = roundHalfEven num den := by
  rw [roundHalfEven.eq_def, roundHalfEven.eq_def, Nat.mul_mod_mul_right, Nat.mul_div_mul_right _ _ hk, ← Nat.mul_assoc]
  simp only [Nat.mul_lt_mul_right hk]

theorem round_scale (f : Fmt) {num den k : Nat} (hk : 0 < k) : f.round (num * k) (den * k) = f.round num den := by
  rw [Fmt.round, Fmt.round, Nat.mul_div_mul_right _ _ hk, Nat.mul_right_comm den k, roundHalfEven_scale hk]

theorem rounded_exact {f : Fmt} (s : Bool) {n k : Nat} (hk : 0 < k) (h : f.Rep n) : (rounded s (n * k) k : Val f) = .fin s n h := by
  have e := round_scale f (num := n) (den := 1) hk
  rw [Nat.one_mul] at e
  rw [rounded, e, h.1, pack, dif_pos h]

theorem summit_pos (f : Fmt) : 0 < f.summit := Nat.mul_pos (by positivity) (by positivity)

/-- The digits read back. -/
theorem shortest_reads {f : Fmt} {n : Nat} (h : f.Rep n) : ∀ (fuel j : Nat), j + fuel = f.decades + f.scale →
    f.round ((shortest f n fuel j).1 * f.summit) (10 ^ (shortest f n fuel j).2) = n
  | 0, j, hj => by
    have hj : j = f.decades + f.scale := hj
    rw [shortest]
    dsimp only
    have e : n * 10 ^ j = n * 5 ^ f.scale * f.summit := by
      rw [hj, Fmt.summit, pow_add, show (10 : Nat) ^ f.scale = 2 ^ f.scale * 5 ^ f.scale by rw [← Nat.mul_pow]]
      ring
    rw [e, Nat.mul_div_cancel _ (summit_pos f), ← e]
    have := round_scale f (num := n) (den := 1) (k := 10 ^ j) (by positivity)
    rw [Nat.one_mul] at this
    rw [this, h.1]
  | fuel + 1, j, hj => by
    rw [shortest]
    split
    · rename_i hu
      exact hu.1
    · split
      · rename_i hd
        exact hd
      · exact shortest_reads h fuel (j + 1) (by omega)

theorem decimal_digits (n : Nat) : Digits (decimal n) := decimalAux_digits _ _

/-- What the written digits stand for. -/
theorem parseUnsigned_positional {f : Fmt} (s : Bool) (d m j : Nat) :
    (parseUnsigned s (positional d m j) : Option (Val f)) =
      some (if j ≤ d then rounded s (m * 10 ^ (d - j) * 2 ^ f.scale) 1 else rounded s (m * 2 ^ f.scale) (10 ^ (j - d))) := by
  rw [positional]
  split
  · have e1 : spanDigits (decimal (m * 10 ^ (d - j))) = (decimal (m * 10 ^ (d - j)), []) := by
      have := spanDigits_append (rest := []) (decimal_digits (m * 10 ^ (d - j))) (by simp)
      rwa [List.append_nil] at this
    have hd : digitsValue 0 (decimal (m * 10 ^ (d - j))) = some (m * 10 ^ (d - j)) := digitsValue_decimal _ _ (Nat.lt_succ_self _)
    rw [parseUnsigned.eq_def]
    simp only [e1, spanFraction, List.append_nil, hd, parseExponent]
    rw [if_neg (decimal_ne_nil _), scaled, if_pos (by simp)]
    simp
  · rename_i hj
    have hlt : m % 10 ^ (j - d) < 10 ^ (j - d) := Nat.mod_lt _ (by positivity)
    have e1 : spanDigits (decimal (m / 10 ^ (j - d)) ++ 46 :: padded (j - d) (m % 10 ^ (j - d))) =
        (decimal (m / 10 ^ (j - d)), 46 :: padded (j - d) (m % 10 ^ (j - d))) :=
      spanDigits_append (decimalAux_digits _ _) (by intro c hc; cases hc; rfl)
    have e2 : spanFraction (46 :: padded (j - d) (m % 10 ^ (j - d))) = (padded (j - d) (m % 10 ^ (j - d)), []) := by
      have := spanDigits_append (rest := []) (padded_digits (j - d) (m % 10 ^ (j - d))) (by simp)
      rw [List.append_nil] at this
      rw [spanFraction, if_pos rfl, this]
    have e3 : digitsValue 0 (decimal (m / 10 ^ (j - d)) ++ padded (j - d) (m % 10 ^ (j - d))) = some m := by
      have hd : digitsValue 0 (decimal (m / 10 ^ (j - d))) = some (m / 10 ^ (j - d)) :=
        digitsValue_decimal _ _ (Nat.lt_succ_self _)
      rw [digitsValue_two _ _ _ _ hd, digitsValue_padded _ _ _ hlt, Nat.mul_comm, Nat.div_add_mod]
    rw [parseUnsigned.eq_def]
    simp only [e1, e2, e3, parseExponent, padded_length]
    rw [if_neg (by simp [decimal_ne_nil]), scaled, if_neg (by omega)]
    have e4 : (-((0 : Int) - (j - d : Nat))).toNat = j - d := by omega
    rw [e4]

/-- The number written is the number of units the digits are rounded from. -/
theorem positional_round {f : Fmt} (m j : Nat) :
    (if j ≤ f.decades then f.round (m * 10 ^ (f.decades - j) * 2 ^ f.scale) 1 else f.round (m * 2 ^ f.scale) (10 ^ (j - f.decades))) =
      f.round (m * f.summit) (10 ^ j) := by
  split
  · rename_i hj
    have e := round_scale f (num := m * 10 ^ (f.decades - j) * 2 ^ f.scale) (den := 1) (k := 10 ^ j) (by positivity)
    rw [Nat.one_mul] at e
    rw [← e]
    congr 1
    rw [Fmt.summit]
    conv_rhs => rw [show f.decades = f.decades - j + j by omega, pow_add]
    ring
  · rename_i hj
    have e := round_scale f (num := m * 2 ^ f.scale) (den := 10 ^ (j - f.decades)) (k := 10 ^ f.decades) (by positivity)
    rw [← e, ← pow_add, show j - f.decades + f.decades = j by omega]
    congr 1
    rw [Fmt.summit]
    ring

theorem parseUnsigned_print {f : Fmt} (s : Bool) (n : Nat) (h : f.Rep n) :
    parseUnsigned s (positional f.decades (shortest f n (f.decades + f.scale) 0).1 (shortest f n (f.decades + f.scale) 0).2) =
      some (.fin s n h) := by
  have hr := shortest_reads h (f.decades + f.scale) 0 (by omega)
  rw [← positional_round] at hr
  rw [parseUnsigned_positional]
  congr 1
  split at hr
  · rename_i hj
    rw [if_pos hj, rounded, hr, pack, dif_pos h]
  · rename_i hj
    rw [if_neg hj, rounded, hr, pack, dif_pos h]

theorem decimal_head (n : Nat) (rest : List UInt8) : ∃ c l, decimal n ++ rest = c :: l ∧ 48 ≤ c.toNat ∧ c.toNat ≤ 57 := by
  cases hd : decimal n with
  | nil => exact absurd hd (decimal_ne_nil n)
  | cons c l => exact ⟨c, l ++ rest, rfl, decimalAux_digits (n + 1) n c (by rw [← decimal, hd]; simp)⟩

theorem positional_head (d m j : Nat) : ∃ c l, positional d m j = c :: l ∧ 48 ≤ c.toNat ∧ c.toNat ≤ 57 := by
  rw [positional]
  split
  · have := decimal_head (m * 10 ^ (d - j)) []
    rwa [List.append_nil] at this
  · exact decimal_head _ _

theorem parseVal_print {f : Fmt} (x : Val f) (hx : isNaN x = false) : parseVal (printVal x) = some x := by
  cases x with
  | nan => cases hx
  | inf s => cases s <;> rfl
  | fin s n h =>
    have key := parseUnsigned_print s n h
    obtain ⟨c, l, hcl, hc⟩ := positional_head f.decades (shortest f n (f.decades + f.scale) 0).1 (shortest f n (f.decades + f.scale) 0).2
    have hs : spanSign (printVal (.fin s n h)) = (s, c :: l) := by
      cases s with
      | true =>
        simp only [printVal, if_true, hcl]
        rfl
      | false =>
        simp only [printVal, Bool.false_eq_true, if_false, hcl, List.nil_append]
        rw [spanSign, if_neg, if_neg]
        · rintro rfl; simp at hc
        · rintro rfl; simp at hc
    rw [parseVal, hs]
    simp only
    rw [hcl] at key
    have hlow : lower c = c := by rw [lower, if_neg (by omega)]
    have n1 : ∀ (a : UInt8) (w : List UInt8), 57 < a.toNat → (c :: l).map lower ≠ a :: w := by
      intro a w ha he
      rw [List.map_cons, hlow] at he
      have : c = a := (List.cons.inj he).1
      subst this
      omega
    have i1 : ascii "inf" = 105 :: [110, 102] := rfl
    have i2 : ascii "infinity" = 105 :: [110, 102, 105, 110, 105, 116, 121] := rfl
    have i3 : ascii "nan" = 110 :: [97, 110] := rfl
    rw [if_neg, if_neg, key]
    · rw [i3]; exact n1 _ _ (by decide)
    · rw [i1, i2]
      rintro (h | h)
      · exact n1 _ _ (by decide) h
      · exact n1 _ _ (by decide) h

theorem digits_clean {l : List UInt8} (h : Digits l) : CleanWord l := by
  intro c hc
  obtain ⟨h1, h2⟩ := h c hc
  refine ⟨by omega, ?_, ?_, ?_, ?_⟩ <;> · rintro rfl; simp at h1 h2

theorem cleanWord_append {a b : List UInt8} (ha : CleanWord a) (hb : CleanWord b) : CleanWord (a ++ b) := by
  intro c hc
  rcases List.mem_append.mp hc with h | h
  · exact ha c h
  · exact hb c h

theorem printVal_clean {f : Fmt} (x : Val f) : CleanWord (printVal x) := by
  have hs : ∀ s : Bool, CleanWord (if s then [45] else []) := by
    unfold CleanWord
    decide
  cases x with
  | nan =>
    rw [show printVal (.nan : Val f) = ascii "NaN" from rfl]
    unfold CleanWord
    decide
  | inf s => exact cleanWord_append (hs s) (by unfold CleanWord; decide)
  | fin s n h =>
    refine cleanWord_append (hs s) ?_
    rw [positional]
    split
    · exact decimal_clean _
    · exact cleanWord_append (decimal_clean _)
        (cleanWord_append (a := [46]) (by unfold CleanWord; decide) (digits_clean (padded_digits _ _)))

/-- The text functions of the instance satisfy the laws. -/
theorem floatText_laws (lib : Libm) : FloatTextLaws (floatText lib) where
  clean x := printVal_clean x
  parse_print x hx := parseVal_print x hx

end Tmf.Ieee
