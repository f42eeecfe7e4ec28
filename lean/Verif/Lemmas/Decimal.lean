import Verif.Lemmas.FloatText
import Verif.Lemmas.IeeeValue
import Verif.Spec.Decimal
import Mathlib.Tactic.Linarith
import Mathlib.Tactic.FieldSimp
import Mathlib.Tactic.Ring
/-
Lemmas for reading decimal numbers.
-/

namespace Tmf.Ieee
open Tmf Spec

variable {f : Fmt}

theorem digitChar_toNat (d : Fin 10) : (digitChar d).toNat = 48 + d.val := toNat_ofNat_lt (by omega)

theorem digitChar_digits (l : List (Fin 10)) : Digits (l.map digitChar) := by
  intro c hc
  obtain ⟨d, _, rfl⟩ := List.mem_map.mp hc
  rw [digitChar_toNat]
  omega

theorem digitsValue_map : ∀ (l : List (Fin 10)) (acc : Nat),
    digitsValue acc (l.map digitChar) = some (l.foldl (fun n d => 10 * n + d.val) acc)
  | [], _ => rfl
  | d :: l, acc => by
    rw [List.map_cons, digitsValue, digit?_some (by rw [digitChar_toNat]; omega), digitChar_toNat, List.foldl_cons]
    simp only [Nat.add_sub_cancel_left]
    exact digitsValue_map l _

theorem foldl_digits : ∀ (l : List (Fin 10)) (acc : Nat),
    l.foldl (fun n d => 10 * n + d.val) acc = acc * 10 ^ l.length + digitsNumber l
  | [], acc => by simp [digitsNumber]
  | d :: l, acc => by
    have e : digitsNumber (d :: l) = (10 * 0 + d.val) * 10 ^ l.length + digitsNumber l := by
      rw [← foldl_digits l, digitsNumber, List.foldl_cons]
    rw [List.foldl_cons, foldl_digits l, e, List.length_cons, pow_succ]
    ring

theorem digitsNumber_append (a b : List (Fin 10)) : digitsNumber (a ++ b) = digitsNumber a * 10 ^ b.length + digitsNumber b := by
  rw [digitsNumber, List.foldl_append, foldl_digits]
  rfl

/-- Digits come from digits. -/
theorem digits_of : ∀ {l : List UInt8}, Digits l → ∃ d : List (Fin 10), l = d.map digitChar
  | [], _ => ⟨[], rfl⟩
  | c :: l, h => by
    obtain ⟨d, rfl⟩ := digits_of (l := l) fun x hx => h x (List.mem_cons_of_mem _ hx)
    have hc := h c List.mem_cons_self
    refine ⟨⟨c.toNat - 48, by omega⟩ :: d, ?_⟩
    rw [List.map_cons]
    congr 1
    apply UInt8.toNat.inj
    rw [digitChar_toNat]
    simp only
    omega

theorem spanDigits_spec : ∀ (w : List UInt8), w = (spanDigits w).1 ++ (spanDigits w).2 ∧ Digits (spanDigits w).1 ∧
    ∀ c, (spanDigits w).2.head? = some c → digit? c = none
  | [] => ⟨rfl, by simp [spanDigits, Digits], by simp [spanDigits]⟩
  | c :: rest => by
    obtain ⟨h1, h2, h3⟩ := spanDigits_spec rest
    rw [spanDigits]
    cases hd : digit? c with
    | some n =>
      refine ⟨by simp only [List.cons_append]; rw [← h1], ?_, h3⟩
      intro x hx
      rcases List.mem_cons.mp hx with rfl | hx
      · by_contra hn
        rw [digit?, if_neg hn] at hd
        cases hd
      · exact h2 x hx
    | none => exact ⟨rfl, by simp [Digits], by rintro x hx; cases hx; exact hd⟩

theorem digitsValue_digits : ∀ {l : List UInt8} {acc n : Nat}, digitsValue acc l = some n → Digits l
  | [], _, _, _ => by simp [Digits]
  | c :: l, acc, n, h => by
    rw [digitsValue] at h
    split at h
    · rename_i d hd
      intro x hx
      rcases List.mem_cons.mp hx with rfl | hx
      · by_contra hn
        rw [digit?, if_neg hn] at hd
        cases hd
      · exact digitsValue_digits h x hx
    · cases h

/-- Whether a sign is a minus. -/
def isMinus : Sign → Bool
  | .minus => true
  | _ => false

theorem sgn_isMinus (s : Sign) : sgn (isMinus s) = s.factor := by cases s <;> rfl

theorem spanSign_text (s : Sign) {w : List UInt8} (h : ∀ c, w.head? = some c → c ≠ 45 ∧ c ≠ 43) :
    spanSign (s.text ++ w) = (isMinus s, w) := by
  cases s with
  | none =>
    cases w with
    | nil => rfl
    | cons c w =>
      obtain ⟨h1, h2⟩ := h c rfl
      rw [Sign.text, List.nil_append, spanSign, if_neg h1, if_neg h2]
      rfl
  | plus => rfl
  | minus => rfl

theorem spanSign_spec (w : List UInt8) : ∃ s : Sign, w = s.text ++ (spanSign w).2 ∧ (spanSign w).1 = isMinus s := by
  cases w with
  | nil => exact ⟨.none, rfl, rfl⟩
  | cons c w =>
    by_cases h1 : c = 45
    · subst h1; exact ⟨.minus, rfl, rfl⟩
    · by_cases h2 : c = 43
      · subst h2; exact ⟨.plus, rfl, rfl⟩
      · refine ⟨.none, ?_, ?_⟩ <;> rw [spanSign, if_neg h1, if_neg h2] <;> rfl

/-- The exponent as an integer. -/
def expInt : Option (Bool × Sign × List (Fin 10)) → Int
  | some (_, s, l) => if isMinus s then -(digitsNumber l : Int) else digitsNumber l
  | none => 0

/-- The text of the exponent. -/
def expText : Option (Bool × Sign × List (Fin 10)) → List UInt8
  | some (capital, s, l) => (if capital then ascii "E" else ascii "e") ++ s.text ++ l.map digitChar
  | none => []

/-- The text of the fraction. -/
def fracText : Option (List (Fin 10)) → List UInt8
  | some l => ascii "." ++ l.map digitChar
  | none => []

theorem text_eq (d : Decimal) : d.text = d.sign.text ++ (d.whole.map digitChar ++ (fracText d.fraction ++ expText d.exponent)) := by
  obtain ⟨s, w, fr, ex⟩ := d
  cases fr <;> cases ex <;> simp [Decimal.text, fracText, expText]

theorem digits_head {l : List (Fin 10)} {c : UInt8} (h : (l.map digitChar).head? = some c) : 48 ≤ c.toNat ∧ c.toNat ≤ 57 :=
  digitChar_digits l c (List.mem_of_head? h)

theorem parseExponent_text {e : Option (Bool × Sign × List (Fin 10))} (h : ∀ x, e = some x → x.2.2 ≠ []) :
    parseExponent (expText e) = some (expInt e) := by
  match e with
  | none => rfl
  | some (cap, s, l) =>
    have hl := h _ rfl
    have hs : spanSign (s.text ++ l.map digitChar) = (isMinus s, l.map digitChar) := by
      refine spanSign_text s fun c hc => ?_
      have := digits_head hc
      constructor <;> · rintro rfl; simp at this
    have hne : l.map digitChar ≠ [] := by simpa using hl
    have key : ∀ c : UInt8, lower c = 101 → parseExponent (c :: (s.text ++ l.map digitChar)) = some (expInt (some (cap, s, l))) := by
      intro c hc
      rw [parseExponent, if_pos hc, hs]
      simp only
      rw [if_neg hne, digitsValue_map]
      rfl
    cases cap with
    | true => exact key 69 rfl
    | false => exact key 101 rfl

theorem digit?_none {c : UInt8} (h : ¬ (48 ≤ c.toNat ∧ c.toNat ≤ 57)) : digit? c = none := by rw [digit?, if_neg h]

theorem expText_head {e : Option (Bool × Sign × List (Fin 10))} {c : UInt8} (h : (expText e).head? = some c) : c = 69 ∨ c = 101 := by
  match e with
  | none => cases h
  | some (true, s, l) => cases h; exact .inl rfl
  | some (false, s, l) => cases h; exact .inr rfl

theorem spanFraction_text (fr : Option (List (Fin 10))) (e : Option (Bool × Sign × List (Fin 10))) :
    spanFraction (fracText fr ++ expText e) = ((fr.getD []).map digitChar, expText e) := by
  cases fr with
  | some l =>
    change spanFraction (46 :: (l.map digitChar ++ expText e)) = _
    rw [spanFraction, if_pos rfl]
    refine spanDigits_append (digitChar_digits l) fun c hc => ?_
    rcases expText_head hc with rfl | rfl <;> rfl
  | none =>
    rw [fracText, List.nil_append]
    cases he : expText e with
    | nil => rfl
    | cons c t =>
      rw [spanFraction, if_neg]
      · rfl
      · have := expText_head (e := e) (c := c) (by rw [he]; rfl)
        rcases this with rfl | rfl <;> decide

theorem tail_head {fr : Option (List (Fin 10))} {e : Option (Bool × Sign × List (Fin 10))} {c : UInt8}
    (h : (fracText fr ++ expText e).head? = some c) : c = 46 ∨ c = 69 ∨ c = 101 := by
  cases fr with
  | some l => cases h; exact .inl rfl
  | none => exact .inr (expText_head h)

/-- The digits without the point. -/
def allDigits (d : Decimal) : List (Fin 10) := d.whole ++ d.fraction.getD []

theorem parseUnsigned_text (d : Decimal) (h : d.Proper) (neg : Bool) :
    (parseUnsigned neg (d.whole.map digitChar ++ (fracText d.fraction ++ expText d.exponent)) : Option (Val f)) =
      some (scaled neg (digitsNumber (allDigits d)) (expInt d.exponent - (d.fraction.getD []).length)) := by
  have e1 := spanDigits_append (rest := fracText d.fraction ++ expText d.exponent) (digitChar_digits d.whole) (by
    intro c hc
    rcases tail_head hc with rfl | rfl | rfl <;> rfl)
  rw [parseUnsigned.eq_def]
  simp only [e1, spanFraction_text]
  rw [if_neg, parseExponent_text h.2, ← List.map_append, digitsValue_map]
  · simp only [List.length_map]
    rfl
  · rw [← List.map_append, List.map_eq_nil_iff, List.append_eq_nil_iff]
    rintro ⟨h1, h2⟩
    rcases h.1 with h | ⟨l, hl, hne⟩
    · exact h h1
    · rw [hl] at h2
      exact hne h2

theorem head_number (d : Decimal) (h : d.Proper) {c : UInt8}
    (hc : (d.whole.map digitChar ++ (fracText d.fraction ++ expText d.exponent)).head? = some c) :
    (48 ≤ c.toNat ∧ c.toNat ≤ 57) ∨ c = 46 := by
  cases hw : d.whole with
  | cons x l =>
    rw [hw] at hc
    exact .inl (digits_head (l := x :: l) hc)
  | nil =>
    rw [hw] at hc
    rcases h.1 with h | ⟨l, hl, _⟩
    · exact absurd hw h
    · rw [hl] at hc
      cases hc
      exact .inr rfl

theorem parseVal_text (d : Decimal) (h : d.Proper) :
    (parseVal d.text : Option (Val f)) =
      some (scaled (isMinus d.sign) (digitsNumber (allDigits d)) (expInt d.exponent - (d.fraction.getD []).length)) := by
  have hh := fun c => head_number d h (c := c)
  rw [text_eq, parseVal, spanSign_text d.sign (by
    intro c hc
    rcases hh c hc with h | rfl
    · constructor <;> · rintro rfl; simp at h
    · decide)]
  simp only
  rw [if_neg, if_neg, parseUnsigned_text d h]
  all_goals
    generalize d.whole.map digitChar ++ (fracText d.fraction ++ expText d.exponent) = w at hh
    have n1 : ∀ (a : UInt8) (r : List UInt8), 57 < a.toNat → w.map lower ≠ a :: r := by
      intro a r ha he
      cases w with
      | nil => cases he
      | cons c w =>
        rw [List.map_cons] at he
        have e := (List.cons.inj he).1
        have : lower c = c := by
          rw [lower, if_neg]
          rcases hh c rfl with h | rfl
          · omega
          · decide
        rw [this] at e
        subst e
        rcases hh c rfl with h | rfl
        · omega
        · simp at ha
  · exact n1 110 [97, 110] (by decide)
  · rintro (h | h)
    · exact n1 105 [110, 102] (by decide) h
    · exact n1 105 [110, 102, 105, 110, 105, 116, 121] (by decide) h

theorem value_eq (d : Decimal) :
    d.value = d.sign.factor * ((digitsNumber (allDigits d) : ℚ) * (10 : ℚ) ^ (expInt d.exponent - (d.fraction.getD []).length : ℤ)) := by
  have hp : power d.exponent = (10 : ℚ) ^ (expInt d.exponent) := by
    match d.exponent with
    | none => simp [power, expInt]
    | some (_, .minus, l) => simp [power, expInt, isMinus]
    | some (_, .plus, l) => simp [power, expInt, isMinus]
    | some (_, .none, l) => simp [power, expInt, isMinus]
  rw [Decimal.value, hp, allDigits, digitsNumber_append, fractionNumber, zpow_sub₀ (by norm_num), zpow_natCast]
  push_cast
  field_simp

theorem scaled_parts (neg : Bool) (m : Nat) (e : Int) : ∃ num den : Nat, 0 < den ∧ (scaled neg m e : Val f) = rounded neg num den ∧
    (num : ℚ) / den / 2 ^ f.scale = (m : ℚ) * (10 : ℚ) ^ e := by
  have h2 := (units_pos f).ne'
  by_cases h : 0 ≤ e
  · refine ⟨m * 10 ^ e.toNat * 2 ^ f.scale, 1, by decide, by rw [scaled, if_pos h], ?_⟩
    obtain ⟨n, rfl⟩ := Int.eq_ofNat_of_zero_le h
    push_cast
    simp only [Int.toNat_natCast, zpow_natCast]
    field_simp
  · refine ⟨m * 2 ^ f.scale, 10 ^ (-e).toNat, by positivity, by rw [scaled, if_neg h], ?_⟩
    obtain ⟨n, hn⟩ := Int.eq_ofNat_of_zero_le (a := -e) (by omega)
    have : e = -(n : Int) := by omega
    subst this
    push_cast
    simp only [neg_neg, Int.toNat_natCast, zpow_neg, zpow_natCast]
    field_simp

/-- Rounding gives a nearest value. -/
theorem rnd_nearest (hp : 0 < f.prec) (v : ℚ) {y : Val f} (hy : isFinite y = true) : |rnd f v - v| ≤ |valueOf y - v| := by
  have hS := units_pos f
  have pos : ∀ {v : ℚ}, 0 ≤ v → ∀ (s : Bool) (n : Nat) (hn : f.Rep n), |rnd f v - v| ≤ |valueOf (.fin s n hn : Val f) - v| := by
    intro v hv s n hn
    have hden : (0 : ℚ) < v.den := by exact_mod_cast v.den_pos
    have he := rndPos_eq (f := f) hp hv (num := v.num.natAbs * 2 ^ f.scale) (den := v.den) v.den_pos (by
      rw [Nat.cast_mul, Nat.cast_pow, Nat.cast_ofNat, mul_div_right_comm, natAbs_div hv])
    have hnear := round_nearest f (num := v.num.natAbs * 2 ^ f.scale) (den := v.den) v.den_pos hp ((rep_iff f hp).mp hn).1
    have hq : ((v.num.natAbs * 2 ^ f.scale : Nat) : ℚ) / v.den = v * 2 ^ f.scale := by
      rw [Nat.cast_mul, Nat.cast_pow, Nat.cast_ofNat, mul_div_right_comm, natAbs_div hv]
    rw [hq] at hnear
    have scale : ∀ k : ℚ, |k / 2 ^ f.scale - v| = |k - v * 2 ^ f.scale| / 2 ^ f.scale := by
      intro k
      rw [← abs_of_pos hS, ← abs_div, abs_of_pos hS]
      congr 1
      field_simp
    have h1 : |rnd f v - v| ≤ |(n : ℚ) / 2 ^ f.scale - v| := by
      rw [rnd_of_nonneg hv, he, scale, scale]
      exact div_le_div_of_nonneg_right hnear hS.le
    refine h1.trans ?_
    rw [valueOf_fin]
    cases s with
    | false => rw [show sgn false = 1 from rfl, one_mul]
    | true =>
      have hk : (0 : ℚ) ≤ (n : ℚ) / 2 ^ f.scale := by positivity
      rw [show sgn true = -1 from rfl]
      generalize (n : ℚ) / 2 ^ f.scale = k at hk
      rw [abs_le]
      have : |-1 * k - v| = k + v := by rw [abs_of_nonpos (by linarith)]; ring
      rw [this]
      constructor <;> linarith
  obtain ⟨s, n, hn, rfl⟩ := finite_cases hy
  rcases le_total 0 v with hv | hv
  · exact pos hv s n hn
  · have := pos (v := -v) (by linarith) (!s) n hn
    rw [rnd_neg hp] at this
    have e : valueOf (.fin (!s) n hn : Val f) = -valueOf (.fin s n hn : Val f) := by
      rw [valueOf_fin, valueOf_fin]
      cases s <;> simp [sgn]
    rw [e, ← abs_neg] at this
    rw [show rnd f v - v = -(-rnd f v - -v) by ring]
    refine this.trans (le_of_eq ?_)
    rw [← abs_neg]
    congr 1
    ring

theorem parseExponent_spec {w : List UInt8} {e : Int} (h : parseExponent w = some e) :
    ∃ x : Option (Bool × Sign × List (Fin 10)), w = expText x ∧ ∀ y, x = some y → y.2.2 ≠ [] := by
  cases w with
  | nil => exact ⟨none, rfl, by simp⟩
  | cons c rest =>
    rw [parseExponent] at h
    split at h
    · rename_i hc
      obtain ⟨s, hs, _⟩ := spanSign_spec rest
      simp only at h
      split at h
      · cases h
      · rename_i hne
        split at h
        · rename_i n hd
          obtain ⟨l, hl⟩ := digits_of (digitsValue_digits hd)
          have hcc : c = 69 ∨ c = 101 := by
            revert hc
            rw [lower]
            split_ifs with h
            · intro he
              left
              apply UInt8.toNat.inj
              have := congrArg UInt8.toNat he
              rw [UInt8.toNat_add] at this
              change (c.toNat + 32) % 256 = 101 at this
              change c.toNat = 69
              omega
            · exact .inr
          have hl' : l ≠ [] := by
            rintro rfl
            exact hne hl
          rcases hcc with rfl | rfl
          · refine ⟨some (true, s, l), ?_, by rintro _ ⟨⟩; exact hl'⟩
            rw [expText, ← hl, List.append_assoc, ← hs]
            rfl
          · refine ⟨some (false, s, l), ?_, by rintro _ ⟨⟩; exact hl'⟩
            rw [expText, ← hl, List.append_assoc, ← hs]
            rfl
        · cases h
    · cases h

theorem spanFraction_spec (w : List UInt8) : ∃ fr : Option (List (Fin 10)), w = fracText fr ++ (spanFraction w).2 ∧
    (spanFraction w).1 = (fr.getD []).map digitChar := by
  cases w with
  | nil => exact ⟨none, rfl, rfl⟩
  | cons c rest =>
    by_cases hc : c = 46
    · subst hc
      obtain ⟨h1, h2, _⟩ := spanDigits_spec rest
      obtain ⟨l, hl⟩ := digits_of h2
      refine ⟨some l, ?_, ?_⟩
      · rw [spanFraction, if_pos rfl, fracText, ← hl]
        change 46 :: rest = 46 :: ((spanDigits rest).1 ++ (spanDigits rest).2)
        rw [← h1]
      · rw [spanFraction, if_pos rfl, hl]
        rfl
    · exact ⟨none, by rw [spanFraction, if_neg hc]; rfl, by rw [spanFraction, if_neg hc]; rfl⟩

theorem parseUnsigned_spec {neg : Bool} {w : List UInt8} {x : Val f} (h : parseUnsigned neg w = some x) (s : Sign) :
    ∃ d : Decimal, d.Proper ∧ d.sign = s ∧ w = d.whole.map digitChar ++ (fracText d.fraction ++ expText d.exponent) := by
  rw [parseUnsigned.eq_def] at h
  simp only at h
  split at h
  · cases h
  · rename_i hne
    split at h
    · rename_i m e hm he
      obtain ⟨h1, h2, _⟩ := spanDigits_spec w
      obtain ⟨l, hl⟩ := digits_of h2
      obtain ⟨fr, hf1, hf2⟩ := spanFraction_spec (spanDigits w).2
      obtain ⟨ex, hx, hxp⟩ := parseExponent_spec he
      refine ⟨⟨s, l, fr, ex⟩, ⟨?_, hxp⟩, rfl, ?_⟩
      · by_contra hno
        simp only [not_or, not_not, not_exists, not_and] at hno
        apply hne
        rw [hl, hf2, hno.1]
        cases fr with
        | none => rfl
        | some k => rw [hno.2 k rfl]; rfl
      · simp only
        rw [← hl, ← hx, ← hf1, ← h1]
    · cases h

theorem decimal_word (d : Decimal) : IsWord d.text := by
  have hd : ∀ l : List (Fin 10), IsWord (l.map digitChar) := fun l => (digits_clean (digitChar_digits l)).seps
  have ha : ∀ {a b : List UInt8}, IsWord a → IsWord b → IsWord (a ++ b) := by
    intro a b h1 h2 c hc
    rcases List.mem_append.mp hc with h | h
    · exact h1 c h
    · exact h2 c h
  have hs : ∀ s : Sign, IsWord s.text := by
    intro s
    cases s <;> unfold IsWord <;> decide
  rw [text_eq]
  refine ha (hs _) (ha (hd _) (ha ?_ ?_))
  · cases d.fraction with
    | none => unfold IsWord; simp [fracText]
    | some l => exact ha (by unfold IsWord; decide) (hd l)
  · match d.exponent with
    | none => unfold IsWord; simp [expText]
    | some (true, s, l) => exact ha (ha (by unfold IsWord; decide) (hs s)) (hd l)
    | some (false, s, l) => exact ha (ha (by unfold IsWord; decide) (hs s)) (hd l)

end Tmf.Ieee
