import Verif.Lemmas.Decimal
import Verif.Lemmas.QuantizeWide
/-
The printed digits are the shortest that read back.
-/

namespace Tmf.Ieee
open Tmf Spec

variable {f : Fmt}

/-- `c` steps of `10^-j` of the summit, in units. -/
def placeValue (f : Fmt) (c j : Nat) : ℚ := ((c * f.summit : Nat) : ℚ) / ((10 ^ j : Nat) : ℚ)

theorem placeValue_le {c c' j : Nat} (h : c ≤ c') : placeValue f c j ≤ placeValue f c' j := by
  rw [placeValue, placeValue]
  refine div_le_div_of_nonneg_right ?_ (by positivity)
  exact_mod_cast Nat.mul_le_mul_right _ h

theorem floor_le (n j : Nat) : placeValue f (n * 10 ^ j / f.summit) j ≤ n := by
  rw [placeValue, div_le_iff₀ (by positivity)]
  exact_mod_cast Nat.div_mul_le_self _ _

theorem le_ceil (n j : Nat) : (n : ℚ) ≤ placeValue f (n * 10 ^ j / f.summit + 1) j := by
  rw [placeValue, le_div_iff₀ (by positivity)]
  have := Nat.lt_div_mul_add (a := n * 10 ^ j) (summit_pos f)
  have h : n * 10 ^ j ≤ (n * 10 ^ j / f.summit + 1) * f.summit := by
    rw [Nat.add_mul, Nat.one_mul]
    omega
  exact_mod_cast h

/-- If some number of steps reads back, so does the one just below or just above the value. -/
theorem reads_near (hp : 0 < f.prec) {n : Nat} (h : f.Rep n) {c j : Nat} (hc : f.round (c * f.summit) (10 ^ j) = n) :
    (c ≤ n * 10 ^ j / f.summit → f.round (n * 10 ^ j / f.summit * f.summit) (10 ^ j) = n) ∧
    (n * 10 ^ j / f.summit + 1 ≤ c → f.round ((n * 10 ^ j / f.summit + 1) * f.summit) (10 ^ j) = n) := by
  have hflt := ((rep_iff f hp).mp h).1
  have h10 : 0 < 10 ^ j := by positivity
  refine ⟨fun hle => ?_, fun hle => ?_⟩
  · refine Nat.le_antisymm (round_le_flt f h10 hp hflt (floor_le n j)) ?_
    rw [← hc]
    have := round_mono f (num := c * f.summit) (num' := n * 10 ^ j / f.summit * f.summit) h10 h10 hp (placeValue_le (f := f) (j := j) hle)
    rwa [hc] at this ⊢
  · refine Nat.le_antisymm ?_ (flt_le_round f h10 hp hflt (le_ceil n j))
    have := round_mono f (num := (n * 10 ^ j / f.summit + 1) * f.summit) (num' := c * f.summit) h10 h10 hp
      (placeValue_le (f := f) (j := j) hle)
    rwa [hc] at this

/-- The search stops at the first place where anything reads back. -/
theorem shortest_first (hp : 0 < f.prec) {n : Nat} (h : f.Rep n) : ∀ (fuel j : Nat),
    j ≤ (shortest f n fuel j).2 ∧ ∀ i c, j ≤ i → i < (shortest f n fuel j).2 → f.round (c * f.summit) (10 ^ i) ≠ n
  | 0, j => ⟨le_refl _, fun i c h1 h2 => absurd h2 (by rw [shortest]; omega)⟩
  | fuel + 1, j => by
    rw [shortest]
    split
    · exact ⟨le_refl _, fun i c h1 h2 => absurd h2 (by dsimp only; omega)⟩
    · rename_i hu
      split
      · exact ⟨le_refl _, fun i c h1 h2 => absurd h2 (by dsimp only; omega)⟩
      · rename_i hd
        obtain ⟨h1, h2⟩ := shortest_first hp h fuel (j + 1)
        refine ⟨by omega, fun i c hi hlt hr => ?_⟩
        rcases Nat.eq_or_lt_of_le hi with rfl | hi
        · obtain ⟨r1, r2⟩ := reads_near hp h hr
          rcases Nat.lt_or_ge (n * 10 ^ j / f.summit) c with hc | hc
          · exact hu ⟨r2 hc, .inl hd⟩
          · exact hd (r1 hc)
        · exact h2 i c hi hlt hr

/-- Of everything that reads back at that place, the result is closest. -/
theorem shortest_closest (hp : 0 < f.prec) {n : Nat} (h : f.Rep n) : ∀ (fuel j : Nat), j + fuel = f.decades + f.scale →
    ∀ c, f.round (c * f.summit) (10 ^ (shortest f n fuel j).2) = n →
      |placeValue f (shortest f n fuel j).1 (shortest f n fuel j).2 - n| ≤ |placeValue f c (shortest f n fuel j).2 - n| := by
  have hfloor : ∀ j, |placeValue f (n * 10 ^ j / f.summit) j - n| = n - placeValue f (n * 10 ^ j / f.summit) j := fun j => by
    rw [abs_of_nonpos (by linarith [floor_le (f := f) n j])]; ring
  have hceil : ∀ j, |placeValue f (n * 10 ^ j / f.summit + 1) j - n| = placeValue f (n * 10 ^ j / f.summit + 1) j - n := fun j =>
    abs_of_nonneg (by linarith [le_ceil (f := f) n j])
  have below : ∀ {c j}, c ≤ n * 10 ^ j / f.summit → |placeValue f (n * 10 ^ j / f.summit) j - n| ≤ |placeValue f c j - n| := by
    intro c j hc
    have := placeValue_le (f := f) (j := j) hc
    rw [hfloor, abs_of_nonpos (by linarith [floor_le (f := f) n j])]
    linarith
  have above : ∀ {c j}, n * 10 ^ j / f.summit + 1 ≤ c → |placeValue f (n * 10 ^ j / f.summit + 1) j - n| ≤ |placeValue f c j - n| := by
    intro c j hc
    have := placeValue_le (f := f) (j := j) hc
    rw [hceil, abs_of_nonneg (by linarith [le_ceil (f := f) n j])]
    linarith
  -- which of the two is closer
  have sum : ∀ j, (n : ℚ) - placeValue f (n * 10 ^ j / f.summit) j = ((n * 10 ^ j % f.summit : Nat) : ℚ) / ((10 ^ j : Nat) : ℚ) ∧
      placeValue f (n * 10 ^ j / f.summit + 1) j - n = ((f.summit : ℚ) - ((n * 10 ^ j % f.summit : Nat) : ℚ)) / ((10 ^ j : Nat) : ℚ) := by
    intro j
    have h10 : (0 : ℚ) < ((10 ^ j : Nat) : ℚ) := by positivity
    have e : ((n * 10 ^ j : Nat) : ℚ) = f.summit * ((n * 10 ^ j / f.summit : Nat) : ℚ) + ((n * 10 ^ j % f.summit : Nat) : ℚ) := by
      exact_mod_cast (Nat.div_add_mod (n * 10 ^ j) f.summit).symm
    generalize n * 10 ^ j / f.summit = q at *
    generalize n * 10 ^ j % f.summit = r at *
    rw [placeValue, placeValue]
    generalize (10 ^ j : Nat) = t at *
    push_cast at e ⊢
    constructor
    · rw [eq_div_iff h10.ne', sub_mul, div_mul_cancel₀ _ h10.ne', e]; ring
    · rw [eq_div_iff h10.ne', sub_mul, div_mul_cancel₀ _ h10.ne', e]; ring
  intro fuel
  induction fuel with
  | zero =>
    intro j hj c _
    have hj : j = f.decades + f.scale := hj
    rw [shortest]
    have e : n * 10 ^ j = n * 5 ^ f.scale * f.summit := by
      rw [hj, Fmt.summit, pow_add, show (10 : Nat) ^ f.scale = 2 ^ f.scale * 5 ^ f.scale by rw [← Nat.mul_pow]]
      ring
    have hz : |placeValue f (n * 10 ^ j / f.summit) j - n| = 0 := by
      rw [hfloor, (sum j).1, e, Nat.mul_mod_left]
      simp
    dsimp only
    rw [hz]
    exact abs_nonneg _
  | succ fuel ih =>
    intro j hj c
    rw [shortest]
    have h10 : (0 : ℚ) < ((10 ^ j : Nat) : ℚ) := by positivity
    split
    · rename_i hu
      intro hc
      obtain ⟨r1, r2⟩ := reads_near hp h hc
      rcases Nat.lt_or_ge (n * 10 ^ j / f.summit) c with hcc | hcc
      · exact above hcc
      · refine le_trans ?_ (below hcc)
        have hhalf := hu.2.resolve_left (not_not.mpr (r1 hcc))
        rw [hceil, hfloor, (sum j).1, (sum j).2]
        refine div_le_div_of_nonneg_right ?_ h10.le
        have : (f.summit : ℚ) ≤ 2 * ((n * 10 ^ j % f.summit : Nat) : ℚ) := by exact_mod_cast hhalf
        linarith
    · rename_i hu
      split
      · rename_i hd
        intro hc
        obtain ⟨r1, r2⟩ := reads_near hp h hc
        rcases Nat.lt_or_ge (n * 10 ^ j / f.summit) c with hcc | hcc
        · refine le_trans ?_ (above hcc)
          have hhalf : 2 * (n * 10 ^ j % f.summit) < f.summit := by
            by_contra hn
            exact hu ⟨r2 hcc, .inr (not_lt.mp hn)⟩
          rw [hceil, hfloor, (sum j).1, (sum j).2]
          refine div_le_div_of_nonneg_right ?_ h10.le
          have : 2 * ((n * 10 ^ j % f.summit : Nat) : ℚ) < (f.summit : ℚ) := by exact_mod_cast hhalf
          linarith
        · exact below hcc
      · exact ih (j + 1) (by omega) c

/-- A value other than zero takes at least one place. -/
theorem shortest_pos (hp : 0 < f.prec) {n : Nat} (h : f.Rep n) (hn : n ≠ 0) (c : Nat) : f.round (c * f.summit) (10 ^ 0) ≠ n := by
  intro hc
  have hmax : n < 2 ^ (f.prec + f.top) := by
    refine lt_of_le_of_lt h.2 ?_
    rw [Fmt.max, pow_add]
    exact Nat.mul_lt_mul_of_pos_right (Nat.sub_lt (by positivity) (by decide)) (by positivity)
  have hsum : 2 ^ (f.prec + f.top) ≤ f.summit := by
    calc 2 ^ (f.prec + f.top) ≤ 2 ^ (f.scale + f.decades) := Nat.pow_le_pow_right (by decide) (by rw [Fmt.decades]; omega)
      _ = 2 ^ f.scale * 2 ^ f.decades := pow_add _ _ _
      _ ≤ 2 ^ f.scale * 10 ^ f.decades := Nat.mul_le_mul_left _ (Nat.pow_le_pow_left (by decide) _)
  have hflt : f.Flt (2 ^ (f.prec + f.top)) := by
    have := flt_of_le f (a := 1) hp Nat.one_le_two_pow (f.prec + f.top)
    rwa [one_mul] at this
  rcases Nat.eq_zero_or_pos c with rfl | hc0
  · rw [Nat.zero_mul, pow_zero, round_of_flt f hp (y := 0) ⟨0, 0, by positivity, by simp⟩] at hc
    exact hn hc.symm
  · have h1 : f.summit ≤ c * f.summit := Nat.le_mul_of_pos_left _ hc0
    have hle := flt_le_round f (num := c * f.summit) (den := 10 ^ 0) (by decide) hp hflt (by
      rw [pow_zero, Nat.cast_one, div_one]
      exact_mod_cast le_trans hsum h1)
    omega

/-- `c * 10^e` in units, for every place that is not below the ones searched. -/
theorem units_of_place (c j : Nat) : placeValue f c j = (c : ℚ) * (10 : ℚ) ^ ((f.decades : ℤ) - j) * 2 ^ f.scale := by
  rw [placeValue, Fmt.summit, zpow_sub₀ (by norm_num), zpow_natCast, zpow_natCast]
  push_cast
  field_simp

/-- The written number as a decimal. -/
theorem positional_decimal (s : Bool) (d m j : Nat) : ∃ dec : Decimal, dec.Proper ∧ dec.exponent = none ∧
    (if s then [45] else []) ++ positional d m j = dec.text ∧ dec.sign.factor = sgn s ∧
    dec.value = sgn s * ((m : ℚ) * (10 : ℚ) ^ ((d : ℤ) - j)) := by
  have hsign : ∃ sg : Sign, sg.text = (if s then [45] else []) ∧ sg.factor = sgn s := by
    cases s
    · exact ⟨.none, rfl, rfl⟩
    · exact ⟨.minus, rfl, rfl⟩
  obtain ⟨sg, ht, hf⟩ := hsign
  have hnum : ∀ {n : Nat} {l : List (Fin 10)}, decimal n = l.map digitChar → digitsNumber l = n := by
    intro n l hl
    have hd : digitsValue 0 (decimal n) = some n := digitsValue_decimal _ _ (Nat.lt_succ_self _)
    rw [hl, digitsValue_map] at hd
    exact Option.some.inj hd
  by_cases hj : j ≤ d
  · rw [positional, if_pos hj]
    obtain ⟨l, hl⟩ := digits_of (decimal_digits (m * 10 ^ (d - j)))
    have hne : l ≠ [] := by
      rintro rfl
      exact decimal_ne_nil _ hl
    refine ⟨⟨sg, l, none, none⟩, ⟨.inl hne, by rintro e ⟨⟩⟩, rfl, ?_, hf, ?_⟩
    · rw [text_eq, fracText, expText, List.append_nil, List.append_nil, ht, hl]
    · rw [value_eq, hf]
      dsimp only [allDigits, Option.getD, expInt]
      rw [List.append_nil, hnum hl]
      have : ((d : ℤ) - j) = ((d - j : Nat) : ℤ) := by omega
      rw [this, zpow_natCast]
      push_cast
      simp
  · rw [positional, if_neg hj]
    obtain ⟨l, hl⟩ := digits_of (decimal_digits (m / 10 ^ (j - d)))
    obtain ⟨r, hr⟩ := digits_of (padded_digits (j - d) (m % 10 ^ (j - d)))
    have hne : l ≠ [] := by
      rintro rfl
      exact decimal_ne_nil _ hl
    have hlen : r.length = j - d := by
      have := padded_length (j - d) (m % 10 ^ (j - d))
      rw [hr, List.length_map] at this
      exact this
    have hrn : digitsNumber r = m % 10 ^ (j - d) := by
      have hd := digitsValue_padded (j - d) (m % 10 ^ (j - d)) 0 (Nat.mod_lt _ (by positivity))
      rw [hr, digitsValue_map, Nat.zero_mul, Nat.zero_add] at hd
      exact Option.some.inj hd
    refine ⟨⟨sg, l, some r, none⟩, ⟨.inl hne, by rintro e ⟨⟩⟩, rfl, ?_, hf, ?_⟩
    · rw [text_eq, fracText, expText, List.append_nil, ht, hl, hr]
      rfl
    · rw [value_eq, hf]
      dsimp only [allDigits, Option.getD, expInt]
      rw [digitsNumber_append, hnum hl, hrn, hlen, Nat.mul_comm, Nat.div_add_mod]
      have : ((0 : ℤ) - ((j - d : Nat) : ℤ)) = (d : ℤ) - j := by omega
      rw [this]

/-- A decimal that reads as a value rounds to its units. -/
theorem reads_units (hp : 0 < f.prec) {d : Decimal} (hd : d.Proper) {s : Bool} {n : Nat} {h : f.Rep n}
    (hr : parseVal d.text = some (.fin s n h : Val f)) {num den : Nat} (h0 : 0 < den)
    (hv : |d.value| * 2 ^ f.scale = (num : ℚ) / den) : isMinus d.sign = s ∧ f.round num den = n := by
  rw [parseVal_text d hd] at hr
  obtain ⟨num', den', hd', he, hval⟩ := scaled_parts (f := f) (isMinus d.sign) (digitsNumber (allDigits d))
    (expInt d.exponent - (d.fraction.getD []).length)
  rw [he] at hr
  have hr := Option.some.inj hr
  rw [rounded, pack] at hr
  split at hr
  · rename_i hrep
    cases hr
    refine ⟨rfl, ?_⟩
    refine round_congr f hp h0 hd' ?_
    rw [← hv, value_eq, ← hval, abs_mul, ← sgn_isMinus, abs_sgn, one_mul, abs_of_nonneg (by positivity),
      div_mul_cancel₀ _ (units_pos f).ne']
  · cases hr

theorem print_shortest (hp : 0 < f.prec) {x : Val f} (hx : isFinite x = true) (h0 : valueOf x ≠ 0) :
    ∃ d : Decimal, printVal x = d.text ∧ ShortestFor parseVal d x := by
  obtain ⟨s, n, h, rfl⟩ := finite_cases hx
  have hn : n ≠ 0 := by
    rintro rfl
    exact h0 (by rw [valueOf_fin]; simp)
  obtain ⟨d, hd, hexp, htext, hfac, hval⟩ := positional_decimal s f.decades (shortest f n (f.decades + f.scale) 0).1
    (shortest f n (f.decades + f.scale) 0).2
  have hprint : printVal (.fin s n h : Val f) = d.text := htext
  have hread : parseVal d.text = some (.fin s n h : Val f) := by
    rw [← hprint]
    exact parseVal_print _ rfl
  have hfirst := shortest_first hp h (f.decades + f.scale) 0
  have hclose := shortest_closest hp h (f.decades + f.scale) 0 (by omega)
  have hreads := shortest_reads h (f.decades + f.scale) 0 (by omega)
  generalize hm : (shortest f n (f.decades + f.scale) 0).1 = m at *
  generalize hj : (shortest f n (f.decades + f.scale) 0).2 = j at *
  have hj0 : 0 < j := by
    rcases Nat.eq_zero_or_pos j with rfl | hpos
    · exact absurd hreads (shortest_pos hp h hn m)
    · exact hpos
  have nonneg : ∀ (c : Nat) (e : ℤ), (0 : ℚ) ≤ (c : ℚ) * (10 : ℚ) ^ e := fun c e =>
    mul_nonneg (Nat.cast_nonneg _) (zpow_nonneg (by norm_num) _)
  have habs : |d.value| = (m : ℚ) * (10 : ℚ) ^ ((f.decades : ℤ) - j) := by
    rw [hval, abs_mul, abs_sgn, one_mul, abs_of_nonneg (nonneg _ _)]
  refine ⟨d, hprint, hd, hexp, hread, m, (f.decades : ℤ) - j, habs, fun d' hd' hr c' e' hv' => ?_⟩
  -- a number of steps at a place that reads back
  have place : ∀ (c i : Nat), |d'.value| = (c : ℚ) * (10 : ℚ) ^ ((f.decades : ℤ) - i) → f.round (c * f.summit) (10 ^ i) = n := by
    intro c i hc
    refine (reads_units hp hd' hr (by positivity) ?_).2
    rw [hc, ← units_of_place]
    rfl
  refine ⟨?_, fun he => ?_⟩
  · by_contra hgt
    push Not at hgt
    rcases le_or_gt e' (f.decades : ℤ) with hle | hlt
    · obtain ⟨i, hi⟩ := Int.eq_ofNat_of_zero_le (a := (f.decades : ℤ) - e') (by omega)
      have hie : e' = (f.decades : ℤ) - (i : ℤ) := by omega
      rw [hie] at hv'
      exact hfirst.2 i c' (Nat.zero_le _) (by omega) (place c' i hv')
    · obtain ⟨t, ht⟩ := Int.eq_ofNat_of_zero_le (a := e' - f.decades) (by omega)
      have hte : e' = (f.decades : ℤ) + (t : ℤ) := by omega
      refine hfirst.2 0 (c' * 10 ^ t) (le_refl _) hj0 (place (c' * 10 ^ t) 0 ?_)
      rw [hv', hte, zpow_add₀ (by norm_num), zpow_natCast, zpow_natCast]
      push_cast
      rw [sub_zero, zpow_natCast]
      ring
  · have hc := hclose c' (place c' j (by rw [hv', he]))
    rw [units_of_place, units_of_place, ← habs, ← he, ← hv'] at hc
    -- both have the sign of the value
    have hs' := (reads_units hp hd' hr (num := c' * f.summit) (den := 10 ^ j) (by positivity) (by
      rw [hv', he, ← units_of_place]; rfl)).1
    have hval' : d'.value = sgn s * |d'.value| := by
      rw [value_eq, ← sgn_isMinus, hs', abs_mul, abs_sgn, one_mul, abs_of_nonneg (nonneg _ _)]
    have hvald : d.value = sgn s * |d.value| := by rw [hval, abs_mul, abs_sgn, one_mul, abs_of_nonneg (nonneg _ _)]
    rw [hvald, hval', valueOf_fin, ← mul_sub, ← mul_sub, abs_mul, abs_mul, abs_sgn, one_mul, one_mul]
    have hS := units_pos f
    have scale : ∀ a : ℚ, |a - (n : ℚ) / 2 ^ f.scale| = |a * 2 ^ f.scale - n| / 2 ^ f.scale := by
      intro a
      rw [eq_div_iff hS.ne', ← abs_of_pos hS, ← abs_mul, abs_of_pos hS, sub_mul, div_mul_cancel₀ _ hS.ne']
    rw [scale, scale]
    exact div_le_div_of_nonneg_right hc hS.le

end Tmf.Ieee
