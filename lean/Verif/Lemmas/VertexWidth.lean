import Verif.Lemmas.BitCount
import Verif.Props.Edges
import Verif.Spec.EndToEnd
/-
How many bits the coordinates of vertices take.
-/

set_option exponentiation.threshold 2000

namespace Tmf.Ieee
open Spec Tmf.Props

variable {lib : Libm}

/-- All numbers of the box are between `-M` and `M`. -/
structure BoxWithin (M : ℚ) (s : VBox (Val b32)) : Prop where
  minX : |valueOf s.minX| ≤ M
  maxX : |valueOf s.maxX| ≤ M
  minY : |valueOf s.minY| ≤ M
  maxY : |valueOf s.maxY| ≤ M
  minZ : |valueOf s.minZ| ≤ M
  maxZ : |valueOf s.maxZ| ≤ M

theorem abs_min {x y M : ℚ} (hx : |x| ≤ M) (hy : |y| ≤ M) : |Min.min x y| ≤ M := by
  rcases min_choice x y with h | h <;> rw [h] <;> assumption

theorem abs_max {x y M : ℚ} (hx : |x| ≤ M) (hy : |y| ≤ M) : |Max.max x y| ≤ M := by
  rcases max_choice x y with h | h <;> rw [h] <;> assumption

theorem boxStep_within {M : ℚ} {s : VBox (Val b32)} {v : Vec3 (Val b32)} (hs : BoxFinite s) (h : BoxWithin M s)
    (hv : VecWithin M v) : BoxWithin M (boxStep s v) := by
  obtain ⟨hf, h1, h2, h3⟩ := hv
  obtain ⟨e1, e2, e3, e4, e5, e6⟩ := boxStep_values hs hf
  refine ⟨?_, ?_, ?_, ?_, ?_, ?_⟩
  · rw [e1]; exact abs_min h.minX h1
  · rw [e2]; exact abs_max h.maxY h2
  · rw [e3]; exact abs_min h.minZ h3
  · rw [e4]; exact abs_max (abs_max h.maxY h2) h1
  · rw [e5]; exact abs_min (abs_min h.minZ h3) h2
  · rw [e6]; exact abs_max h.maxZ h3

theorem fold_within {M : ℚ} : ∀ (l : List (Vec3 (Val b32))) (s : VBox (Val b32)), (∀ v ∈ l, VecWithin M v) → BoxFinite s →
    BoxWithin M s → BoxFinite (l.foldl boxStep s) ∧ BoxWithin M (l.foldl boxStep s)
  | [], _, _, hs, h => ⟨hs, h⟩
  | v :: l, s, hl, hs, h => by
    have hv := hl v List.mem_cons_self
    exact fold_within l _ (fun w hw => hl w (List.mem_cons_of_mem _ hw)) (boxStep_finite hs hv.1) (boxStep_within hs h hv)

theorem box_within {M : ℚ} {l : List (Vec3 (Val b32))} {s : VBox (Val b32)} (hl : ∀ v ∈ l, VecWithin M v)
    (h : vertexBox (ops lib) l = .ok s) : BoxFinite s ∧ BoxWithin M s := by
  cases l with
  | nil => cases h
  | cons v l =>
    rw [vertexBox_ops] at h
    have h := Outcome.ok.inj h
    obtain ⟨⟨f1, f2, f3⟩, h1, h2, h3⟩ := hl v List.mem_cons_self
    rw [← h, boxOf]
    exact fold_within _ _ hl ⟨f1, f1, f2, f2, f3, f3⟩ ⟨h1, h1, h2, h2, h3, h3⟩

/-- A side of a box is at most twice the largest coordinate, or the smallest size allowed. -/
theorem size_upper {mn mx : Val b32} (hmn : isFinite mn = true) (hmx : isFinite mx = true) {M : ℚ} (h1 : |valueOf mn| ≤ M)
    (h2 : |valueOf mx| ≤ M) (hM : M ≤ 2 ^ 58) : valueOf (sizeOf mn mx) ≤ (2 * M) * (1 + 1 / 2 ^ 20) + 1 / 999999 := by
  have hd : |valueOf mx - valueOf mn| ≤ 2 * M := by
    refine le_trans (abs_sub _ _) ?_
    linarith
  have hM0 : 0 ≤ M := le_trans (abs_nonneg _) h1
  have hd' : |valueOf mx - valueOf mn| ≤ 2 ^ 59 := le_trans hd (by norm_num at hM ⊢; linarith)
  obtain ⟨hf, hv⟩ := sub_value (f := b32) (by decide) hmx hmn (le_trans hd' (le_trans (by norm_num) maxV32))
  have he := rnd32_error_add mx (neg mn)
  rw [(neg_value mn).2, ← sub_eq_add_neg, ← hv] at he
  obtain ⟨e1, e2, e3⟩ := eps_value
  rw [Ieee.sizeOf, (max_value hf e1).2]
  refine max_le ?_ ?_
  · have := (abs_le.mp he).2
    have := le_abs_self (valueOf mx - valueOf mn)
    generalize valueOf mx - valueOf mn = D at *
    norm_num at *
    linarith
  · refine le_trans e3.le ?_
    have : 0 ≤ (2 * M) * (1 + 1 / 2 ^ 20) := by positivity
    norm_num at *
    linarith

/-- If steps of `edge * precision` divide the size into clearly fewer than `2^k` parts, `k` bits are
enough. -/
theorem width_le (hlog : AccurateLog2 lib) {edge pr size : Val b32} (he : isFinite edge = true) (hp : isFinite pr = true)
    (hs : isFinite size = true) (e0 : 0 < valueOf edge) (e2 : valueOf edge ≤ 2 ^ 62) (p0 : 0 < valueOf pr)
    (p2 : valueOf pr ≤ 2 ^ 20) (s1 : 1 / 2 ^ 20 ≤ valueOf size) {k : Nat} (hk : k ≤ 60)
    (h : valueOf size ≤ 2 ^ k * (valueOf edge * valueOf pr) * (1 - 1 / 2 ^ 10)) :
    bitsFor lib (div (lit 1 0) (mul (div edge size) pr)) ≤ k := by
  have hP : 0 < b32.prec := by decide
  have hmax := maxV32
  have sp : 0 < valueOf size := lt_of_lt_of_le (by norm_num) s1
  have hK : (1 : ℚ) ≤ 2 ^ k := one_le_pow₀ (by norm_num)
  have hK2 : (2 : ℚ) ^ k ≤ 2 ^ 60 := pow_le_pow_right₀ (by norm_num) hk
  -- edge / size
  have q0 : 0 < valueOf edge / valueOf size := div_pos e0 sp
  have qk : 1 ≤ 2 ^ k * (valueOf edge / valueOf size * valueOf pr) * (1 - 1 / 2 ^ 10) := by
    have e : 2 ^ k * (valueOf edge / valueOf size * valueOf pr) * (1 - 1 / 2 ^ 10) =
        2 ^ k * (valueOf edge * valueOf pr) * (1 - 1 / 2 ^ 10) / valueOf size := by ring
    rw [e, le_div_iff₀ sp, one_mul]
    exact h
  have q2 : valueOf edge / valueOf size ≤ 2 ^ 82 := by
    rw [div_le_iff₀ sp]
    refine le_trans e2 (le_trans (le_of_eq ?_) (mul_le_mul_of_nonneg_left s1 (by norm_num)))
    norm_num
  have qp : 1 / 2 ^ 60 ≤ valueOf edge / valueOf size * valueOf pr := by
    rw [div_le_iff₀ (by positivity)]
    refine le_trans qk ?_
    have h0 : 0 < valueOf edge / valueOf size * valueOf pr := mul_pos q0 p0
    have := mul_le_mul_of_nonneg_right hK2 h0.le
    generalize valueOf edge / valueOf size * valueOf pr = A at *
    norm_num at *
    linarith
  have q1 : 1 / 2 ^ 80 ≤ valueOf edge / valueOf size := by
    have := le_trans qp (mul_le_mul_of_nonneg_left p2 q0.le)
    generalize valueOf edge / valueOf size = A at *
    norm_num at *
    linarith
  obtain ⟨fd, vd⟩ := div_value (f := b32) hP he hs sp.ne' (by
    rw [abs_of_pos q0]; exact le_trans q2 (le_trans (by norm_num) hmax))
  obtain ⟨d1, d2⟩ := rnd32_rel (le_trans (by norm_num) q1)
  rw [← vd] at d1 d2
  have d4 : valueOf (div edge size) ≤ 2 ^ 83 := le_trans d2 (by norm_num at q2 ⊢; linarith)
  have d0 : 0 < valueOf (div edge size) := lt_of_lt_of_le (by norm_num at *; linarith) d1
  -- times precision
  have m1 : valueOf edge / valueOf size * valueOf pr * (1 - 1 / 2 ^ 23) ≤ valueOf (div edge size) * valueOf pr := by
    have := mul_le_mul_of_nonneg_right d1 p0.le
    refine le_trans (le_of_eq (by ring)) this
  have m3 : 1 / 2 ^ 61 ≤ valueOf (div edge size) * valueOf pr := le_trans (by norm_num at *; linarith) m1
  have m4 : valueOf (div edge size) * valueOf pr ≤ 2 ^ 103 :=
    le_trans (mul_le_mul d4 p2 p0.le (by norm_num)) (by norm_num)
  have m0 : 0 < valueOf (div edge size) * valueOf pr := mul_pos d0 p0
  obtain ⟨fm, vm⟩ := mul_value (f := b32) hP fd hp (by
    rw [abs_of_pos m0]; exact le_trans m4 (le_trans (by norm_num) hmax))
  obtain ⟨n1, n2⟩ := rnd32_rel (le_trans (by norm_num) m3)
  rw [← vm] at n1 n2
  have n3 : 1 / 2 ^ 62 ≤ valueOf (mul (div edge size) pr) := le_trans (by norm_num at m3 ⊢; linarith) n1
  have n4 : valueOf (mul (div edge size) pr) ≤ 2 ^ 104 := le_trans n2 (by norm_num at m4 ⊢; linarith)
  have n0 : 0 < valueOf (mul (div edge size) pr) := lt_of_lt_of_le (by norm_num) n3
  -- one divided by that
  obtain ⟨of, ov⟩ := one_lit
  have r0 : 0 < 1 / valueOf (mul (div edge size) pr) := by positivity
  have r1 : 1 / 2 ^ 104 ≤ 1 / valueOf (mul (div edge size) pr) := one_div_le_one_div_of_le n0 n4
  have r2 : 1 / valueOf (mul (div edge size) pr) ≤ 2 ^ 62 := by
    rw [div_le_iff₀ n0]
    refine le_trans (le_of_eq ?_) (mul_le_mul_of_nonneg_left n3 (by norm_num))
    norm_num
  obtain ⟨fr, vr⟩ := div_value (f := b32) hP of fm n0.ne' (by
    rw [ov, abs_of_pos r0]; exact le_trans r2 (le_trans (by norm_num) hmax))
  rw [ov] at vr
  obtain ⟨t1, t2⟩ := rnd32_rel (le_trans (by norm_num) r1)
  rw [← vr] at t1 t2
  have r3 : 1 / valueOf (mul (div edge size) pr) ≤ 2 ^ k * ((1 - 1 / 2 ^ 10) / (1 - 1 / 2 ^ 23) ^ 2) := by
    rw [div_le_iff₀ n0]
    have a1 := mul_le_mul_of_nonneg_right m1 (show (0 : ℚ) ≤ 1 - 1 / 2 ^ 23 by norm_num)
    have a2 := le_trans a1 n1
    refine le_trans qk ?_
    have a3 := mul_le_mul_of_nonneg_left a2 (show (0 : ℚ) ≤ 2 ^ k * ((1 - 1 / 2 ^ 10) / (1 - 1 / 2 ^ 23) ^ 2) by positivity)
    refine le_trans (le_of_eq ?_) a3
    have hne : (1 - 1 / 2 ^ 23 : ℚ) ≠ 0 := by norm_num
    field_simp
  have r4 : valueOf (div (lit 1 0) (mul (div edge size) pr)) ≤ 2 ^ k * (1 - 1 / 2 ^ 17) := by
    refine le_trans t2 (le_trans (mul_le_mul_of_nonneg_right r3 (by norm_num)) ?_)
    rw [mul_assoc]
    exact mul_le_mul_of_nonneg_left (by norm_num) (by positivity)
  by_cases h1 : 1 ≤ valueOf (div (lit 1 0) (mul (div edge size) pr))
  · exact (bits_spec hlog fr h1 (by omega)).2 r4
  · rw [bits_small hlog fr (le_trans (by norm_num at *; positivity) t1) (by linarith)]
    exact Nat.zero_le _

/-- The widths of the vertices of an array between `-M` and `M`. -/
theorem precs_le (hlog : AccurateLog2 lib) {M δ : ℚ} {edge pr : Val b32} {l : List (Vec3 (Val b32))} {s : VBox (Val b32)}
    (hl : ∀ v ∈ l, VecWithin M v) (hM : M ≤ 2 ^ 58) (h : vertexBox (ops lib) l = .ok s) (he : isFinite edge = true)
    (hp : isFinite pr = true) (d0 : 0 < δ) (hd : δ * (1 - 1 / 2 ^ 19) ≤ valueOf edge) (e2 : valueOf edge ≤ 2 ^ 62)
    (p0 : 0 < valueOf pr) (p2 : valueOf pr ≤ 2 ^ 20) {k : Nat} (hk1 : 1 ≤ k) (hk : k ≤ 60)
    (hw : 4 * M + 1 / 2 ^ 18 ≤ 2 ^ k * (δ * valueOf pr)) :
    (s.precs (ops lib) pr edge).1 ≤ k ∧ (s.precs (ops lib) pr edge).2.1 ≤ k ∧ (s.precs (ops lib) pr edge).2.2 ≤ k := by
  obtain ⟨hf, hb⟩ := box_within hl h
  have e0 : 0 < valueOf edge := lt_of_lt_of_le (mul_pos d0 (by norm_num)) hd
  have key : ∀ mn mx : Val b32, isFinite mn = true → isFinite mx = true → |valueOf mn| ≤ M → |valueOf mx| ≤ M →
      bitsFor lib (div (lit 1 0) (mul (div edge (sizeOf mn mx)) pr)) ≤ k := by
    intro mn mx f1 f2 h1 h2
    obtain ⟨g1, g2, _⟩ := size_value f1 f2 h1 h2 hM
    have g3 := size_upper f1 f2 h1 h2 hM
    refine width_le hlog he hp g1 e0 e2 p0 p2 g2 hk ?_
    have hM0 : 0 ≤ M := le_trans (abs_nonneg _) h1
    have a1 := mul_le_mul_of_nonneg_left (mul_le_mul_of_nonneg_right hd p0.le) (show (0 : ℚ) ≤ 2 ^ k by positivity)
    have a2 : (2 : ℚ) ^ k * (δ * (1 - 1 / 2 ^ 19) * valueOf pr) = 2 ^ k * (δ * valueOf pr) * (1 - 1 / 2 ^ 19) := by ring
    rw [a2] at a1
    generalize (2 : ℚ) ^ k * (δ * valueOf pr) = A at *
    generalize (2 : ℚ) ^ k * (valueOf edge * valueOf pr) = B at *
    norm_num at *
    linarith
  rw [precs_ops, vertexBits]
  exact ⟨max_le (key _ _ hf.minX hf.maxX hb.minX hb.maxX) hk1, max_le (key _ _ hf.minY hf.maxY hb.minY hb.maxY) hk1,
    max_le (key _ _ hf.minY hf.maxY hb.minY hb.maxY) hk1⟩

/-! ### The shortest edge -/

theorem tenth_exact : isFinite (lit 1 1 : Val b32) = true ∧ valueOf (lit 1 1 : Val b32) = 13421773 / 2 ^ 27 := by
  rw [show (lit 1 1 : Val b32) = .fin false (13421773 * 2 ^ 122) (by decide +kernel) by decide +kernel, valueOf_pos,
    show b32.scale = 149 from rfl]
  exact ⟨rfl, by norm_num⟩

/-- The shortest edge of sensible vertices. -/
theorem sensible_edge {k : Nat} {P M δ : ℚ} {vs : List (Vec3 (Val b32))} {tris : Option (List Nat)}
    (h : SensibleVertices k P M δ vs tris) :
    ∃ e, calcShortestEdge (ops lib) tris (some vs) = .ok e ∧ isFinite e = true ∧ δ * (1 - 1 / 2 ^ 19) ≤ valueOf e ∧
      valueOf e ≤ 2 ^ 62 ∧ ∀ L, EdgeLength vs tris L → realOf e ≤ L + (1 / 2 ^ 20 * L + 1 / 2 ^ 73) := by
  have hd := h.least
  have hd' := h.most
  have def_ : ∀ o : Option (List Nat), calcShortestEdge (ops lib) o (some vs) = .ok (lit 1 1) → (o = none ∨ o = some []) →
      ∃ e, calcShortestEdge (ops lib) o (some vs) = .ok e ∧ isFinite e = true ∧ δ * (1 - 1 / 2 ^ 19) ≤ valueOf e ∧
      valueOf e ≤ 2 ^ 62 ∧ ∀ L, EdgeLength vs o L → realOf e ≤ L + (1 / 2 ^ 20 * L + 1 / 2 ^ 73) := by
    intro o ho hn
    obtain ⟨t1, t2⟩ := tenth_exact
    refine ⟨_, ho, t1, ?_, ?_, ?_⟩
    · rw [t2]; norm_num at hd hd' ⊢; linarith
    · rw [t2]; norm_num
    · rintro L (⟨t, i, j, a, c, ht, hij, _⟩ | ⟨_, rfl⟩)
      · rcases hn with hn | hn
        · rw [hn] at ht; cases ht
        · rw [hn] at ht; cases ht
          exact absurd hij (not_isEdge_short (by decide))
      · rw [realOf, t2]; norm_num
  cases tris with
  | none => exact def_ none (C53_default.1 _) (.inl rfl)
  | some t =>
    by_cases ht : t = []
    · subst ht
      exact def_ _ (C53_default.2.1 _) (.inr rfl)
    have hbd : ∀ v ∈ vs, Bounded v := fun v hv => by
      obtain ⟨hf, h1, h2, h3⟩ := h.inner v hv
      exact ⟨hf, le_trans h1 h.size, le_trans h2 h.size, le_trans h3 h.size⟩
    have hi : ∀ i j, IsEdge t i j → i < vs.length := by
      rintro i j ⟨n, x, y, z, hx, hy, hz, hh⟩
      rcases hh with ⟨rfl, _⟩ | ⟨rfl, _⟩ | ⟨rfl, _⟩
      · exact h.used t rfl _ (List.mem_of_getElem? hx)
      · exact h.used t rfl _ (List.mem_of_getElem? hy)
      · exact h.used t rfl _ (List.mem_of_getElem? hz)
    obtain ⟨e, he, hl⟩ := shortest_least (lib := lib) hbd (h.whole t rfl ht) hi
    obtain ⟨e', he', f1, f2, f3, i, j, a, c, hij, ha, hc, f4⟩ := C53_shortest (lib := lib) hbd (h.whole t rfl ht) hi
    rw [he] at he'
    cases he'
    refine ⟨e, he, f1, ?_, least_upper hbd hl, ?_⟩
    · have hch := h.edges t rfl i j a c hij ha hc
      have h4 := (abs_le.mp f4).1
      have hdr : (1 : ℝ) / 2 ^ 39 ≤ (δ : ℝ) := by
        have := (Rat.cast_le (K := ℝ)).mpr hd
        push_cast at this
        exact this
      have : (δ : ℝ) * (1 - 1 / 2 ^ 19) ≤ realOf e := by
        generalize chord a c = C at *
        generalize (δ : ℝ) = D at *
        norm_num at *
        linarith
      have e2 : ((δ * (1 - 1 / 2 ^ 19) : ℚ) : ℝ) ≤ ((valueOf e : ℚ) : ℝ) := by push_cast; exact this
      exact (Rat.cast_le (K := ℝ)).mp e2
    · rintro L (⟨t', i', j', a', c', ht', h', ha', hc', rfl⟩ | ⟨hn, _⟩)
      · cases ht'
        exact f3 i' j' a' c' h' ha' hc'
      · rcases hn with hn | hn
        · cases hn
        · exact absurd (Option.some.inj hn) ht

/-! ### Accuracy -/

/-- The bounds of the box of a run ending in `last`. -/
theorem box_last {init : List (Vec3 (Val b32))} {last : Vec3 (Val b32)} {s : VBox (Val b32)}
    (h : vertexBox (ops lib) (init ++ [last]) = .ok s) (hl : ∀ v ∈ init ++ [last], FiniteVec v) :
    (∀ v ∈ init ++ [last], valueOf v.1 ≤ valueOf s.maxY) ∧ (∀ v ∈ init, valueOf s.minY ≤ valueOf v.2.1 ∧ valueOf s.minY ≤ valueOf v.2.2) ∧
    valueOf s.minZ = Min.min (valueOf s.minY) (valueOf last.2.1) ∧
    (∀ v ∈ init, valueOf v.1 ≤ valueOf s.maxX) ∧ (∀ v ∈ init ++ [last], valueOf v.2.1 ≤ valueOf s.maxX) ∧
    ∀ v ∈ init ++ [last], valueOf s.minY ≤ valueOf v.2.2 := by
  obtain ⟨v, l, hvl⟩ : ∃ v l, init ++ [last] = v :: l := List.exists_cons_of_ne_nil (by simp)
  rw [hvl, vertexBox_ops, boxOf, ← hvl, List.foldl_append] at h
  have h := Outcome.ok.inj h
  obtain ⟨f1, f2, f3⟩ := hl v (by rw [hvl]; exact List.mem_cons_self)
  have h0 : BoxFinite (⟨v.1, v.1, v.2.1, v.2.1, v.2.2, v.2.2⟩ : VBox (Val b32)) := ⟨f1, f1, f2, f2, f3, f3⟩
  obtain ⟨g1, g2, g3⟩ := fold_seen (l := init) (fun w hw => hl w (List.mem_append_left _ hw)) h0
  generalize init.foldl boxStep _ = t at *
  rw [List.foldl_cons, List.foldl_nil] at h
  obtain ⟨e1, e2, e3, e4, e5, e6⟩ := boxStep_values g1 (hl last (by simp))
  rw [h] at e1 e2 e3 e4 e5 e6
  refine ⟨fun w hw => ?_, fun w hw => ?_, by rw [e5, e3], fun w hw => ?_, fun w hw => ?_, fun w hw => ?_⟩
  · rw [e4]
    rcases List.mem_append.mp hw with hw | hw
    · exact le_max_of_le_left (le_max_of_le_left (g3 w hw).maxYx)
    · cases List.mem_singleton.mp hw
      exact le_max_right _ _
  · rw [e3]
    exact ⟨min_le_of_left_le (g3 w hw).minZy, min_le_of_left_le (g3 w hw).minZz⟩
  · rw [e2]
    exact le_max_of_le_left (g3 w hw).maxYx
  · rw [e2]
    rcases List.mem_append.mp hw with hw | hw
    · exact le_max_of_le_left (g3 w hw).maxYy
    · cases List.mem_singleton.mp hw
      exact le_max_right _ _
  · rw [e3]
    rcases List.mem_append.mp hw with hw | hw
    · exact min_le_of_left_le (g3 w hw).minZz
    · cases List.mem_singleton.mp hw
      exact min_le_right _ _

/-- What the box reaches. -/
theorem reached_box {p : List (Vec3 (Val b32))} {s : VBox (Val b32)} (h : vertexBox (ops lib) p = .ok s) (hl : ∀ v ∈ p, FiniteVec v)
    (v : Vec3 (Val b32)) : (XReached p v → valueOf v.1 ≤ valueOf s.maxX) ∧ (YReached p v → valueOf s.minY ≤ valueOf v.2.1) := by
  rcases List.eq_nil_or_concat p with rfl | ⟨init, last, rfl⟩
  · cases h
  rw [List.concat_eq_append] at *
  obtain ⟨-, b2, -, b4, b5, b6⟩ := box_last h hl
  rw [XReached, YReached, List.dropLast_concat]
  constructor
  · rintro (⟨w, hw, h⟩ | ⟨w, hw, h⟩)
    · exact le_trans h (b4 w hw)
    · exact le_trans h (b5 w hw)
  · rintro (⟨w, hw, h⟩ | ⟨w, hw, h⟩)
    · exact le_trans (b2 w hw).1 h
    · exact le_trans (b6 w hw) h

theorem zcovered_box {p : List (Vec3 (Val b32))} {s : VBox (Val b32)} (h : vertexBox (ops lib) p = .ok s) (hl : ∀ v ∈ p, FiniteVec v)
    (hz : ZCovered p) : valueOf s.maxZ - valueOf s.minZ ≤ valueOf s.maxY - valueOf s.minY := by
  rcases List.eq_nil_or_concat p with rfl | ⟨init, last, rfl⟩
  · cases h
  rw [List.concat_eq_append] at *
  obtain ⟨b1, -, b3, -⟩ := box_last h hl
  obtain ⟨_, _, hall, _, _, _, hmax⟩ := vertexBox_spec lib h hl
  have h1 : valueOf s.maxZ ≤ valueOf s.maxY := by
    refine hmax _ fun v hv => ?_
    obtain ⟨w, hw, h | h⟩ := hz.1 v hv
    · exact le_trans h (b1 w hw)
    · exact le_trans h (hall w hw).2.1
  have h2 : valueOf s.minY ≤ valueOf last.2.1 := (reached_box h hl last).2 (hz.2 last (by simp))
  rw [min_eq_left h2] at b3
  linarith

/-- A coordinate that is not the greatest is below the top of the box. -/
theorem topped_below {k p : Nat} {M : ℚ} {mn mx x : Val b32} (hp : p ≤ k) (h1 : |valueOf mn| ≤ M) (h2 : |valueOf mx| ≤ M)
    (ht : k ≤ 24 ∨ ∃ y : ℚ, valueOf x + M / 2 ^ 20 ≤ y ∧ y ≤ valueOf mx) :
    25 ≤ p → 1 / 1000001 < valueOf mx - valueOf mn →
      valueOf x - valueOf mn ≤ (1 - 1 / 2 ^ 21) * (valueOf mx - valueOf mn) := by
  intro h25 _
  rcases ht with h | ⟨y, a, b⟩
  · omega
  · have h1 := (abs_le.mp h1).1
    have h2 := (abs_le.mp h2).2
    norm_num at *
    linarith

/-- A vertex of a run: x and y if the box reaches them, and z if it is covered, are stored in steps of
`precision * edge`. -/
theorem run_step (hlog : AccurateLog2 lib) {l : List (Vec3 (Val b32))} {pr e : Val b32} {M : ℚ} {s : VBox (Val b32)}
    (hs : vertexBox (ops lib) l = .ok s) (hM : ∀ v ∈ l, VecWithin M v) (hM2 : M ≤ 2 ^ 58)
    (he : isFinite e = true) (he1 : 1 / 2 ^ 40 ≤ valueOf e) (he2 : valueOf e ≤ 2 ^ 62)
    (hp : isFinite pr = true) (p1 : 1 / 2 ^ 20 ≤ valueOf pr) (p2 : valueOf pr ≤ 2 ^ 20)
    {k : Nat} (hk : k ≤ 31) (hx24 : (s.precs (ops lib) pr e).1 ≤ k) (hy24 : (s.precs (ops lib) pr e).2.1 ≤ k) {v : Vec3 (Val b32)} (hv : v ∈ l)
    {v' : Vec3 (Val b32)} (hv' : v' = quantVertex (ops lib) s (s.precs (ops lib) pr e) v) :
    (Topped k (M / 2 ^ 20) l (·.1) v → XReached l v → |valueOf v'.1 - valueOf v.1| ≤ edgeStep (valueOf e * valueOf pr) M) ∧
    (Topped k (M / 2 ^ 20) l (·.2.1) v → YReached l v → |valueOf v'.2.1 - valueOf v.2.1| ≤ edgeStep (valueOf e * valueOf pr) M) ∧
    (Topped k (M / 2 ^ 20) l (·.2.2) v → ZCovered l → |valueOf v'.2.2 - valueOf v.2.2| ≤ edgeStep (valueOf e * valueOf pr) M) := by
  subst hv'
  have hfin : ∀ v ∈ l, FiniteVec v := fun v hv => (hM v hv).1
  obtain ⟨bf, hb⟩ := box_within hM hs
  obtain ⟨fx, fy, fz⟩ := hfin v hv
  obtain ⟨-, hin, hall, -⟩ := vertexBox_spec lib hs hfin
  obtain ⟨h1, h2, h3, h4⟩ := hall v hv
  refine ⟨fun ht hr => ?_, fun ht hr => ?_, fun ht hz => ?_⟩
  · rw [quantVertex_ops lib]
    exact (coord_step hlog he hp he1 he2 p1 p2 fx bf.minX bf.maxX bf.minX bf.maxX h1 ((reached_box hs hfin v).1 hr) hb.minX hb.maxX hb.minX hb.maxX hM2
      (le_refl _) rfl (le_trans hx24 hk)
      (topped_below hx24 hb.minX hb.maxX (ht.imp_right fun ⟨w, hw, h⟩ => ⟨_, h, (hin w hw).maxX⟩))).2
  · rw [quantVertex_ops lib]
    exact (coord_step hlog he hp he1 he2 p1 p2 fy bf.minY bf.maxY bf.minY bf.maxY ((reached_box hs hfin v).2 hr) h2 hb.minY hb.maxY hb.minY hb.maxY hM2
      (le_refl _) rfl (le_trans hy24 hk)
      (topped_below hy24 hb.minY hb.maxY (ht.imp_right fun ⟨w, hw, h⟩ => ⟨_, h, (hin w hw).maxY⟩))).2
  · rw [quantVertex_ops lib]
    exact (coord_step hlog he hp he1 he2 p1 p2 fz bf.minZ bf.maxZ bf.minY bf.maxY h3 h4 hb.minZ hb.maxZ hb.minY hb.maxY hM2
      (zcovered_box hs hfin hz) rfl (le_trans hy24 hk)
      (topped_below hy24 hb.minZ hb.maxZ (ht.imp_right fun ⟨w, hw, h⟩ => ⟨_, h, (hin w hw).maxZ⟩))).2

/-- The bound in terms of the length of an edge. -/
theorem edgeStep_le {e pr : Val b32} {M : ℚ} {L : ℝ} (hM : 0 ≤ M) (p0 : 0 ≤ valueOf pr) (p2 : valueOf pr ≤ 2 ^ 20) (hL : 0 ≤ L)
    (h : realOf e ≤ L + (1 / 2 ^ 20 * L + 1 / 2 ^ 73)) :
    ((edgeStep (valueOf e * valueOf pr) M : ℚ) : ℝ) ≤ vertexError (valueOf pr) M L := by
  have hp0 : (0 : ℝ) ≤ (valueOf pr : ℝ) := by exact_mod_cast p0
  have hp2 : (valueOf pr : ℝ) ≤ 2 ^ 20 := by exact_mod_cast p2
  have hM0 : (0 : ℝ) ≤ (M : ℝ) := by exact_mod_cast hM
  have h1 : (valueOf e : ℝ) * valueOf pr ≤ (L + (1 / 2 ^ 20 * L + 1 / 2 ^ 73)) * valueOf pr := mul_le_mul_of_nonneg_right h hp0
  have h2 : (0 : ℝ) ≤ valueOf pr * L := mul_nonneg hp0 hL
  have h3 : (L + (1 / 2 ^ 20 * L + 1 / 2 ^ 73)) * (valueOf pr : ℝ) = valueOf pr * L * (1 + 1 / 2 ^ 20) + 1 / 2 ^ 73 * valueOf pr := by ring
  rw [h3] at h1
  rw [edgeStep, vertexError]
  push_cast
  generalize (valueOf pr : ℝ) * L = A at *
  generalize (valueOf e : ℝ) * valueOf pr = B at *
  generalize (valueOf pr : ℝ) = C at *
  generalize (M : ℝ) = D at *
  norm_num at *
  linarith

end Tmf.Ieee
