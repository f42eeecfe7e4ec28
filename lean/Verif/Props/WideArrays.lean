import Verif.Lemmas.Collapse
import Verif.Props.AccuracyRange
import Verif.Props.NormalAngle
/-
C36, C37, C38, C40: arrays stored in 32 to 63 bits per number. Without overflow checks the writer computes the
multiplier `(1 << p) - 1` with the shift taken modulo 32, the reader divides by the true `2^p - 1`: the arrays are
saved and loaded without an error, and everything comes back at the lower end of its range. With overflow
checks the writer panics.
-/

set_option exponentiation.threshold 2000

namespace Tmf.Props
open Spec Ieee

variable (lib : Libm)

/-! ### C36 -/

/-- C36 is false with 32 to 63 bits, in a build without overflow checks: every coordinate in [0,1] comes back as next
to nothing, however large it was. -/
theorem C36_collapse_violated {l : List (Vec2 (Val b32))} {p : Nat} (h1 : 32 ≤ p) (h2 : p < 64) (hl : l.length ≤ 2 ^ 31)
    (hu : ∀ uv ∈ l, UnitValue uv.1 ∧ UnitValue uv.2) :
    ∃ bytes l', saveUvs (ops lib) .wrapping l p = .ok bytes ∧ readUvs (ops lib) bytes = .ok l' ∧
      List.Forall₂ (fun uv uv' => Tiny uv'.1 ∧ Tiny uv'.2 ∧ (1 / 2 ^ 29 ≤ valueOf uv.1 → ¬ StepBelow p uv.1 uv'.1) ∧
        (1 / 2 ^ 29 ≤ valueOf uv.2 → ¬ StepBelow p uv.2 uv'.2)) l l' := by
  obtain ⟨bytes, hs, hr⟩ := readUvs_by (fo := ops lib) (l := l) (mulI32_wrapping h1 h2) (by omega) h2 hl
  refine ⟨bytes, _, hs, hr, forall₂_map fun uv huv => ?_⟩
  have key : ∀ x : Val b32, UnitValue x → Tiny (div (ofNat (pairCode p (toU64 (mul x (ofNat (2 ^ (p - 32) - 1))))))
      (ofNat (2 ^ p - 1)) : Val b32) := fun x hx => tiny_div32 h1 h2 (le_trans (pairCode_le _ _) (code_small h1 h2 hx))
  have far : ∀ x y : Val b32, Tiny y → 1 / 2 ^ 29 ≤ valueOf x → ¬ StepBelow p x y := by
    rintro x y ⟨-, -, hy⟩ hx ⟨-, -, h⟩
    have hp : (2 : ℚ) ^ 32 ≤ 2 ^ p := pow_le_pow_right₀ (by norm_num) h1
    have : (1 : ℚ) / (2 ^ p - 1) ≤ 1 / (2 ^ 32 - 1) := one_div_le_one_div_of_le (by norm_num) (by linarith)
    norm_num at *
    linarith
  obtain ⟨u1, u2⟩ := hu uv huv
  exact ⟨key _ u1, key _ u2, far _ _ (key _ u1), far _ _ (key _ u2)⟩

example : ∃ bytes y, saveUvs (ops lib) .wrapping [(nine64, nine64)] 40 = .ok bytes ∧ readUvs (ops lib) bytes = .ok [(y, y)] ∧
    Tiny y ∧ ¬ StepBelow 40 nine64 y := by
  have hu : UnitValue nine64 := (storable_nine64 1).1
  obtain ⟨bytes, hs, hr⟩ := readUvs_by (fo := ops lib) (l := [(nine64, nine64)]) (mulI32_wrapping (p := 40) (by decide) (by decide))
    (by decide) (by decide) (by show 1 ≤ 2 ^ 31; decide)
  obtain ⟨bytes', l', hs', hr', h⟩ := C36_collapse_violated lib (l := [(nine64, nine64)]) (p := 40) (by decide) (by decide)
    (by show 1 ≤ 2 ^ 31; decide) (fun uv h => by rw [List.mem_singleton] at h; subst h; exact ⟨hu, hu⟩)
  rw [hs] at hs'
  cases hs'
  rw [hr] at hr'
  cases hr'
  cases h with
  | cons h _ => exact ⟨bytes, _, hs, hr, h.1, h.2.2.1 (by rw [valueOf_nine64]; norm_num)⟩

theorem mulI32_checked {p : Nat} (h : 31 ≤ p) : mulI32 .checked p = .panic := by
  rw [mulI32]
  exact if_neg (by omega)

/-- With overflow checks no array of texture coordinates can be saved in more than 30 bits. -/
theorem C36_checked_violated {fo : FloatOps} {l : List (Vec2 fo.F)} {p : Nat} (h : 31 ≤ p) :
    saveUvs fo .checked l p = .panic := by
  rw [saveUvs, mulI32_checked h]
  rfl

/-- The same for vertices, if one of the axes takes more than 30 bits. -/
theorem C37_checked_violated {fo : FloatOps} {fb : F64Bytes fo} {l : List (Vec3 fo.F)} {precision edge : fo.F} {s : VBox fo.F}
    (hs : vertexBox fo l = .ok s) (h : 31 ≤ (s.precs fo precision edge).1 ∨ 31 ≤ (s.precs fo precision edge).2.1 ∨
      31 ≤ (s.precs fo precision edge).2.2) : saveVertices fo fb .checked l precision edge = .panic := by
  rw [saveVertices, hs]
  simp only [Outcome.bind_ok]
  have key : ∀ q, mulI32 .checked q = .panic ∨ ∃ m, mulI32 .checked q = .ok m := by
    intro q
    by_cases hq : q ≤ 30
    · exact .inr ⟨_, if_pos hq⟩
    · exact .inl (mulI32_checked (by omega))
  generalize s.precs fo precision edge = p at *
  rcases key p.1 with e1 | ⟨m1, e1⟩
  · rw [e1]; rfl
  rw [e1, Outcome.bind_ok]
  rcases key p.2.1 with e2 | ⟨m2, e2⟩
  · rw [e2]; rfl
  rw [e2, Outcome.bind_ok]
  rcases key p.2.2 with e3 | ⟨m3, e3⟩
  · rw [e3]; rfl
  exfalso
  rcases h with h | h | h <;> have := mulI32_checked h
  · rw [e1] at this; cases this
  · rw [e2] at this; cases this
  · rw [e3] at this; cases this

/-- The same for custom colours and floats. -/
theorem C40_checked_violated {fo : FloatOps} {fb : F64Bytes fo} :
    (∀ {data : List (Vec4 fo.F)} {prec : fo.F}, 31 ≤ colorPrec fo prec → saveColors fo .checked data prec = .panic) ∧
    (∀ {data : List fo.F} {prec : fo.F}, 31 ≤ floatPrec fo data prec → saveFloats fo fb .checked data prec = .panic) := by
  constructor
  · intro data prec h
    rw [saveColors]
    rw [mulI32_checked h]
    rfl
  · intro data prec h
    rw [saveFloats]
    rw [mulI32_checked h]
    rfl

/-- The same for normals and tangents, if there are any. -/
theorem C38_checked_violated {fo : FloatOps} {p : Nat} (h : 31 ≤ p) :
    (∀ {n : Vec3 fo.F} {l : List (Vec3 fo.F)}, saveNormals fo .checked (n :: l) p = .panic) ∧
    (∀ {t : Tangent fo.F} {l : List (Tangent fo.F)}, saveTangents fo .checked (t :: l) p = .panic) := by
  constructor
  · intro n l
    rw [saveNormals, Outcome.mapAll, normalFields, normalToEncoding, mulI32_checked h]
    rfl
  · intro t l
    rw [saveTangents, Outcome.mapAll, tangentFields, normalToEncoding, mulI32_checked h]
    rfl

example : saveUvs (ops lib) .checked [(nine64, nine64)] 31 = .panic := C36_checked_violated (by decide)

/-! ### C40, colours -/

theorem channelBy_ops (m p : Nat) (x : Val b32) : channelBy (ops lib) m p x =
    convert (div (ofNat (pairCode p (toU64 (mul x (ofNat m)))) : Val b64) (ofNat (2 ^ p - 1))) := by
  rw [channelBy, channelOfCode, ops_ofD lib, ops_dDiv lib, ops_dOfNat lib, ops_toU64 lib, ops_mul lib, ops_ofNat lib]

/-- C40 is false for colours stored in 32 to 63 bits per channel, in a build without overflow checks: every channel in
[0,1] comes back as next to nothing. -/
theorem C40_color_collapse_violated {b' : Build} {data : List (Vec4 (Val b32))} {prec : Val b32}
    (h1 : 32 ≤ colorPrec (ops lib) prec) (h2 : colorPrec (ops lib) prec < 64) (hl : data.length ≤ 2 ^ 31)
    (hu : ∀ c ∈ data, UnitValue c.1 ∧ UnitValue c.2.1 ∧ UnitValue c.2.2.1 ∧ UnitValue c.2.2.2) :
    ∃ bytes data' prec', saveColors (ops lib) .wrapping data prec = .ok bytes ∧
      readColors (ops lib) b' bytes = .ok (.color data' prec') ∧ data'.length = data.length ∧
      ∀ c ∈ data', Tiny c.1 ∧ Tiny c.2.1 ∧ Tiny c.2.2.1 ∧ Tiny c.2.2.2 := by
  obtain ⟨bytes, hs, hr⟩ := readColors_by (fo := ops lib) (b' := b') (data := data) (prec := prec) h2 (mulI32_wrapping h1 h2) hl
  refine ⟨bytes, _, _, hs, hr, List.length_map _, fun c hc => ?_⟩
  obtain ⟨c0, hc0, rfl⟩ := List.mem_map.mp hc
  generalize colorPrec (ops lib) prec = p at *
  have key : ∀ x : Val b32, UnitValue x → Tiny (channelBy (ops lib) (2 ^ (p - 32) - 1) p x) := fun x hx => by
    rw [channelBy_ops]
    exact tiny_convert (tiny_div64 h1 h2 (le_trans (pairCode_le _ _) (code_small h1 h2 hx)))
  obtain ⟨u1, u2, u3, u4⟩ := hu c0 hc0
  exact ⟨key _ u1, key _ u2, key _ u3, key _ u4⟩

/-- `2^-40`, a precision for which colours take 40 bits. -/
def prec40 : Val b32 := .fin false (2 ^ 109) (by decide +kernel)
theorem prec40_bits (hlog : AccurateLog2 lib) : colorPrec (ops lib) prec40 = 40 := by
  rw [colorPrec_ops lib, colorBits_clear lib hlog] <;> decide +kernel

example (hlog : AccurateLog2 lib) (b' : Build) : ∃ bytes data' prec',
    saveColors (ops lib) .wrapping [(vOne, vOne, vHalf, vOne)] prec40 = .ok bytes ∧
    readColors (ops lib) b' bytes = .ok (.color data' prec') ∧ data'.length = 1 ∧ ∀ c ∈ data', Tiny c.1 := by
  have hh : UnitValue vHalf := ⟨rfl, by rw [vHalf, valueOf_pos]; positivity, by
    rw [vHalf, valueOf_pos, show b32.scale = 149 from rfl]; norm_num⟩
  have ho : UnitValue vOne := ⟨rfl, by rw [valueOf_vOne]; norm_num, by rw [valueOf_vOne]⟩
  obtain ⟨bytes, d, pr, hs, hr, hlen, h⟩ := C40_color_collapse_violated lib (b' := b') (data := [(vOne, vOne, vHalf, vOne)])
    (prec := prec40) (by rw [prec40_bits lib hlog]; decide) (by rw [prec40_bits lib hlog]; decide)
    (by show 1 ≤ 2 ^ 31; decide) (fun c hc => by
      rw [List.mem_singleton] at hc
      subst hc
      exact ⟨ho, ho, hh, ho⟩)
  exact ⟨bytes, d, pr, hs, hr, hlen, fun c hc => (h c hc).1⟩

/-! ### C40, float data -/

/-- What the code of a number in the range of a float array is computed from. -/
theorem float_unit {x mn mx : Val b32} (hx : isFinite x = true) (hmn : isFinite mn = true) (hmx : isFinite mx = true)
    (h0 : valueOf mn ≤ valueOf x) (h1 : valueOf x ≤ valueOf mx) (hlt : valueOf mn < valueOf mx)
    (hS : valueOf mx - valueOf mn ≤ 2 ^ 127) : UnitValue (div (sub x mn) (sub mx mn)) := by
  have hP : 0 < b32.prec := by decide
  have hX0 : 0 ≤ valueOf x - valueOf mn := by linarith
  have hspan := sub_value (f := b32) hP hmx hmn (by rw [abs_of_nonneg (by linarith)]; exact le_trans hS maxV32)
  have ht := sub_value (f := b32) hP hx hmn (by rw [abs_of_nonneg hX0]; exact le_trans (by linarith) (le_trans hS maxV32))
  have hspos : 0 < valueOf (sub mx mn) := by
    rw [hspan.2]
    have := abs_le.mp (span_error hlt.le)
    have e : (1 : ℚ) / 2 ^ 24 * (valueOf mx - valueOf mn) ≤ 1 / 2 * (valueOf mx - valueOf mn) :=
      mul_le_mul_of_nonneg_right (by norm_num) (by linarith)
    linarith [this.1]
  have hts : valueOf (sub x mn) ≤ valueOf (sub mx mn) := by
    rw [ht.2, hspan.2]
    exact rnd_mono hP (by linarith)
  have hq1 : valueOf (sub x mn) / valueOf (sub mx mn) ≤ 1 := (div_le_one hspos).mpr hts
  have hq0 : 0 ≤ valueOf (sub x mn) / valueOf (sub mx mn) := div_nonneg (by rw [ht.2]; exact rnd_nonneg hX0) hspos.le
  have hq := div_value hP ht.1 hspan.1 hspos.ne' (by
    rw [abs_of_nonneg hq0]; exact le_trans hq1 (le_trans (by norm_num) maxV32))
  have hone := ofNat_value (c := 1) (by norm_num)
  refine ⟨hq.1, by rw [hq.2]; exact rnd_nonneg hq0, ?_⟩
  rw [hq.2, ← Nat.cast_one (R := ℚ), ← hone.2]
  exact rnd_le_valueOf hP (by rw [hone.2, Nat.cast_one]; exact hq1)

theorem floatBy_ops (r : Val b32 × Val b32) (m p : Nat) (x : Val b32) : floatBy (ops lib) r m p x =
    convert (add (mul (div (ofNat (toU64 (mul (div (sub x r.1) (sub r.2 r.1)) (ofNat m)) % 2 ^ p) : Val b64)
      (ofNat (2 ^ p - 1))) (sub (convert r.2) (convert r.1))) (convert r.1)) := by
  rw [floatBy, floatOfCode, floatCode, ops_ofD lib, ops_dAdd lib, ops_dMul lib, ops_dDiv lib, ops_dOfNat lib, ops_dSub lib,
    ops_toD lib, ops_toU64 lib, ops_mul lib, ops_div lib, ops_sub lib, ops_ofNat lib]

/-- C40 is false for float data stored in 32 to 63 bits per number, in a build without overflow checks: every number
comes back as the smallest of the array, up to the rounding errors of the arithmetic. -/
theorem C40_float_collapse_violated {fb : F64Bytes (ops lib)} {data : List (Val b32)} {prec : Val b32} {lo hi : ℚ}
    (he : Extent data lo hi) (hlt : lo < hi) (hlo : |lo| ≤ 2 ^ 120) (hhi : |hi| ≤ 2 ^ 120)
    (h1 : 32 ≤ floatPrec (ops lib) data prec) (h2 : floatPrec (ops lib) data prec < 64) (hl : data.length ≤ 2 ^ 31) :
    ∃ bytes data' prec', saveFloats (ops lib) fb .wrapping data prec = .ok bytes ∧
      readFloats (ops lib) fb bytes = .ok (.float data' prec') ∧ data'.length = data.length ∧
      ∀ y ∈ data', isFinite y = true ∧ |valueOf y - lo| ≤ Max.max |lo| |hi| / 2 ^ 19 + 1 / 2 ^ 148 := by
  obtain ⟨bytes, hs, hr⟩ := readFloats_by (fo := ops lib) (fb := fb) (data := data) (prec := prec) h2 (mulI32_wrapping h1 h2) hl
  refine ⟨bytes, _, _, hs, hr, List.length_map _, fun y hy => ?_⟩
  obtain ⟨x, hx, rfl⟩ := List.mem_map.mp hy
  generalize floatPrec (ops lib) data prec = p at *
  obtain ⟨m1, m2, v1, v2⟩ := extent_range he hlo hhi
  have f1 := he.finite _ m1
  have f2 := he.finite _ m2
  obtain ⟨b1, b2⟩ := he.bounds x hx
  have hmax : hi - lo ≤ 2 ^ 127 := by
    rw [abs_le] at hlo hhi
    linarith [show (2 : ℚ) ^ 120 + 2 ^ 120 ≤ 2 ^ 127 by norm_num]
  rw [floatBy_ops, floatRange_ops lib]
  have hc : toU64 (mul (div (sub x (rangeOf data).1) (sub (rangeOf data).2 (rangeOf data).1)) (ofNat (2 ^ (p - 32) - 1))) ≤ 2 ^ (p - 32) :=
    code_small h1 h2 (float_unit (he.finite x hx) f1 f2 (by rw [v1]; exact b1) (by rw [v2]; exact b2)
      (by rw [v1, v2]; exact hlt) (by rw [v1, v2]; exact hmax))
  have := float_collapse h1 h2 (mod_small hc) f1 f2 (by rw [v1, v2]; exact hlt.le) (M := Max.max |lo| |hi|)
    (by rw [v1]; exact le_max_left _ _) (by rw [v2]; exact le_max_right _ _) (max_le hlo hhi)
  rw [Within, v1] at this
  exact this

theorem floatBits_prec40 (hlog : AccurateLog2 lib) : floatBits lib [vOne, nine64, threeHalves] prec40 = 41 := by
  rw [floatBits_clear lib hlog] <;> decide +kernel

/-- 1, 9/64 and 3/2 all come back as 9/64. -/
example (hlog : AccurateLog2 lib) {fb : F64Bytes (ops lib)} : ∃ bytes data' prec',
    saveFloats (ops lib) fb .wrapping [vOne, nine64, threeHalves] prec40 = .ok bytes ∧
    readFloats (ops lib) fb bytes = .ok (.float data' prec') ∧ data'.length = 3 ∧
    ∀ y ∈ data', |valueOf y - 9 / 64| ≤ 1 / 2 ^ 18 := by
  have h : floatPrec (ops lib) [vOne, nine64, threeHalves] prec40 = 41 := by rw [floatPrec_ops lib, floatBits_prec40 lib hlog]
  obtain ⟨bytes, d, pr, hs, hr, hlen, hy⟩ := C40_float_collapse_violated lib (fb := fb) extent_example (prec := prec40)
    (by norm_num) (by norm_num) (by norm_num) (by rw [h]; decide) (by rw [h]; decide) (by show 3 ≤ 2 ^ 31; decide)
  refine ⟨bytes, d, pr, hs, hr, hlen, fun y hm => le_trans (hy y hm).2 ?_⟩
  rw [abs_of_nonneg (by norm_num), abs_of_nonneg (by norm_num), max_eq_right (by norm_num)]
  norm_num

/-! ### C37 -/

theorem mulI32_release (p : Nat) : mulI32 .wrapping p = .ok (2 ^ (p % 32) - 1) := rfl

/-- C37 is false if an axis takes 32 to 63 bits, in a build without overflow checks: every vertex inside the box comes
back at the lower end of that axis, up to the rounding errors of the arithmetic. -/
theorem C37_collapse_violated {fb : F64Bytes (ops lib)} {l : List (Vec3 (Val b32))} {precision edge : Val b32} {M : ℚ}
    {s : VBox (Val b32)} (hs : vertexBox (ops lib) l = .ok s) (hl : l.length ≤ 2 ^ 31) (hfin : ∀ v ∈ l, FiniteVec v)
    (hM : ∀ v ∈ l, |valueOf v.1| ≤ M ∧ |valueOf v.2.1| ≤ M ∧ |valueOf v.2.2| ≤ M) (hM2 : M ≤ 2 ^ 120)
    (hx : (s.precs (ops lib) precision edge).1 < 64) (hy : (s.precs (ops lib) precision edge).2.1 < 64)
    (hz : (s.precs (ops lib) precision edge).2.2 < 64) :
    ∃ bytes l', saveVertices (ops lib) fb .wrapping l precision edge = .ok bytes ∧
      readVertices (ops lib) fb bytes = .ok l' ∧
      List.Forall₂ (fun v v' => Inside s v →
        (32 ≤ (s.precs (ops lib) precision edge).1 → Within (M / 2 ^ 19 + 1 / 2 ^ 148) s.minX v'.1) ∧
        (32 ≤ (s.precs (ops lib) precision edge).2.1 → Within (M / 2 ^ 19 + 1 / 2 ^ 148) s.minY v'.2.1) ∧
        (32 ≤ (s.precs (ops lib) precision edge).2.2 → Within (M / 2 ^ 19 + 1 / 2 ^ 148) s.minZ v'.2.2)) l l' ∧
      ∀ v ∈ l.dropLast, Inside s v := by
  obtain ⟨bytes, hw, h⟩ := readVertices_by (fo := ops lib) (fb := fb) (b := .wrapping) (l := l) (precision := precision) (edge := edge)
    (m := (2 ^ ((s.precs (ops lib) precision edge).1 % 32) - 1, 2 ^ ((s.precs (ops lib) precision edge).2.1 % 32) - 1,
      2 ^ ((s.precs (ops lib) precision edge).2.2 % 32) - 1)) hs hx hy hz rfl rfl rfl hl
  obtain ⟨bf, hin, hall, b1, b2, b3, b4⟩ := vertexBox_spec lib hs hfin
  refine ⟨bytes, _, hw, h, forall₂_map fun v hv hi => ?_, hin⟩
  generalize s.precs (ops lib) precision edge = p at *
  rw [vertexBy, reread_eq lib, sizes_ops lib]
  obtain ⟨fx, fy, fz⟩ := hfin v hv
  have m1 : ∀ v ∈ l, -M ≤ valueOf v.1 ∧ valueOf v.1 ≤ M := fun v hv => abs_le.mp (hM v hv).1
  have m2 : ∀ v ∈ l, -M ≤ valueOf v.2.1 ∧ valueOf v.2.1 ≤ M := fun v hv => abs_le.mp (hM v hv).2.1
  have m3 : ∀ v ∈ l, -M ≤ valueOf v.2.2 ∧ valueOf v.2.2 ≤ M := fun v hv => abs_le.mp (hM v hv).2.2
  have bx1 := b1 (-M) (fun w hw => (m1 w hw).1)
  have bx2 := b2 M (fun w hw => ⟨(m1 w hw).2, (m2 w hw).2⟩)
  have by1 := b3 (-M) (fun w hw => ⟨(m2 w hw).1, (m3 w hw).1⟩)
  have bz2 := b4 M (fun w hw => (m3 w hw).2)
  have hbig : (2 : ℚ) ^ 120 + 2 ^ 120 ≤ 2 ^ 127 := by norm_num
  have key : ∀ {q : Nat} {x mn mx : Val b32}, q < 64 → 32 ≤ q → isFinite x = true → isFinite mn = true → isFinite mx = true →
      valueOf mn ≤ valueOf x → valueOf x ≤ valueOf mx → -M ≤ valueOf mn → valueOf mx ≤ M →
      Within (M / 2 ^ 19 + 1 / 2 ^ 148) mn
        (coordOfCode (ops lib) (coordCode (ops lib) x mn (sizeOf mn mx) (2 ^ (q % 32) - 1) % 2 ^ q) q mn mx) := by
    intro q x mn mx hq hq' hx hmn hmx h0 h1 ha hb
    rw [coordOfCode, coordCode, ops_add lib, ops_mul lib, ops_div lib, ops_ofNat lib, ops_sub lib, ops_toU64 lib]
    have hc : toU64 (mul (div (sub x mn) (sizeOf mn mx)) (ofNat (2 ^ (q % 32) - 1))) ≤ 2 ^ (q - 32) := by
      rw [show q % 32 = q - 32 by omega]
      exact code_small hq' hq (coord_unit hx hmn hmx h0 h1 (by linarith))
    exact coord_collapse hq' hq (mod_small hc) hmn hmx (le_trans h0 h1) (abs_le.mpr ⟨ha, by linarith⟩)
      (abs_le.mpr ⟨by linarith, hb⟩) hM2
  exact ⟨fun h => key hx h fx bf.minX bf.maxX hi.minX hi.maxX bx1 bx2.1,
    fun h => key hy h fy bf.minY bf.maxY hi.minY hi.maxY by1.1 bx2.2,
    fun h => key hz h fz bf.minZ bf.maxZ hi.minZ hi.maxZ by1.2 bz2⟩

theorem bits_prec40 (hlog : AccurateLog2 lib) :
    vertexBits lib ⟨vZero, vFive, vZero, vFive, vZero, nine64⟩ prec40 vOne = (43, 43, 43) := by
  rw [vertexBits, bits_clear hlog] <;> decide +kernel

/-- The second of three vertices, (5, 1, 9/64), comes back at the origin. -/
example (hlog : AccurateLog2 lib) (fb : F64Bytes (ops lib)) : ∃ bytes v0 v1 v2,
    saveVertices (ops lib) fb .wrapping [(vZero, vZero, vZero), (vFive, vOne, nine64), (vOne, vFive, vZero)] prec40 vOne = .ok bytes ∧
    readVertices (ops lib) fb bytes = .ok [v0, v1, v2] ∧
    |valueOf v1.1| ≤ 1 / 2 ^ 16 ∧ |valueOf v1.2.1| ≤ 1 / 2 ^ 16 ∧ |valueOf v1.2.2| ≤ 1 / 2 ^ 16 := by
  have hb : vertexBox (ops lib) [(vZero, vZero, vZero), (vFive, vOne, nine64), (vOne, vFive, vZero)] =
      .ok ⟨vZero, vFive, vZero, vFive, vZero, nine64⟩ := by rw [vertexBox_ops, box_example]
  have hp : VBox.precs (ops lib) ⟨vZero, vFive, vZero, vFive, vZero, nine64⟩ prec40 vOne = (43, 43, 43) := by
    rw [precs_ops lib, bits_prec40 lib hlog]
  obtain ⟨bytes, l', hw, hr, h, hin⟩ := C37_collapse_violated lib (fb := fb) (M := 5) hb (precision := prec40) (edge := vOne)
    (by show 3 ≤ 2 ^ 31; decide)
    (fun v hv => by
      simp only [List.mem_cons, List.not_mem_nil, or_false] at hv
      rcases hv with rfl | rfl | rfl <;> exact ⟨rfl, rfl, rfl⟩)
    (fun v hv => by
      simp only [List.mem_cons, List.not_mem_nil, or_false] at hv
      rcases hv with rfl | rfl | rfl <;> dsimp only <;>
        simp only [valueOf_vZero, valueOf_vOne, valueOf_vFive, valueOf_nine64] <;> norm_num)
    (by norm_num) (by rw [hp]; decide) (by rw [hp]; decide) (by rw [hp]; decide)
  rw [hp] at h
  have hi := hin (vFive, vOne, nine64) (by simp)
  cases h with
  | cons _ h =>
  cases h with
  | cons h1 h =>
  cases h with
  | cons _ h =>
  cases h
  obtain ⟨⟨-, x⟩, ⟨-, y⟩, -, z⟩ := (h1 hi).imp (· (by decide)) (And.imp (· (by decide)) (· (by decide)))
  simp only [valueOf_vZero, sub_zero] at x y z
  have e : (5 : ℚ) / 2 ^ 19 + 1 / 2 ^ 148 ≤ 1 / 2 ^ 16 := by norm_num
  exact ⟨bytes, _, _, _, hw, hr, le_trans x e, le_trans y e, le_trans z e⟩

/-! ### C38 -/

theorem normalCode_small (hlib : AccurateLibm lib) {p : Nat} (h1 : 32 ≤ p) (h2 : p < 64) {n : Vec3 (Val b32)} (hn : UnitNormal n)
    (hQ : 1 / 2 ^ 40 ≤ valueOf n.1 ^ 2 + valueOf n.2.1 ^ 2) :
    (normalCode (ops lib) (2 ^ (p - 32) - 1) n).asine ≤ 2 ^ (p - 32) ∧ (normalCode (ops lib) (2 ^ (p - 32) - 1) n).z ≤ 2 ^ (p - 32) := by
  obtain ⟨⟨hx, hy, hz⟩, hu, hz1⟩ := hn
  obtain ⟨fz, vz⟩ := abs_fin_value hz
  have zu : UnitValue (abs n.2.2) := ⟨fz, by rw [vz]; exact abs_nonneg _, by rw [vz]; exact hz1⟩
  rw [AlmostUnit] at hu
  have hQle : valueOf n.1 ^ 2 + valueOf n.2.1 ^ 2 ≤ 81 / 64 := by
    rw [abs_le] at hu
    have := hu.2
    norm_num at this
    linarith [sq_nonneg (valueOf n.2.2)]
  have bx : |valueOf n.1| ≤ 9 / 8 := by
    refine abs_le_of_sq_le_sq ?_ (by norm_num)
    linarith [sq_nonneg (valueOf n.2.1)]
  have by' : |valueOf n.2.1| ≤ 9 / 8 := by
    refine abs_le_of_sq_le_sq ?_ (by norm_num)
    linarith [sq_nonneg (valueOf n.1)]
  have au := angleFrac_unit hlib hx hy bx by' hQ
  rw [normalCode]
  dsimp only
  constructor
  · have := code_small h1 h2 au
    rw [angleFrac, ← halfPi_eq] at this
    exact this
  · exact code_small h1 h2 zu

theorem normalBy_along (hlib : AccurateLibm lib) {p : Nat} (h1 : 32 ≤ p) (h2 : p < 64) {n : Vec3 (Val b32)} (hn : UnitNormal n)
    (hQ : 1 / 2 ^ 40 ≤ valueOf n.1 ^ 2 + valueOf n.2.1 ^ 2) : AlongY (normalBy (ops lib) (2 ^ (p - 32) - 1) p n) := by
  obtain ⟨ha, hz⟩ := normalCode_small lib hlib h1 h2 hn hQ
  rw [normalBy]
  obtain ⟨x, y⟩ := normal_collapse hlib h1 h2
    (c := ⟨(normalCode (ops lib) (2 ^ (p - 32) - 1) n).asine % 2 ^ p, (normalCode (ops lib) (2 ^ (p - 32) - 1) n).z % 2 ^ p,
      (normalCode (ops lib) (2 ^ (p - 32) - 1) n).sx, (normalCode (ops lib) (2 ^ (p - 32) - 1) n).sy,
      (normalCode (ops lib) (2 ^ (p - 32) - 1) n).sz⟩) (mod_small ha) (mod_small hz)
  exact ⟨x, y, normal_collapse_z h1 h2 (mod_small hz)⟩

/-- C38 is false with 32 to 63 bits, in a build without overflow checks: every normal that is not along the z axis
comes back along the y axis. -/
theorem C38_collapse_violated (hlib : AccurateLibm lib) {l : List (Vec3 (Val b32))} {p : Nat} (h1 : 32 ≤ p) (h2 : p < 64)
    (hl : l.length ≤ 2 ^ 31) (hn : ∀ n ∈ l, UnitNormal n)
    (hQ : ∀ n ∈ l, 1 / 2 ^ 40 ≤ valueOf n.1 ^ 2 + valueOf n.2.1 ^ 2) :
    ∃ bytes l', saveNormals (ops lib) .wrapping l p = .ok bytes ∧ readNormals (ops lib) bytes = .ok l' ∧
      l'.length = l.length ∧ ∀ w ∈ l', AlongY w := by
  obtain ⟨bytes, l', hs, hr, hlen, ha, hb⟩ := readNormals_by (fo := ops lib) (l := l) (mulI32_wrapping h1 h2) h2 hl
  refine ⟨bytes, l', hs, hr, hlen, fun w hw => ?_⟩
  by_cases h32 : p = 32
  · obtain ⟨sx, sy, sz, rfl⟩ := hb h32 w hw
    obtain ⟨x, y⟩ := normal_collapse hlib (p := 32) (c := ⟨0, 0, sx, sy, sz⟩) (by decide) (by decide) (Nat.zero_le _) (Nat.zero_le _)
    exact ⟨x, y, normal_collapse_z (p := 32) (by decide) (by decide) (Nat.zero_le _)⟩
  · rw [ha h32] at hw
    obtain ⟨n, hm, rfl⟩ := List.mem_map.mp hw
    exact normalBy_along lib hlib h1 h2 (hn n hm) (hQ n hm)

/-- The same for tangents. -/
theorem C38_tangents_collapse_violated (hlib : AccurateLibm lib) {l : List (Tangent (Val b32))} {p : Nat} (h1 : 32 ≤ p) (h2 : p < 64)
    (hl : l.length ≤ 2 ^ 31) (hn : ∀ t ∈ l, UnitNormal t.1)
    (hQ : ∀ t ∈ l, 1 / 2 ^ 40 ≤ valueOf t.1.1 ^ 2 + valueOf t.1.2.1 ^ 2) :
    ∃ bytes l', saveTangents (ops lib) .wrapping l p = .ok bytes ∧ readTangents (ops lib) bytes = .ok l' ∧
      l'.length = l.length ∧ ∀ t ∈ l', AlongY t.1 := by
  obtain ⟨bytes, hs, hr⟩ := readTangents_by (fo := ops lib) (l := l) (mulI32_wrapping h1 h2) h2 hl
  refine ⟨bytes, _, hs, hr, List.length_map _, fun w hw => ?_⟩
  obtain ⟨t, hm, rfl⟩ := List.mem_map.mp hw
  exact normalBy_along lib hlib h1 h2 (hn t hm) (hQ t hm)

theorem off_example : 1 / 2 ^ 40 ≤ valueOf minusThreeFifths ^ 2 + valueOf vZero ^ 2 := by
  rw [valueOf_minusThreeFifths, valueOf_vZero]
  norm_num

/-- The normal (-3/5, 0, 4/5) comes back along the y axis. -/
example : ∃ lib, ∃ bytes w, saveNormals (ops lib) .wrapping [(minusThreeFifths, vZero, fourFifths)] 36 = .ok bytes ∧
    readNormals (ops lib) bytes = .ok [w] ∧ AlongY w := by
  obtain ⟨bytes, l', hs, hr, hlen, h⟩ := C38_collapse_violated someLibm someLibm_accurate
    (l := [(minusThreeFifths, vZero, fourFifths)]) (p := 36) (by decide) (by decide) (by show 1 ≤ 2 ^ 31; decide)
    (fun n h => by rw [List.mem_singleton] at h; subst h; exact unit_example)
    (fun n h => by rw [List.mem_singleton] at h; subst h; exact off_example)
  obtain ⟨w, rfl⟩ := List.length_eq_one_iff.mp hlen
  exact ⟨someLibm, bytes, w, hs, hr, h w List.mem_cons_self⟩

example : ∃ lib, ∃ bytes w, saveTangents (ops lib) .wrapping [((minusThreeFifths, vZero, fourFifths), vOne)] 32 = .ok bytes ∧
    readTangents (ops lib) bytes = .ok [w] ∧ AlongY w.1 := by
  obtain ⟨bytes, l', hs, hr, hlen, h⟩ := C38_tangents_collapse_violated someLibm someLibm_accurate
    (l := [((minusThreeFifths, vZero, fourFifths), vOne)]) (p := 32) (by decide) (by decide) (by show 1 ≤ 2 ^ 31; decide)
    (fun n h => by rw [List.mem_singleton] at h; subst h; exact unit_example)
    (fun n h => by rw [List.mem_singleton] at h; subst h; exact off_example)
  obtain ⟨w, rfl⟩ := List.length_eq_one_iff.mp hlen
  exact ⟨someLibm, bytes, w, hs, hr, h w List.mem_cons_self⟩

end Tmf.Props
