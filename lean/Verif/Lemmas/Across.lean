import Verif.Lemmas.DoubleOps
import Verif.Lemmas.FastFile
import Verif.Lemmas.Loaded
import Verif.Spec.Across
/-
Reading one file with and without the feature `double_precision`.
-/

set_option exponentiation.threshold 2000

namespace Tmf
open Ieee Spec
open Ieee.Double (f64Le64)

/-! ### Codes as numbers -/

theorem rnd_nat_error {f : Fmt} (hp : 0 < f.prec) (c : Nat) : |rnd f c - c| ≤ c / 2 ^ f.prec := by
  have := rnd_error_units (f := f) hp (v := (c : ℚ)) (k := ((c * 2 ^ f.scale : Nat) : ℤ)) (by push_cast; ring)
  rwa [abs_of_nonneg (Nat.cast_nonneg (α := ℚ) c)] at this

/-- A quotient of rounded integers. -/
theorem quot_error {c m C M e : ℚ} (he : 0 ≤ e) (he1 : e ≤ 1 / 2 ^ 24) (hc : 0 ≤ c) (hcm : c ≤ m) (hm : 1 ≤ m)
    (hC : |C - c| ≤ e * c) (hM : |M - m| ≤ e * m) : |C / M - c / m| ≤ 2 * e * (1 + 1 / 2 ^ 23) := by
  have hm0 : 0 < m := by linarith
  have hMl : m * (1 - e) ≤ M := by have := (abs_le.mp hM).1; linarith
  have he2 : (1 : ℚ) - 1 / 2 ^ 24 ≤ 1 - e := by linarith
  have hM0 : 0 < M := by
    refine lt_of_lt_of_le (mul_pos hm0 ?_) hMl
    refine lt_of_lt_of_le ?_ he2
    norm_num
  have h1 : C / M - c / m = ((C - c) * m - c * (M - m)) / (M * m) := by field_simp; ring
  have h2 : |(C - c) * m - c * (M - m)| ≤ 2 * e * (m * m) := by
    have a1 : |(C - c) * m| ≤ e * c * m := by rw [abs_mul, abs_of_pos hm0]; exact mul_le_mul_of_nonneg_right hC hm0.le
    have a2 : |c * (M - m)| ≤ c * (e * m) := by rw [abs_mul, abs_of_nonneg hc]; exact mul_le_mul_of_nonneg_left hM hc
    have a3 : e * c * m ≤ e * m * m := by
      refine mul_le_mul_of_nonneg_right (mul_le_mul_of_nonneg_left hcm he) hm0.le
    have := abs_sub ((C - c) * m) (c * (M - m))
    nlinarith
  rw [h1, abs_div, abs_of_pos (mul_pos hM0 hm0), div_le_iff₀ (mul_pos hM0 hm0)]
  refine le_trans h2 ?_
  have h3 : m ≤ (1 + 1 / 2 ^ 23) * M := by
    have : m * (1 - 1 / 2 ^ 24) ≤ M := le_trans (mul_le_mul_of_nonneg_left he2 hm0.le) hMl
    norm_num at this ⊢
    linarith
  have h4 : m * m ≤ (1 + 1 / 2 ^ 23) * M * m := mul_le_mul_of_nonneg_right h3 hm0.le
  calc 2 * e * (m * m) ≤ 2 * e * ((1 + 1 / 2 ^ 23) * M * m) := mul_le_mul_of_nonneg_left h4 (by linarith)
    _ = 2 * e * (1 + 1 / 2 ^ 23) * (M * m) := by ring

theorem quot_near {f : Fmt} (hp : 24 ≤ f.prec) (hs : 149 ≤ f.scale) (hmax : 2 ≤ maxV f) {c m : Nat} (hm : 1 ≤ m) (hcm : c ≤ m)
    {C M : Val f} (hC : isFinite C = true ∧ valueOf C = rnd f c) (hM : isFinite M = true ∧ valueOf M = rnd f m) :
    isFinite (div C M) = true ∧ |valueOf (div C M) - (c : ℚ) / m| ≤ 3 / 2 ^ f.prec + 1 / 2 ^ 40 := by
  obtain ⟨cf, cv⟩ := hC
  obtain ⟨mf, mv⟩ := hM
  have hp0 : 0 < f.prec := by omega
  have he0 : (0 : ℚ) ≤ 1 / 2 ^ f.prec := by positivity
  have he1 : (1 : ℚ) / 2 ^ f.prec ≤ 1 / 2 ^ 24 :=
    one_div_le_one_div_of_le (by positivity) (pow_le_pow_right₀ (by norm_num) hp)
  have hm1 : (1 : ℚ) ≤ m := by exact_mod_cast hm
  have hcq : (c : ℚ) ≤ m := by exact_mod_cast hcm
  have eC : |valueOf C - c| ≤ 1 / 2 ^ f.prec * c := by
    rw [cv]; refine le_trans (rnd_nat_error hp0 c) (le_of_eq ?_); ring
  have eM : |valueOf M - m| ≤ 1 / 2 ^ f.prec * m := by
    rw [mv]; refine le_trans (rnd_nat_error hp0 m) (le_of_eq ?_); ring
  have q := quot_error he0 he1 (Nat.cast_nonneg c) hcq hm1 eC eM
  have hM0 : 0 < valueOf M := by
    have := (abs_le.mp eM).1
    have h2 : 1 / 2 ^ f.prec * (m : ℚ) ≤ 1 / 2 ^ 24 * m := mul_le_mul_of_nonneg_right he1 (by linarith)
    have h3 : (1 : ℚ) / 2 ^ 24 * m ≤ 1 / 2 * m := mul_le_mul_of_nonneg_right (by norm_num) (by linarith)
    generalize (1 : ℚ) / 2 ^ f.prec * m = z at *
    linarith
  have q0 : 0 ≤ (c : ℚ) / m := div_nonneg (Nat.cast_nonneg c) (by linarith)
  have q1 : (c : ℚ) / m ≤ 1 := (div_le_one (by linarith)).mpr hcq
  have hcmV : valueOf C ≤ valueOf M := by rw [cv, mv]; exact rnd_mono hp0 hcq
  have hC0 : 0 ≤ valueOf C := by rw [cv]; exact rnd_nonneg (Nat.cast_nonneg c)
  have d0 : 0 ≤ valueOf C / valueOf M := div_nonneg hC0 hM0.le
  have d1 : valueOf C / valueOf M ≤ 1 := (div_le_one hM0).mpr hcmV
  obtain ⟨df, dv⟩ := div_value (f := f) hp0 cf mf hM0.ne' (by rw [abs_of_nonneg d0]; linarith)
  refine ⟨df, ?_⟩
  rw [dv]
  have r := rnd_error (f := f) hp0 (valueOf C / valueOf M)
  rw [abs_of_nonneg d0] at r
  have r2 : valueOf C / valueOf M / 2 ^ f.prec ≤ 1 / 2 ^ f.prec := div_le_div_of_nonneg_right d1 (by positivity)
  have r3 : (1 : ℚ) / 2 ^ (f.scale + 1) ≤ 1 / 2 ^ 150 :=
    one_div_le_one_div_of_le (by positivity) (pow_le_pow_right₀ (by norm_num) (by omega))
  have tri := abs_add_le (rnd f (valueOf C / valueOf M) - valueOf C / valueOf M) (valueOf C / valueOf M - (c : ℚ) / m)
  rw [sub_add_sub_cancel] at tri
  have e3 : (3 : ℚ) / 2 ^ f.prec = 3 * (1 / 2 ^ f.prec) := by ring
  rw [e3]
  generalize (1 : ℚ) / 2 ^ f.prec = e at *
  norm_num at *
  linarith

/-- The number for the code `c` of `p` bits, in both precisions. -/
theorem code_near {p c : Nat} (hp1 : 1 ≤ p) (hp : p < 64) (hc : c < 2 ^ p) :
    NearValue (div (ofNat c) (ofNat (2 ^ p - 1))) (div (ofNat c) (ofNat (2 ^ p - 1))) := by
  have h64 : 2 ^ p ≤ 2 ^ 63 := Nat.pow_le_pow_right (by decide) (by omega)
  have h2 : 2 ^ 1 ≤ 2 ^ p := Nat.pow_le_pow_right (by decide) hp1
  have a := quot_near (f := b32) (by decide) (by decide) (le_trans (by norm_num) maxV32) (c := c) (m := 2 ^ p - 1) (by omega) (by omega)
    (ofNat_rnd (by omega)) (ofNat_rnd (by omega))
  have b := quot_near (f := b64) (by decide) (by decide) (le_trans (by norm_num) maxV64) (c := c) (m := 2 ^ p - 1) (by omega) (by omega)
    (ofNat_rnd64 (by omega)) (ofNat_rnd64 (by omega))
  refine ⟨⟨a.1, b.1⟩, ?_⟩
  have ha := a.2
  have hb := b.2
  rw [show b32.prec = 24 from rfl] at ha
  rw [show b64.prec = 53 from rfl] at hb
  rw [abs_le] at ha hb ⊢
  norm_num at *
  constructor <;> linarith [ha.1, ha.2, hb.1, hb.2]

theorem Spec.NearValue.neg {x : Val b32} {y : Val b64} (h : NearValue x y) : NearValue (neg x) (neg y) := by
  refine ⟨⟨(neg_value x).1.trans h.finite.1, (neg_value y).1.trans h.finite.2⟩, ?_⟩
  rw [(neg_value x).2, (neg_value y).2, ← neg_sub', abs_neg]
  exact h.near

theorem one32_value : isFinite (lit 1 0 : Val b32) = true ∧ valueOf (lit 1 0 : Val b32) = 1 := by
  have h : (lit 1 0 : Val b32) = ofNat 1 := by decide +kernel
  have := ofNat_value (c := 1) (by decide)
  rw [h]
  exact ⟨this.1, this.2.trans Nat.cast_one⟩

theorem one64_value : isFinite (lit 1 0 : Val b64) = true ∧ valueOf (lit 1 0 : Val b64) = 1 := by
  have h : (lit 1 0 : Val b64) = ofNat 1 := by decide +kernel
  have := ofNat_value64 (c := 1) (by decide)
  rw [h]
  exact ⟨this.1, this.2.trans Nat.cast_one⟩

theorem zero32_value : isFinite (lit 0 0 : Val b32) = true ∧ valueOf (lit 0 0 : Val b32) = 0 := by
  have h : (lit 0 0 : Val b32) = ofNat 0 := by decide +kernel
  have := ofNat_value (c := 0) (by decide)
  rw [h]
  exact ⟨this.1, this.2.trans Nat.cast_zero⟩

theorem zero64_value : isFinite (lit 0 0 : Val b64) = true ∧ valueOf (lit 0 0 : Val b64) = 0 := by
  have h : (lit 0 0 : Val b64) = ofNat 0 := by decide +kernel
  have := ofNat_value64 (c := 0) (by decide)
  rw [h]
  exact ⟨this.1, this.2.trans Nat.cast_zero⟩

theorem near_of_value {x : Val b32} {y : Val b64} {v : ℚ} (hx : isFinite x = true ∧ valueOf x = v) (hy : isFinite y = true ∧ valueOf y = v) :
    NearValue x y := ⟨⟨hx.1, hy.1⟩, by rw [hx.2, hy.2, sub_self, abs_zero]; norm_num⟩

seal lit in
theorem zero_near (lib : Libm) (lib' : Libm64) : NearValue (FloatOps.zero (ops lib)) (FloatOps.zero (ops64 lib')) :=
  near_of_value zero32_value zero64_value

seal lit in
theorem one_near (lib : Libm) (lib' : Libm64) : NearValue (FloatOps.one (ops lib)) (FloatOps.one (ops64 lib')) :=
  near_of_value one32_value one64_value

/-! ### Readers -/

theorem ProgRel.runSlice {α β : Type} {R : α → β → Prop} {p : Prog α} {q : Prog β} (h : ProgRel R p q) : ∀ l : List UInt8,
    Both (fun x y => R x.1 y.1 ∧ x.2 = y.2) (p.runSlice l) (q.runSlice l) := by
  induction h with
  | ret h => exact fun s => .ok ⟨h, rfl⟩
  | fail => exact fun s => .err
  | panic => exact fun s => .panic
  | @readExact n _ _ _ ih =>
    intro l
    rw [Prog.runSlice, Prog.runSlice]
    split
    · exact ih _ _
    · exact .err

section
variable (lib : Libm) (lib' : Libm64)

seal lit in
theorem readUvs_across (bytes : List UInt8) :
    Both (List.Forall₂ fun u u' => NearValue u.1 u'.1 ∧ NearValue u.2 u'.2) (readUvs (ops lib) bytes) (readUvs (ops64 lib') bytes) := by
  rw [readUvs, readUvs]
  refine (Both.refl (R := Eq) _ fun _ _ => rfl).bind fun a c hac => ?_
  subst hac
  obtain ⟨⟨p, n⟩, rest⟩ := a
  dsimp only
  split_ifs with h0 h64
  · refine .ok ?_
    have hz := zero_near lib lib'
    induction n with
    | zero => exact .nil
    | succ n ih => exact .cons ⟨hz, hz⟩ ih
  · exact .err
  · refine (Both.many (R := fun u u' => NearValue u.1 u'.1 ∧ NearValue u.2 u'.2) (fun r hr => ?_) n _ (BitReader.inv_new _)).bind
      fun l l' hl => .ok hl.1
    rw [readUv, readUv]
    refine (Both.step (BitReader.read2_lt hr _)).bind fun a c hac => ?_
    obtain ⟨rfl, hc, hr⟩ := hac
    exact .ok ⟨⟨code_near (by omega) (by omega) hc.1, code_near (by omega) (by omega) hc.2⟩, rfl, hr⟩

theorem sign_near (s : Bool) {x : Val b32} {y : Val b64} (h : NearValue x y) :
    NearValue (withSign (ops lib) s x) (withSign (ops64 lib') s y) := by
  cases s
  · exact h
  · exact h.neg

seal lit in
theorem fromEncoding_across {p : Nat} (hp : p < 64) {c : NormalCode} (hc : c.z < 2 ^ p) :
    NearValue (normalFromEncoding (ops lib) p c).2.2 (normalFromEncoding (ops64 lib') p c).2.2 := by
  rw [normalFromEncoding, normalFromEncoding]
  by_cases h0 : p = 0
  · rw [if_pos h0, if_pos h0]
    have h1 := one_near lib lib'
    dsimp only
    cases c.sz
    · exact h1
    · exact h1.neg
  · rw [if_neg h0, if_neg h0]
    exact sign_near lib lib' _ (code_near (by omega) hp hc)

theorem readNormals_across (bytes : List UInt8) :
    Both (List.Forall₂ fun n n' => NearValue n.2.2 n'.2.2) (readNormals (ops lib) bytes) (readNormals (ops64 lib') bytes) := by
  rw [readNormals, readNormals]
  refine (Both.refl (R := fun a c => a = c ∧ readNormalsHeader.runSlice bytes = .ok a) _ fun a ha => ⟨rfl, ha⟩).bind fun a c hac => ?_
  obtain ⟨rfl, ha⟩ := hac
  obtain ⟨⟨n, p⟩, rest⟩ := a
  have hp := (readNormalsHeader_inv ha).1
  refine (Both.many (R := fun (n : Vec3 (Val b32)) (n' : Vec3 (Val b64)) => NearValue n.2.2 n'.2.2) (fun r hr => ?_) n _
    (BitReader.inv_new _)).bind fun l l' hl => .ok hl.1
  rw [readNormal, readNormal]
  refine (Both.step (BitReader.readBit_good hr)).bind fun a c hac => ?_
  obtain ⟨rfl, -, hr⟩ := hac
  refine (Both.step (BitReader.readBit_good hr)).bind fun a c hac => ?_
  obtain ⟨rfl, -, hr⟩ := hac
  refine (Both.step (BitReader.readBit_good hr)).bind fun a c hac => ?_
  obtain ⟨rfl, -, hr⟩ := hac
  refine (Both.step (BitReader.read2_lt hr _)).bind fun a c hac => ?_
  obtain ⟨rfl, hc, hr⟩ := hac
  exact .ok ⟨fromEncoding_across lib lib' hp hc.2, rfl, hr⟩

seal lit in
theorem htFromBool_across (s : Bool) : valueOf (htFromBool (ops lib) s) = valueOf (htFromBool (ops64 lib') s) := by
  cases s
  · exact one32_value.2.trans one64_value.2.symm
  · exact ((neg_value _).2.trans (congrArg _ (one32_value.2.trans one64_value.2.symm))).trans (neg_value _).2.symm

theorem readTangents_across (bytes : List UInt8) :
    Both (List.Forall₂ fun t t' => NearValue t.1.2.2 t'.1.2.2 ∧ valueOf t.2 = valueOf t'.2) (readTangents (ops lib) bytes)
      (readTangents (ops64 lib') bytes) := by
  rw [readTangents, readTangents]
  refine (Both.refl (R := fun a c => a = c ∧ readNormalsHeader.runSlice bytes = .ok a) _ fun a ha => ⟨rfl, ha⟩).bind fun a c hac => ?_
  obtain ⟨rfl, ha⟩ := hac
  obtain ⟨⟨n, p⟩, rest⟩ := a
  have hp := (readNormalsHeader_inv ha).1
  refine (Both.many (R := fun (t : Tangent (Val b32)) (t' : Tangent (Val b64)) => NearValue t.1.2.2 t'.1.2.2 ∧ valueOf t.2 = valueOf t'.2)
    (fun r hr => ?_) n _ (BitReader.inv_new _)).bind fun l l' hl => .ok hl.1
  rw [readTangent, readTangent]
  refine (Both.step (BitReader.readBit_good hr)).bind fun a c hac => ?_
  obtain ⟨rfl, -, hr⟩ := hac
  refine (Both.step (BitReader.readBit_good hr)).bind fun a c hac => ?_
  obtain ⟨rfl, -, hr⟩ := hac
  refine (Both.step (BitReader.readBit_good hr)).bind fun a c hac => ?_
  obtain ⟨rfl, -, hr⟩ := hac
  refine (Both.step (BitReader.readBit_good hr)).bind fun a c hac => ?_
  obtain ⟨rfl, -, hr⟩ := hac
  refine (Both.step (BitReader.read_lt hr _)).bind fun a c hac => ?_
  obtain ⟨rfl, h1, hr⟩ := hac
  refine (Both.step (BitReader.read_lt hr _)).bind fun a c hac => ?_
  obtain ⟨rfl, h2, hr⟩ := hac
  exact .ok ⟨⟨fromEncoding_across lib lib' hp h2, htFromBool_across lib lib' _⟩, rfl, hr⟩

theorem readVerticesHeader_across :
    ProgRel (fun x y => x.1 = y.1 ∧ x.2.2 = y.2.2) (readVerticesHeader (ops lib) (f64Le lib)) (readVerticesHeader (ops64 lib') (f64Le64 lib')) := by
  rw [readVerticesHeader, readVerticesHeader]
  refine ProgRel.same _ fun count => ?_
  refine ProgRel.same (readF64 (f64Le lib)) fun _ => ProgRel.same (readF64 (f64Le lib)) fun _ => ProgRel.same (readF64 (f64Le lib)) fun _ =>
    ProgRel.same (readF64 (f64Le lib)) fun _ => ProgRel.same (readF64 (f64Le lib)) fun _ => ProgRel.same (readF64 (f64Le lib)) fun _ => ?_
  refine ProgRel.same _ fun px => ProgRel.same _ fun py => ProgRel.same _ fun pz => ?_
  dsimp only
  split_ifs
  · exact .fail
  · exact .ret ⟨rfl, rfl⟩

theorem readVertices_across (bytes : List UInt8) :
    Both (List.Forall₂ fun _ _ => True) (readVertices (ops lib) (f64Le lib) bytes) (readVertices (ops64 lib') (f64Le64 lib') bytes) := by
  rw [readVertices, readVertices]
  refine ((readVerticesHeader_across lib lib').runSlice bytes).bind fun a c hac => ?_
  obtain ⟨⟨n, s, p⟩, rest⟩ := a
  obtain ⟨⟨n', s', p'⟩, rest'⟩ := c
  obtain ⟨⟨e1, e2⟩, e3⟩ := hac
  dsimp only at e1 e2 e3
  subst e1 e2 e3
  refine (Both.many (R := fun (_ : Vec3 (Val b32)) (_ : Vec3 (Val b64)) => True) (fun r hr => ?_) n _ (BitReader.inv_new _)).bind
    fun l l' hl => .ok hl.1
  rw [readVertex, readVertex]
  refine (Both.step (BitReader.read_lt hr _)).bind fun a c hac => ?_
  obtain ⟨rfl, -, hr⟩ := hac
  refine (Both.step (BitReader.read_lt hr _)).bind fun a c hac => ?_
  obtain ⟨rfl, -, hr⟩ := hac
  refine (Both.step (BitReader.read_lt hr _)).bind fun a c hac => ?_
  obtain ⟨rfl, -, hr⟩ := hac
  exact .ok ⟨trivial, rfl, hr⟩

theorem map_of_forall₂ {α β : Type} {g : β → α} {l : List α} {l' : List β} (h : List.Forall₂ (fun x y => x = g y) l l') : l = l'.map g := by
  induction h with
  | nil => rfl
  | cons h _ ih => rw [List.map_cons, ← ih, ← h]

theorem floatOfCode_across (mn mx : Val b64) (p c : Nat) :
    floatOfCode (ops lib) mn mx p c = convert (floatOfCode (ops64 lib') mn mx p c) := by
  rw [floatOfCode, floatOfCode]

theorem channelOfCode_across (d c : Nat) : channelOfCode (ops lib) d c = convert (channelOfCode (ops64 lib') d c) := by
  rw [channelOfCode, channelOfCode]

theorem readFloats_across (bytes : List UInt8) :
    Both AcrossCustom (readFloats (ops lib) (f64Le lib) bytes) (readFloats (ops64 lib') (f64Le64 lib') bytes) := by
  rw [readFloats, readFloats]
  refine (Both.refl (R := Eq) ((readFloatsHeader (f64Le lib)).runSlice bytes) fun _ _ => rfl).bind fun a c hac => ?_
  subst hac
  obtain ⟨⟨n, mn, mx, p⟩, rest⟩ := a
  refine (Both.many (R := fun (x : Val b32) (y : Val b64) => x = convert y) (fun r hr => ?_) n _ (BitReader.inv_new _)).bind fun l l' hl => ?_
  · rw [readFloat, readFloat]
    refine (Both.step (BitReader.read_lt hr _)).bind fun a c hac => ?_
    obtain ⟨rfl, -, hr⟩ := hac
    exact .ok ⟨floatOfCode_across lib lib' _ _ _ _, rfl, hr⟩
  · obtain ⟨l, r⟩ := l
    obtain ⟨l', r'⟩ := l'
    obtain rfl := map_of_forall₂ hl.1
    exact .ok (.float _ _ _)

theorem readColors_across (b : Build) (bytes : List UInt8) :
    Both AcrossCustom (readColors (ops lib) b bytes) (readColors (ops64 lib') b bytes) := by
  rw [readColors, readColors]
  refine (Both.refl (R := Eq) _ fun _ _ => rfl).bind fun a c hac => ?_
  subst hac
  obtain ⟨⟨n, p⟩, rest⟩ := a
  dsimp only
  split_ifs
  · exact .panic
  refine (Both.refl (R := Eq) _ fun _ _ => rfl).bind fun a c hac => ?_
  subst hac
  refine (Both.many (R := fun (x : Vec4 (Val b32)) (y : Vec4 (Val b64)) => x = nearestColor y) (fun r hr => ?_) n _
    (BitReader.inv_new _)).bind fun l l' hl => ?_
  · rw [readColor, readColor]
    refine (Both.step (BitReader.read2_lt hr _)).bind fun a c hac => ?_
    obtain ⟨rfl, -, hr⟩ := hac
    refine (Both.step (BitReader.read2_lt hr _)).bind fun a c hac => ?_
    obtain ⟨rfl, -, hr⟩ := hac
    refine .ok ⟨?_, rfl, hr⟩
    dsimp only
    rw [nearestColor, channelOfCode_across lib lib', channelOfCode_across lib lib', channelOfCode_across lib lib',
      channelOfCode_across lib lib']
  · obtain ⟨l, r⟩ := l
    obtain ⟨l', r'⟩ := l'
    obtain rfl := map_of_forall₂ hl.1
    exact .ok (.color _ _ _)

theorem customRead_across (b : Build) (ctx : DecodeCtx) (kind : SectionType) (bytes : List UInt8) :
    Both (fun c c' => c.name = c'.name ∧ AcrossCustom c.data c'.data) (CustomSeg.read (ops lib) (f64Le lib) b ctx kind bytes)
      (CustomSeg.read (ops64 lib') (f64Le64 lib') b ctx kind bytes) := by
  rw [CustomSeg.read, CustomSeg.read]
  refine (Both.refl (R := Eq) _ fun _ _ => rfl).bind fun a c hac => ?_
  subst hac
  cases kind with
  | customIndex =>
    refine (Both.refl (R := Eq) _ fun _ _ => rfl).bind fun a c hac => ?_
    subst hac
    exact .ok ⟨rfl, .index _ _⟩
  | customInteger =>
    refine (Both.refl (R := Eq) _ fun _ _ => rfl).bind fun a c hac => ?_
    subst hac
    exact .ok ⟨rfl, .integer _ _⟩
  | customFloat => exact (readFloats_across lib lib' _).bind fun _ _ h => .ok ⟨rfl, h⟩
  | customColor => exact (readColors_across lib lib' b _).bind fun _ _ h => .ok ⟨rfl, h⟩
  | _ => exact .panic

/-! ### Segments and meshes -/

/-- Decoded segments of the two readers. -/
inductive AcrossSeg : DecodedSegment (Val b32) → DecodedSegment (Val b64) → Prop
  | nothing : AcrossSeg .nothing .nothing
  | vertex {l l'} (h : List.Forall₂ (fun _ _ => True) l l') : AcrossSeg (.vertex l) (.vertex l')
  | normal {l l'} (h : List.Forall₂ (fun n n' => NearValue n.2.2 n'.2.2) l l') : AcrossSeg (.normal l) (.normal l')
  | uv {l l'} (h : List.Forall₂ (fun u u' => NearValue u.1 u'.1 ∧ NearValue u.2 u'.2) l l') : AcrossSeg (.uv l) (.uv l')
  | tangent {l l'} (h : List.Forall₂ (fun t t' => NearValue t.1.2.2 t'.1.2.2 ∧ valueOf t.2 = valueOf t'.2) l l') :
      AcrossSeg (.tangent l) (.tangent l')
  | triVertex (l) : AcrossSeg (.triVertex l) (.triVertex l)
  | triNormal (l) : AcrossSeg (.triNormal l) (.triNormal l)
  | triUv (l) : AcrossSeg (.triUv l) (.triUv l)
  | triTangent (l) : AcrossSeg (.triTangent l) (.triTangent l)
  | shared (mask l) : AcrossSeg (.shared mask l) (.shared mask l)
  | custom {c c'} (h : c.name = c'.name ∧ AcrossCustom c.data c'.data) : AcrossSeg (.custom c) (.custom c')

theorem decodeShared_across (b : Build) (ctx : DecodeCtx) (seg : EncodedSegment) :
    Both AcrossSeg (decodeShared b ctx seg) (decodeShared b ctx seg) := by
  rw [decodeShared.eq_def, decodeShared.eq_def]
  cases seg.data with
  | nil => exact .err
  | cons mask rest =>
    cases seg.compression with
    | none =>
      refine (Both.refl (R := Eq) _ fun _ _ => rfl).bind fun a c hac => ?_
      subst hac
      exact .ok (.shared _ _)
    | _ => exact .err

theorem decode_across (b : Build) (ctx : DecodeCtx) (seg : EncodedSegment) :
    Both AcrossSeg (EncodedSegment.decode (ops lib) (f64Le lib) b ctx seg) (EncodedSegment.decode (ops64 lib') (f64Le64 lib') b ctx seg) := by
  have tri : ∀ {f : List Nat → DecodedSegment (Val b32)} {g : List Nat → DecodedSegment (Val b64)}, (∀ l, AcrossSeg (f l) (g l)) →
      Both AcrossSeg (decodeIndices b ctx seg >>= fun l => .ok (f l)) (decodeIndices b ctx seg >>= fun l => .ok (g l)) := by
    intro f g h
    refine (Both.refl (R := Eq) _ fun _ _ => rfl).bind fun a c hac => ?_
    subst hac
    exact .ok (h _)
  rw [EncodedSegment.decode.eq_def, EncodedSegment.decode.eq_def]
  cases seg.segType with
  | invalid => exact .ok .nothing
  | normal => exact (readNormals_across lib lib' _).bind fun l l' h => .ok (.normal h)
  | tangent => exact (readTangents_across lib lib' _).bind fun l l' h => .ok (.tangent h)
  | vertex => exact (readVertices_across lib lib' _).bind fun l l' h => .ok (.vertex h)
  | uv => exact (readUvs_across lib lib' _).bind fun l l' h => .ok (.uv h)
  | vertexTriangle => exact tri .triVertex
  | normalTriangle => exact tri .triNormal
  | uvTriangle => exact tri .triUv
  | tangentTriangle => exact tri .triTangent
  | customIndex => exact (customRead_across lib lib' b ctx _ _).bind fun _ _ h => .ok (.custom h)
  | customInteger => exact (customRead_across lib lib' b ctx _ _).bind fun _ _ h => .ok (.custom h)
  | customFloat => exact (customRead_across lib lib' b ctx _ _).bind fun _ _ h => .ok (.custom h)
  | customColor => exact (customRead_across lib lib' b ctx _ _).bind fun _ _ h => .ok (.custom h)
  | sharedTriangle => exact decodeShared_across b ctx seg

end

theorem vertices_across {m : Mesh (Val b32)} {m' : Mesh (Val b64)} (hm : AcrossMesh m m') (l : List Nat) :
    AcrossMesh (m.appendVertexTriangles l) (m'.appendVertexTriangles l) := by
  obtain ⟨n, nt, v, vt, u, ut, t, tt, c⟩ := m
  obtain ⟨n', nt', v', vt', u', ut', t', tt', c'⟩ := m'
  obtain ⟨h1, h2, h3, h4, hv, hu, hn, ht, hc⟩ := hm
  dsimp only at h1 h2 h3 h4 hv hu hn ht hc
  subst h1 h2 h3 h4
  cases vt <;> exact ⟨rfl, rfl, rfl, rfl, hv, hu, hn, ht, hc⟩

theorem normalTris_across {m : Mesh (Val b32)} {m' : Mesh (Val b64)} (hm : AcrossMesh m m') (l : List Nat) :
    AcrossMesh (m.appendNormalTriangles l) (m'.appendNormalTriangles l) := by
  obtain ⟨n, nt, v, vt, u, ut, t, tt, c⟩ := m
  obtain ⟨n', nt', v', vt', u', ut', t', tt', c'⟩ := m'
  obtain ⟨h1, h2, h3, h4, hv, hu, hn, ht, hc⟩ := hm
  dsimp only at h1 h2 h3 h4 hv hu hn ht hc
  subst h1 h2 h3 h4
  cases nt <;> exact ⟨rfl, rfl, rfl, rfl, hv, hu, hn, ht, hc⟩

theorem uvTris_across {m : Mesh (Val b32)} {m' : Mesh (Val b64)} (hm : AcrossMesh m m') (l : List Nat) :
    AcrossMesh (m.appendUvTriangles l) (m'.appendUvTriangles l) := by
  obtain ⟨n, nt, v, vt, u, ut, t, tt, c⟩ := m
  obtain ⟨n', nt', v', vt', u', ut', t', tt', c'⟩ := m'
  obtain ⟨h1, h2, h3, h4, hv, hu, hn, ht, hc⟩ := hm
  dsimp only at h1 h2 h3 h4 hv hu hn ht hc
  subst h1 h2 h3 h4
  cases ut <;> exact ⟨rfl, rfl, rfl, rfl, hv, hu, hn, ht, hc⟩

theorem apply_across {m : Mesh (Val b32)} {m' : Mesh (Val b64)} {s : DecodedSegment (Val b32)} {s' : DecodedSegment (Val b64)}
    (hm : AcrossMesh m m') (hs : AcrossSeg s s') : AcrossMesh (DecodedSegment.apply m s) (DecodedSegment.apply m' s') := by
  cases hs with
  | nothing => exact hm
  | triVertex l => exact vertices_across hm l
  | triNormal l => exact normalTris_across hm l
  | triUv l => exact uvTris_across hm l
  | shared mask l =>
    rw [DecodedSegment.apply, DecodedSegment.apply]
    have a : AcrossMesh (if DecodedSegment.hasVertex mask then m.appendVertexTriangles l else m)
        (if DecodedSegment.hasVertex mask then m'.appendVertexTriangles l else m') := by
      split_ifs
      · exact vertices_across hm l
      · exact hm
    generalize (if DecodedSegment.hasVertex mask then m.appendVertexTriangles l else m) = x at *
    generalize (if DecodedSegment.hasVertex mask then m'.appendVertexTriangles l else m') = x' at *
    have a : AcrossMesh (if DecodedSegment.hasNormal mask then x.appendNormalTriangles l else x)
        (if DecodedSegment.hasNormal mask then x'.appendNormalTriangles l else x') := by
      split_ifs
      · exact normalTris_across a l
      · exact a
    generalize (if DecodedSegment.hasNormal mask then x.appendNormalTriangles l else x) = y at *
    generalize (if DecodedSegment.hasNormal mask then x'.appendNormalTriangles l else x') = y' at *
    split_ifs
    · exact uvTris_across a l
    · exact a
  | triTangent l =>
    obtain ⟨n, nt, v, vt, u, ut, t, tt, c⟩ := m
    obtain ⟨n', nt', v', vt', u', ut', t', tt', c'⟩ := m'
    obtain ⟨h1, h2, h3, h4, hv, hu, hn, ht, hc⟩ := hm
    dsimp only at h1 h2 h3 h4 hv hu hn ht hc
    subst h1 h2 h3 h4
    cases tt <;> exact ⟨rfl, rfl, rfl, rfl, hv, hu, hn, ht, hc⟩
  | vertex hl =>
    obtain ⟨n, nt, v, vt, u, ut, t, tt, c⟩ := m
    obtain ⟨n', nt', v', vt', u', ut', t', tt', c'⟩ := m'
    obtain ⟨h1, h2, h3, h4, hv, hu, hn, ht, hc⟩ := hm
    cases v <;> cases v'
    · exact ⟨h1, h2, h3, h4, hl, hu, hn, ht, hc⟩
    · exact hv.elim
    · exact hv.elim
    · exact ⟨h1, h2, h3, h4, List.rel_append hv hl, hu, hn, ht, hc⟩
  | normal hl =>
    obtain ⟨n, nt, v, vt, u, ut, t, tt, c⟩ := m
    obtain ⟨n', nt', v', vt', u', ut', t', tt', c'⟩ := m'
    obtain ⟨h1, h2, h3, h4, hv, hu, hn, ht, hc⟩ := hm
    cases n <;> cases n'
    · exact ⟨h1, h2, h3, h4, hv, hu, hl, ht, hc⟩
    · exact hn.elim
    · exact hn.elim
    · exact ⟨h1, h2, h3, h4, hv, hu, List.rel_append hn hl, ht, hc⟩
  | uv hl =>
    obtain ⟨n, nt, v, vt, u, ut, t, tt, c⟩ := m
    obtain ⟨n', nt', v', vt', u', ut', t', tt', c'⟩ := m'
    obtain ⟨h1, h2, h3, h4, hv, hu, hn, ht, hc⟩ := hm
    cases u <;> cases u'
    · exact ⟨h1, h2, h3, h4, hv, hl, hn, ht, hc⟩
    · exact hu.elim
    · exact hu.elim
    · exact ⟨h1, h2, h3, h4, hv, List.rel_append hu hl, hn, ht, hc⟩
  | tangent hl =>
    obtain ⟨n, nt, v, vt, u, ut, t, tt, c⟩ := m
    obtain ⟨n', nt', v', vt', u', ut', t', tt', c'⟩ := m'
    obtain ⟨h1, h2, h3, h4, hv, hu, hn, ht, hc⟩ := hm
    cases t <;> cases t'
    · exact ⟨h1, h2, h3, h4, hv, hu, hn, hl, hc⟩
    · exact ht.elim
    · exact ht.elim
    · exact ⟨h1, h2, h3, h4, hv, hu, hn, List.rel_append ht hl, hc⟩
  | custom h =>
    obtain ⟨h1, h2, h3, h4, hv, hu, hn, ht, hc⟩ := hm
    exact ⟨h1, h2, h3, h4, hv, hu, hn, ht, List.rel_append hc (.cons h .nil)⟩

theorem foldl_across {l : List (DecodedSegment (Val b32))} {l' : List (DecodedSegment (Val b64))} (h : List.Forall₂ AcrossSeg l l') :
    ∀ {m : Mesh (Val b32)} {m' : Mesh (Val b64)}, AcrossMesh m m' →
    AcrossMesh (l.foldl DecodedSegment.apply m) (l'.foldl DecodedSegment.apply m') := by
  induction h with
  | nil => exact id
  | cons h _ ih => exact fun hm => ih (apply_across hm h)

theorem empty_across : AcrossMesh .empty .empty := ⟨rfl, rfl, rfl, rfl, trivial, trivial, trivial, trivial, .nil⟩

section
variable (lib : Libm) (lib' : Libm64)

theorem assembleMesh_across (b : Build) (ctx : DecodeCtx) (segs : List EncodedSegment) :
    Both AcrossMesh (assembleMesh (ops lib) (f64Le lib) b ctx segs) (assembleMesh (ops64 lib') (f64Le64 lib') b ctx segs) := by
  rw [assembleMesh, assembleMesh]
  refine (Both.collect ?_).bind fun l l' hl => .ok (foldl_across hl empty_across)
  induction segs with
  | nil => exact .nil
  | cons s segs ih => exact .cons (decode_across lib lib' b ctx s) ih

theorem importTmf_across (b : Build) :
    ProgRel (List.Forall₂ fun x y => AcrossMesh x.1 y.1 ∧ x.2 = y.2) (importTmf (ops lib) (f64Le lib) b)
      (importTmf (ops64 lib') (f64Le64 lib') b) := by
  refine ProgRel.same _ fun ctx => ProgRel.same _ fun n => ProgRel.replicate ?_ n
  refine ProgRel.same _ fun name => ProgRel.same _ fun k => ProgRel.same _ fun segs => ?_
  exact (ProgRel.ofOutcome (assembleMesh_across lib lib' b _ segs)).bind fun _ _ h => .ret ⟨h, rfl⟩

theorem readTmf_across (b : Build) (s : Source) :
    Both (List.Forall₂ fun x y => AcrossMesh x.1 y.1 ∧ x.2 = y.2) (readTmf (ops lib) (f64Le lib) b s)
      (readTmf (ops64 lib') (f64Le64 lib') b s) := by
  rw [readTmf, readTmf]
  exact ((importTmf_across lib lib' b).run s).bind fun _ _ h => .ok h.1

end

end Tmf
