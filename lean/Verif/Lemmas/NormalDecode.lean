import Verif.Lemmas.NormalAngle
import Verif.Lemmas.Decode
import Verif.Lemmas.DecodedSize
/-
Normals decoded from any bytes.
-/

set_option exponentiation.threshold 2000

namespace Tmf.Ieee
open Spec Geometry

theorem setSign_sq (s : Bool) (x : Val b32) : valueOf (setSign s x) ^ 2 = valueOf x ^ 2 := by
  rw [(setSign_value s x).2]
  split
  · ring
  · rfl

theorem fromEncoding_unit {lib : Libm} (hlib : AccurateLibm lib) {p : Nat} (hp1 : 1 ≤ p) (hp : p < 64) {c : NormalCode}
    (ha : c.asine < 2 ^ p) (hz : c.z < 2 ^ p) : UnitDecoded (normalFromEncoding (ops lib) p c) := by
  have qu := code_unit hp1 hp hz
  obtain ⟨tf, t0, t1, -⟩ := angle_value (code_unit hp1 hp ha)
  obtain ⟨⟨xf, yf⟩, -, sn, cn, xe, ye⟩ := decoded_value hlib tf t0 t1 qu
  obtain ⟨gf, g0, ge⟩ := magQ_value qu
  have e : normalFromEncoding (ops lib) p c =
      (setSign c.sx (mul (lib.sin (mul (div (ofNat c.asine) (ofNat (2 ^ p - 1))) halfPi32)) (magQ (div (ofNat c.z) (ofNat (2 ^ p - 1))))),
       setSign c.sy (mul (lib.cos (mul (div (ofNat c.asine) (ofNat (2 ^ p - 1))) halfPi32)) (magQ (div (ofNat c.z) (ofNat (2 ^ p - 1))))),
       setSign c.sz (div (ofNat c.z) (ofNat (2 ^ p - 1)))) := by
    rw [normalFromEncoding, if_neg (by omega), withSign_eq lib, FloatOps.one]
    dsimp only
    rw [halfPi_eq]
    rfl
  rw [e]
  generalize mul (div (ofNat c.asine : Val b32) (ofNat (2 ^ p - 1))) halfPi32 = t at *
  generalize div (ofNat c.z : Val b32) (ofNat (2 ^ p - 1)) = z at *
  have ger : |realOf (magQ z) ^ 2 + realOf z ^ 2 - 1| ≤ 1 / 2 ^ 21 := by
    have h := (Rat.cast_le (K := ℝ)).mpr ge
    push_cast at h
    exact h
  have g0r : 0 ≤ realOf (magQ z) := by rw [realOf]; exact_mod_cast g0
  refine ⟨⟨?_, ?_, ?_⟩, ?_⟩
  · rw [(setSign_value _ _).1]; exact xf
  · rw [(setSign_value _ _).1]; exact yf
  · rw [(setSign_value _ _).1]; exact qu.1
  · rw [AlmostUnit]
    dsimp only
    rw [setSign_sq, setSign_sq, setSign_sq]
    have h := decoded_unit g0r ger sn cn xe ye
    have h' : ((|valueOf (mul (lib.sin t) (magQ z)) ^ 2 + valueOf (mul (lib.cos t) (magQ z)) ^ 2 + valueOf z ^ 2 - 1| : ℚ) : ℝ) ≤
        ((1 / 2 ^ 18 : ℚ) : ℝ) := by
      push_cast
      exact h
    exact Rat.cast_le.mp h'

end Tmf.Ieee

namespace Tmf

theorem BitReader.read_lt {r : BitReader} (hr : r.Inv) (w : Nat) : ReadGood (· < 2 ^ w) (r.read w) := by
  rcases read_cases hr w with ⟨_, e⟩ | ⟨h1, h2, r', e, hi, _⟩ | ⟨_, _, e⟩
  · rw [e]; exact ⟨by positivity, hr⟩
  · rw [e]
    refine ⟨Nat.lt_of_lt_of_le (value_lt _) (Nat.pow_le_pow_right (by omega) ?_), hi⟩
    rw [List.length_take]; omega
  · rw [e]; exact r.src.endError_io

theorem lowBits_lt (d : Nat) {k : Nat} (hk : k ≤ 64) : lowBits d k < 2 ^ k := by
  unfold lowBits
  rw [Nat.shiftRight_eq_div_pow]
  apply Nat.div_lt_of_lt_mul
  rw [← Nat.pow_add, show 64 - k + k = 64 by omega]
  exact Nat.mod_lt _ (by positivity)

theorem BitReader.read2_lt {r : BitReader} (hr : r.Inv) (w : Nat) :
    ReadGood (fun p => p.1 < 2 ^ w ∧ p.2 < 2 ^ w) (r.read2 w) := by
  unfold read2
  split
  · exact ⟨⟨by positivity, by positivity⟩, hr⟩
  split
  · refine (read_lt hr w).bind fun a r ha hr => ?_
    refine (read_lt hr w).bind fun c r hc hr => ?_
    exact ⟨⟨ha, hc⟩, hr⟩
  · refine (read_lt hr (w * 2)).bind fun d r hd hr => ⟨⟨?_, lowBits_lt d (by omega)⟩, hr⟩
    simp only [Nat.shiftRight_eq_div_pow]
    apply Nat.div_lt_of_lt_mul
    rw [← Nat.pow_add, show w + w = w * 2 by omega]
    exact hd

theorem readMany_all {α : Type} {f : BitReader → Outcome ImportError (α × BitReader)} {Q : α → Prop}
    (hf : ∀ r, r.Inv → ReadGood Q (f r)) :
    ∀ (n : Nat) {r : BitReader}, r.Inv → ReadGood (fun l => ∀ a ∈ l, Q a) (readMany f n r) := by
  intro n
  induction n with
  | zero => intro r hr; exact ⟨fun a h => absurd h List.not_mem_nil, hr⟩
  | succ n ih =>
    intro r hr
    refine (hf r hr).bind fun a r ha hr => ?_
    refine (ih hr).bind fun l r hl hr => ?_
    refine ⟨fun x hx => ?_, hr⟩
    rcases List.mem_cons.mp hx with rfl | hx
    · exact ha
    · exact hl x hx

theorem readNormalsHeader_inv {l rest : List UInt8} {n p : Nat} (h : readNormalsHeader.runSlice l = .ok ((n, p), rest)) :
    p < 64 ∧ byteAt l 8 = p := by
  rw [readNormalsHeader, Prog.runSlice_bind, Outcome.bind_eq_ok] at h
  obtain ⟨⟨n', l1⟩, h1, h⟩ := h
  obtain ⟨_, rfl⟩ := readU64_inv h1
  dsimp only at h
  split at h
  · cases h
  · rw [Prog.runSlice_bind, Outcome.bind_eq_ok] at h
    obtain ⟨⟨q, l2⟩, h2, h⟩ := h
    obtain ⟨hq, rfl⟩ := readPrec_inv h2
    cases h
    refine ⟨hq, ?_⟩
    have := byteAt_append_right (l := leBytes 8 n) (r := leBytes 1 q ++ l2) 0
    rw [length_leBytes] at this
    rw [this]
    exact byteAt_leBytes (by omega) _

open Ieee Spec in
theorem readNormals_unit {lib : Libm} (hlib : AccurateLibm lib) {bytes : List UInt8} {l : List (Vec3 (Val b32))}
    (h : readNormals (ops lib) bytes = .ok l) (hp : 1 ≤ byteAt bytes 8) : ∀ w ∈ l, UnitDecoded w := by
  rw [readNormals, Outcome.bind_eq_ok] at h
  obtain ⟨⟨⟨n, p⟩, rest⟩, h1, h⟩ := h
  obtain ⟨hp64, e⟩ := readNormalsHeader_inv h1
  rw [e] at hp
  rw [Outcome.bind_eq_ok] at h
  obtain ⟨⟨l', r⟩, h2, h⟩ := h
  cases h
  have hg : ReadGood (fun l => ∀ a ∈ l, UnitDecoded a) (readMany (readNormal (ops lib) p) n (.new (.slice rest))) := by
    refine readMany_all (fun r hr => ?_) n (BitReader.inv_new _)
    refine (BitReader.readBit_good hr).bind fun _ r _ hr => ?_
    refine (BitReader.readBit_good hr).bind fun _ r _ hr => ?_
    refine (BitReader.readBit_good hr).bind fun _ r _ hr => ?_
    exact (BitReader.read2_lt hr _).bind fun c r hc hr => ⟨fromEncoding_unit hlib hp hp64 hc.1 hc.2, hr⟩
  dsimp only at h2
  rw [h2] at hg
  exact hg.1

open Ieee Spec in
theorem readTangents_unit {lib : Libm} (hlib : AccurateLibm lib) {bytes : List UInt8} {l : List (Tangent (Val b32))}
    (h : readTangents (ops lib) bytes = .ok l) (hp : 1 ≤ byteAt bytes 8) : ∀ t ∈ l, UnitDecoded t.1 := by
  rw [readTangents, Outcome.bind_eq_ok] at h
  obtain ⟨⟨⟨n, p⟩, rest⟩, h1, h⟩ := h
  obtain ⟨hp64, e⟩ := readNormalsHeader_inv h1
  rw [e] at hp
  rw [Outcome.bind_eq_ok] at h
  obtain ⟨⟨l', r⟩, h2, h⟩ := h
  cases h
  have hg : ReadGood (fun l => ∀ a ∈ l, UnitDecoded a.1) (readMany (readTangent (ops lib) p) n (.new (.slice rest))) := by
    refine readMany_all (fun r hr => ?_) n (BitReader.inv_new _)
    refine (BitReader.readBit_good hr).bind fun _ r _ hr => ?_
    refine (BitReader.readBit_good hr).bind fun _ r _ hr => ?_
    refine (BitReader.readBit_good hr).bind fun _ r _ hr => ?_
    refine (BitReader.readBit_good hr).bind fun _ r _ hr => ?_
    refine (BitReader.read_lt hr _).bind fun _ r ha hr => ?_
    exact (BitReader.read_lt hr _).bind fun _ r hc hr => ⟨fromEncoding_unit hlib hp hp64 ha hc, hr⟩
  dsimp only at h2
  rw [h2] at hg
  exact hg.1

end Tmf
