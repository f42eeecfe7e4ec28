import Verif.Lemmas.NormalAngle
import Verif.Lemmas.DecodedSize
import Verif.Lemmas.VertexAccuracy
import Verif.Lemmas.Loaded
import Verif.Spec.Box
/-
Decoded coordinates lie between the bounds of their segment.
-/

set_option exponentiation.threshold 2000

namespace Tmf.Ieee
open Spec

/-- A part between 0 and 1 of the way from one bound to the other. -/
theorem part_between {d mn mx : Val b32} {M : ℚ} (hd : UnitValue d) (hmn : isFinite mn = true) (hmx : isFinite mx = true)
    (h1 : |valueOf mn| ≤ M) (h2 : |valueOf mx| ≤ M) (hM : M ≤ 2 ^ 120) :
    Between M (valueOf mn) (valueOf mx) (add (mul d (sub mx mn)) mn) := by
  have hP : 0 < b32.prec := by decide
  obtain ⟨df, d0, d1⟩ := hd
  have hM0 : 0 ≤ M := le_trans (abs_nonneg _) h1
  have hmax : 8 * M + 8 ≤ maxV b32 := le_trans (by linarith [show (8 : ℚ) * 2 ^ 120 + 8 ≤ 2 ^ 127 by norm_num]) maxV32
  have hS : |valueOf mx - valueOf mn| ≤ 2 * M := by rw [abs_le] at *; constructor <;> linarith [h1.1, h1.2, h2.1, h2.2]
  have hs := sub_value hP hmx hmn (by linarith)
  have hserr := rnd32_error_sub mx mn
  have hsabs : |rnd b32 (valueOf mx - valueOf mn)| ≤ 3 * M := by
    have := abs_add_le (rnd b32 (valueOf mx - valueOf mn) - (valueOf mx - valueOf mn)) (valueOf mx - valueOf mn)
    rw [sub_add_cancel] at this
    nlinarith
  have hprod : |valueOf d * rnd b32 (valueOf mx - valueOf mn)| ≤ 3 * M := by
    rw [abs_mul, abs_of_nonneg d0]
    exact le_trans (mul_le_of_le_one_left (abs_nonneg _) d1) hsabs
  have hr := mul_value hP df hs.1 (by rw [hs.2]; linarith)
  rw [hs.2] at hr
  have hrerr := rnd32_error (valueOf d * rnd b32 (valueOf mx - valueOf mn))
  have hrabs : |rnd b32 (valueOf d * rnd b32 (valueOf mx - valueOf mn))| ≤ 4 * M + 1 := by
    have := abs_add_le (rnd b32 (valueOf d * rnd b32 (valueOf mx - valueOf mn)) - valueOf d * rnd b32 (valueOf mx - valueOf mn))
      (valueOf d * rnd b32 (valueOf mx - valueOf mn))
    rw [sub_add_cancel] at this
    have h3 : (1 : ℚ) / 2 ^ 150 ≤ 1 := by norm_num
    nlinarith
  have hy := add_value hP hr.1 hmn (by
    rw [hr.2]
    have := abs_add_le (rnd b32 (valueOf d * rnd b32 (valueOf mx - valueOf mn))) (valueOf mn)
    linarith)
  rw [hr.2] at hy
  have hyerr := rnd32_error (rnd b32 (valueOf d * rnd b32 (valueOf mx - valueOf mn)) + valueOf mn)
  refine ⟨hy.1, ?_⟩
  rw [hy.2]
  generalize rnd b32 (valueOf mx - valueOf mn) = s at *
  generalize rnd b32 (valueOf d * s) = r at *
  generalize rnd b32 (r + valueOf mn) = y at *
  generalize valueOf mn = a at *
  generalize valueOf mx = c at *
  generalize valueOf d = D at *
  have hcomb : Min.min a c ≤ D * (c - a) + a ∧ D * (c - a) + a ≤ Max.max a c := by
    rcases le_total a c with h | h
    · rw [min_eq_left h, max_eq_right h]
      constructor <;> nlinarith
    · rw [min_eq_right h, max_eq_left h]
      constructor <;> nlinarith
  have hbound : |D * (c - a) + a| ≤ M := by
    rw [abs_le] at h1 h2 ⊢
    refine ⟨le_trans (le_min h1.1 h2.1) hcomb.1, le_trans hcomb.2 (max_le h1.2 h2.2)⟩
  have key : |y - (D * (c - a) + a)| ≤ 15 * (1 / 2 ^ 24) * M + 3 * (1 / 2 ^ 150) := by
    rcases le_total a c with h | h
    · rw [abs_of_nonneg (sub_nonneg.mpr h)] at hserr hS
      exact decode_error (u := 1 / 2 ^ 24) (η := 1 / 2 ^ 150) (d := D) (by norm_num) (by norm_num) (by norm_num) (by norm_num) d0 d1
        (sub_nonneg.mpr h) hbound hS (by rw [sub_self, abs_zero]; positivity) hserr hrerr hyerr
    · rw [abs_of_nonpos (sub_nonpos.mpr h)] at hserr hS
      have := decode_error (u := 1 / 2 ^ 24) (η := 1 / 2 ^ 150) (d := D) (D := D) (S := -(c - a)) (s := -s) (r := -r) (mn := -a) (y := -y) (M := M)
        (by norm_num) (by norm_num) (by norm_num) (by norm_num) d0 d1
        (by linarith) (by rw [show D * -(c - a) + -a = -(D * (c - a) + a) by ring, abs_neg]; exact hbound) hS
        (by rw [sub_self, abs_zero]; positivity) (by rw [show -s - -(c - a) = -(s - (c - a)) by ring, abs_neg]; exact hserr)
        (by rw [show -r - D * -s = -(r - D * s) by ring, abs_neg, show D * -s = -(D * s) by ring, abs_neg]; exact hrerr)
        (by rw [show -y - (-r + -a) = -(y - (r + a)) by ring, abs_neg, show -r + -a = -(r + a) by ring, abs_neg]; exact hyerr)
      rw [show -y - (D * -(c - a) + -a) = -(y - (D * (c - a) + a)) by ring, abs_neg] at this
      exact this
  have e1 : (15 : ℚ) * (1 / 2 ^ 24) * M ≤ M / 2 ^ 20 := by
    rw [mul_comm, ← mul_div_assoc]; nlinarith
  have e3 : (3 : ℚ) * (1 / 2 ^ 150) ≤ 1 / 2 ^ 148 := by norm_num
  rw [abs_le] at key
  constructor <;> linarith [key.1, key.2, hcomb.1, hcomb.2]

/-- A coordinate decoded from any code. -/
theorem code_between {p c : Nat} (hp1 : 1 ≤ p) (hp : p < 64) (hc : c < 2 ^ p) {mn mx : Val b32} {M : ℚ} (hmn : isFinite mn = true)
    (hmx : isFinite mx = true) (h1 : |valueOf mn| ≤ M) (h2 : |valueOf mx| ≤ M) (hM : M ≤ 2 ^ 120) (lib : Libm) :
    Between M (valueOf mn) (valueOf mx) (coordOfCode (ops lib) c p mn mx) := by
  rw [coordOfCode, ops_add lib, ops_mul lib, ops_div lib, ops_ofNat lib, ops_sub lib]
  exact part_between (code_unit hp1 hp hc) hmn hmx h1 h2 hM

/-! ### The box of the writer -/

/-- All bounds lie between `lo` and `hi`. -/
def BoxIn (lo hi : ℚ) (s : VBox (Val b32)) : Prop :=
  (lo ≤ valueOf s.minX ∧ valueOf s.minX ≤ hi) ∧ (lo ≤ valueOf s.maxX ∧ valueOf s.maxX ≤ hi) ∧
  (lo ≤ valueOf s.minY ∧ valueOf s.minY ≤ hi) ∧ (lo ≤ valueOf s.maxY ∧ valueOf s.maxY ≤ hi) ∧
  (lo ≤ valueOf s.minZ ∧ valueOf s.minZ ≤ hi) ∧ lo ≤ valueOf s.maxZ ∧ valueOf s.maxZ ≤ hi

theorem fold_in {lo hi : ℚ} : ∀ {l : List (Vec3 (Val b32))} {s : VBox (Val b32)}, (∀ v ∈ l, InCube lo hi v) → BoxFinite s →
    BoxIn lo hi s → BoxFinite (l.foldl boxStep s) ∧ BoxIn lo hi (l.foldl boxStep s)
  | [], _, _, hs, hb => ⟨hs, hb⟩
  | v :: l, s, hl, hs, ⟨b1, _, _, b4, b5, b6⟩ => by
    obtain ⟨hf, v1, v2, v3⟩ := hl v List.mem_cons_self
    obtain ⟨e1, e2, e3, e4, e5, e6⟩ := boxStep_values hs hf
    rw [List.foldl_cons]
    refine fold_in (fun w hw => hl w (List.mem_cons_of_mem _ hw)) (boxStep_finite hs hf) ?_
    rw [BoxIn, e1, e2, e3, e4, e5, e6]
    refine ⟨⟨le_min b1.1 v1.1, min_le_of_left_le b1.2⟩, ⟨le_max_of_le_left b4.1, max_le b4.2 v2.2⟩, ⟨le_min b5.1 v3.1, min_le_of_left_le b5.2⟩,
      ⟨le_max_of_le_left (le_max_of_le_left b4.1), max_le (max_le b4.2 v2.2) v1.2⟩,
      ⟨le_min (le_min b5.1 v3.1) v2.1, min_le_of_left_le (min_le_of_left_le b5.2)⟩, le_max_of_le_left b6.1, max_le b6.2 v3.2⟩

theorem between_cube {lo hi a c : ℚ} {y : Val b32} (h : Between (Max.max |lo| |hi|) a c y) (ha : lo ≤ a ∧ a ≤ hi) (hc : lo ≤ c ∧ c ≤ hi) :
    isFinite y = true ∧ lo - (Max.max |lo| |hi| / 2 ^ 20 + 1 / 2 ^ 148) ≤ valueOf y ∧
      valueOf y ≤ hi + (Max.max |lo| |hi| / 2 ^ 20 + 1 / 2 ^ 148) := by
  obtain ⟨h0, h1, h2⟩ := h
  have := le_min ha.1 hc.1
  have := max_le ha.2 hc.2
  exact ⟨h0, by linarith, by linarith⟩

/-- What is loaded for a run of vertices. -/
theorem quantVertices_cube (lib : Libm) {pr e : Val b32} {lo hi : ℚ} {l : List (Vec3 (Val b32))} (hl : ∀ v ∈ l, InCube lo hi v)
    (hM : Max.max |lo| |hi| ≤ 2 ^ 120)
    (hw : ∀ s, vertexBox (ops lib) l = .ok s → (s.precs (ops lib) pr e).1 < 64 ∧ (s.precs (ops lib) pr e).2.1 < 64 ∧ (s.precs (ops lib) pr e).2.2 < 64) :
    ∀ v ∈ quantVertices (ops lib) pr e l,
      InCube (lo - (Max.max |lo| |hi| / 2 ^ 20 + 1 / 2 ^ 148)) (hi + (Max.max |lo| |hi| / 2 ^ 20 + 1 / 2 ^ 148)) v := by
  intro v hv
  cases l with
  | nil => cases hv
  | cons v0 l =>
    have hb : vertexBox (ops lib) (v0 :: l) = .ok ((v0 :: l).foldl boxStep ⟨v0.1, v0.1, v0.2.1, v0.2.1, v0.2.2, v0.2.2⟩) := rfl
    obtain ⟨⟨g1, g2, g3⟩, w1, w2, w3⟩ := hl v0 List.mem_cons_self
    obtain ⟨hf, hin⟩ := fold_in hl (⟨g1, g1, g2, g2, g3, g3⟩ : BoxFinite ⟨v0.1, v0.1, v0.2.1, v0.2.1, v0.2.2, v0.2.2⟩) ⟨w1, w1, w2, w2, w3, w3⟩
    obtain ⟨p1, p2, p3⟩ := hw _ hb
    rw [quantVertices, hb] at hv
    dsimp only at hv
    generalize (v0 :: l).foldl boxStep ⟨v0.1, v0.1, v0.2.1, v0.2.1, v0.2.2, v0.2.2⟩ = s at *
    obtain ⟨x, -, rfl⟩ := List.mem_map.mp hv
    rw [precs_ops lib] at p1 p2 p3 ⊢
    have q1 : 1 ≤ (vertexBits lib s pr e).1 := Nat.le_max_right _ _
    have q2 : 1 ≤ (vertexBits lib s pr e).2.1 := Nat.le_max_right _ _
    have q3 : 1 ≤ (vertexBits lib s pr e).2.2 := Nat.le_max_right _ _
    have habs : ∀ {a : ℚ}, lo ≤ a ∧ a ≤ hi → |a| ≤ Max.max |lo| |hi| := fun h => abs_le_max_abs_abs h.1 h.2
    obtain ⟨b1, b2, b3, b4, b5, b6⟩ := hin
    rw [quantVertex_ops lib, ← coord_ops lib, ← coord_ops lib, ← coord_ops lib]
    have k1 := between_cube (code_between q1 p1 (Nat.mod_lt _ (by positivity)) hf.minX hf.maxX (habs b1) (habs b2) hM lib
      (c := coordCode (ops lib) x.1 s.minX (sizeOf s.minX s.maxX) (2 ^ (vertexBits lib s pr e).1 - 1) % 2 ^ (vertexBits lib s pr e).1)) b1 b2
    have k2 := between_cube (code_between q2 p2 (Nat.mod_lt _ (by positivity)) hf.minY hf.maxY (habs b3) (habs b4) hM lib
      (c := coordCode (ops lib) x.2.1 s.minY (sizeOf s.minY s.maxY) (2 ^ (vertexBits lib s pr e).2.1 - 1) % 2 ^ (vertexBits lib s pr e).2.1)) b3 b4
    have k3 := between_cube (code_between q3 p3 (Nat.mod_lt _ (by positivity)) hf.minZ hf.maxZ (habs b5) (habs b6) hM lib
      (c := coordCode (ops lib) x.2.2 s.minZ (sizeOf s.minZ s.maxZ) (2 ^ (vertexBits lib s pr e).2.2 - 1) % 2 ^ (vertexBits lib s pr e).2.2)) b5 b6
    exact ⟨⟨k1.1, k2.1, k3.1⟩, k1.2, k2.2, k3.2⟩

end Tmf.Ieee

namespace Tmf
open Spec Ieee

theorem readF64_bytes {fo : FloatOps} {fb : F64Bytes fo} {d : fo.D} {l rest : List UInt8}
    (h : (readF64 fb).runSlice l = .ok (d, rest)) : ∃ u : List UInt8, u.length = 8 ∧ l = u ++ rest ∧ d = fb.dec u := by
  rw [readF64, Prog.runSlice_readExact] at h
  split at h
  · rename_i hl
    cases h
    exact ⟨l.take 8, by simp [hl], by simp, rfl⟩
  · cases h

/-- What is read of the header of a vertex segment. -/
theorem verticesHeader_inv {lib : Libm} {fb : F64Bytes (ops lib)} {n : Nat} {s : VBox (Val b32)} {p : Nat × Nat × Nat}
    {l rest : List UInt8} (h : (readVerticesHeader (ops lib) fb).runSlice l = .ok ((n, s, p), rest)) :
    s = ⟨boundAt fb l 0, boundAt fb l 1, boundAt fb l 2, boundAt fb l 3, boundAt fb l 4, boundAt fb l 5⟩ ∧
      p = (widthAt l 0, widthAt l 1, widthAt l 2) ∧ widthAt l 0 < 64 ∧ widthAt l 1 < 64 ∧ widthAt l 2 < 64 := by
  rw [readVerticesHeader] at h
  simp only [Prog.runSlice_bind, Outcome.bind_eq_ok] at h
  obtain ⟨⟨n', l0⟩, h0, ⟨x1, l1⟩, h1, ⟨x2, l2⟩, h2, ⟨x3, l3⟩, h3, ⟨x4, l4⟩, h4, ⟨x5, l5⟩, h5, ⟨x6, l6⟩, h6, ⟨p1, l7⟩, h7, ⟨p2, l8⟩, h8,
    ⟨p3, l9⟩, h9, h⟩ := h
  dsimp only at h h1 h2 h3 h4 h5 h6 h7 h8 h9
  obtain ⟨-, rfl⟩ := readU64_inv h0
  obtain ⟨u1, k1, rfl, rfl⟩ := readF64_bytes h1
  obtain ⟨u2, k2, rfl, rfl⟩ := readF64_bytes h2
  obtain ⟨u3, k3, rfl, rfl⟩ := readF64_bytes h3
  obtain ⟨u4, k4, rfl, rfl⟩ := readF64_bytes h4
  obtain ⟨u5, k5, rfl, rfl⟩ := readF64_bytes h5
  obtain ⟨u6, k6, rfl, rfl⟩ := readF64_bytes h6
  obtain ⟨w1, rfl⟩ := readPrec_inv h7
  obtain ⟨w2, rfl⟩ := readPrec_inv h8
  obtain ⟨w3, rfl⟩ := readPrec_inv h9
  split at h
  · cases h
  · cases h
    have k0 : (leBytes 8 n).length = 8 := by simp
    have d : ∀ {u r : List UInt8} {k : Nat}, u.length = 8 → (u ++ r).drop (8 + k) = r.drop k := by
      intro u r k hu
      rw [← hu, List.drop_append]
      simp
    have t : ∀ {u r : List UInt8}, u.length = 8 → ((u ++ r).drop 0).take 8 = u := by
      intro u r hu
      rw [List.drop_zero, ← hu, List.take_left]
    have b : ∀ {q : Nat}, q < 64 → (leBytes 1 q) = [UInt8.ofNat q] := by
      intro q _
      simp [leBytes]
    have m : ∀ {q : Nat}, q < 64 → (UInt8.ofNat q).toNat = q := by
      intro q hq
      simp; omega
    have e0 : widthAt (leBytes 8 n ++ (u1 ++ (u2 ++ (u3 ++ (u4 ++ (u5 ++ (u6 ++ (leBytes 1 p1 ++ (leBytes 1 p2 ++ (leBytes 1 p3 ++ rest)))))))))) 0 = p1 := by
      rw [widthAt, show 56 + 0 = 8 + (8 + (8 + (8 + (8 + (8 + (8 + 0)))))) from rfl, d k0, d k1, d k2, d k3, d k4, d k5, d k6, b w1]
      exact m w1
    have e1 : widthAt (leBytes 8 n ++ (u1 ++ (u2 ++ (u3 ++ (u4 ++ (u5 ++ (u6 ++ (leBytes 1 p1 ++ (leBytes 1 p2 ++ (leBytes 1 p3 ++ rest)))))))))) 1 = p2 := by
      rw [widthAt, show 56 + 1 = 8 + (8 + (8 + (8 + (8 + (8 + (8 + 1)))))) from rfl, d k0, d k1, d k2, d k3, d k4, d k5, d k6, b w1, b w2]
      exact m w2
    have e2 : widthAt (leBytes 8 n ++ (u1 ++ (u2 ++ (u3 ++ (u4 ++ (u5 ++ (u6 ++ (leBytes 1 p1 ++ (leBytes 1 p2 ++ (leBytes 1 p3 ++ rest)))))))))) 2 = p3 := by
      rw [widthAt, show 56 + 2 = 8 + (8 + (8 + (8 + (8 + (8 + (8 + 2)))))) from rfl, d k0, d k1, d k2, d k3, d k4, d k5, d k6, b w1, b w2, b w3]
      exact m w3
    rw [e0, e1, e2]
    refine ⟨?_, rfl, w1, w2, w3⟩
    simp only [boundAt]
    rw [show 8 + 8 * 0 = 8 + 0 from rfl, show 8 + 8 * 1 = 8 + (8 + 0) from rfl, show 8 + 8 * 2 = 8 + (8 + (8 + 0)) from rfl,
      show 8 + 8 * 3 = 8 + (8 + (8 + (8 + 0))) from rfl, show 8 + 8 * 4 = 8 + (8 + (8 + (8 + (8 + 0)))) from rfl,
      show 8 + 8 * 5 = 8 + (8 + (8 + (8 + (8 + (8 + 0))))) from rfl]
    simp only [d k0, d k1, d k2, d k3, d k4, d k5, t k1, t k2, t k3, t k4, t k5, t k6]

end Tmf
