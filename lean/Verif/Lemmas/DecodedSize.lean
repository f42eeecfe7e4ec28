import Verif.Spec.DecodedSize
import Verif.Lemmas.Parse
import Verif.Lemmas.BitReader
import Verif.Lemmas.BitOps
import Mathlib.Tactic.Ring

namespace Tmf

/-- `f` takes at least `k` bits from the stream whenever it succeeds. -/
def Takes {α : Type} (f : BitReader → Outcome ImportError (α × BitReader)) (k : Nat) : Prop :=
  ∀ r : BitReader, r.Inv → ∀ a r', f r = .ok (a, r') → r'.Inv ∧ r'.rem.length + k ≤ r.rem.length

theorem takes_read {w : Nat} (h : w < 64) : Takes (fun r => r.read w) w := by
  intro r hr a r' e
  by_cases hl : w ≤ r.rem.length
  · obtain ⟨r1, e1, hi, hd, _⟩ := BitReader.read_ok hr h hl
    dsimp only at e
    rw [e1] at e
    simp only [Outcome.ok.injEq, Prod.mk.injEq] at e
    rw [← e.2]
    refine ⟨hi, ?_⟩
    rw [hd, List.length_drop]
    omega
  · dsimp only at e
    rw [BitReader.read_err hr h (by omega)] at e
    cases e

theorem takes_readBit : Takes (fun r => r.readBit) 1 := by
  intro r hr a r' e
  dsimp only at e
  rcases BitReader.readBit_cases hr with ⟨b, l, r1, h1, e1, hi, hd, _⟩ | ⟨_, e1⟩
  · rw [e1] at e
    cases e
    rw [h1, hd, List.length_cons]
    exact ⟨hi, le_refl _⟩
  · rw [e1] at e
    cases e

theorem Takes.bind {α β : Type} {f : BitReader → Outcome ImportError (α × BitReader)} {k : Nat}
    {g : α → BitReader → Outcome ImportError (β × BitReader)} {m : Nat} (hf : Takes f k) (hg : ∀ a, Takes (g a) m) :
    Takes (fun r => f r >>= fun x => g x.1 x.2) (k + m) := by
  intro r hr a r' e
  simp only [Outcome.bind_eq_ok] at e
  obtain ⟨⟨x, r1⟩, e1, e2⟩ := e
  obtain ⟨hi1, h1⟩ := hf r hr _ _ e1
  obtain ⟨hi2, h2⟩ := hg x r1 hi1 _ _ e2
  exact ⟨hi2, by omega⟩

theorem Takes.pure {α : Type} (a : α) : Takes (fun r => .ok (a, r)) 0 := by
  intro r hr a' r' e
  cases e
  exact ⟨hr, by simp⟩

theorem Takes.mono {α : Type} {f : BitReader → Outcome ImportError (α × BitReader)} {k m : Nat} (h : Takes f k)
    (hm : m ≤ k) : Takes f m := by
  intro r hr a r' e
  obtain ⟨hi, h1⟩ := h r hr a r' e
  exact ⟨hi, by omega⟩

theorem Takes.congr {α : Type} {f g : BitReader → Outcome ImportError (α × BitReader)} {k : Nat} (h : Takes f k)
    (e : ∀ r, g r = f r) : Takes g k := by
  intro r hr a r' h'
  rw [e] at h'
  exact h r hr a r' h'

theorem takes_read_any (w : Nat) : Takes (fun r => r.read w) 0 := by
  by_cases h : w < 64
  · exact (takes_read h).mono (by omega)
  · exact (Takes.pure 0).congr fun r => by unfold BitReader.read; rw [if_pos (by omega)]

theorem read2_large {w : Nat} (h : 32 < w) (r : BitReader) :
    r.read2 w = (r.read w >>= fun x => x.2.read w >>= fun y => .ok ((x.1, y.1), y.2)) := by
  unfold BitReader.read2
  rw [if_neg (by omega), if_pos h]

theorem read2_small {w : Nat} (h0 : w ≠ 0) (h : w ≤ 32) (r : BitReader) :
    r.read2 w = (r.read (w * 2) >>= fun x => .ok ((x.1 >>> w, lowBits x.1 w), x.2)) := by
  unfold BitReader.read2
  rw [if_neg h0, if_neg (by omega)]

theorem takes_read2 {w : Nat} (h : PairWidth w) : Takes (fun r => r.read2 w) 2 := by
  obtain ⟨h0, h64, h32⟩ := h
  by_cases h : 32 < w
  · exact (((takes_read h64).bind fun a => (takes_read h64).bind fun b => Takes.pure (a, b)).mono
      (by omega)).congr (read2_large h)
  · exact (((takes_read (w := w * 2) (by omega)).bind fun d => Takes.pure (d >>> w, lowBits d w)).mono
      (by omega)).congr (read2_small (by omega) (by omega))

theorem takes_read2_any (w : Nat) : Takes (fun r => r.read2 w) 0 := by
  by_cases h0 : w = 0
  · subst h0
    exact (Takes.pure (0, 0)).congr fun r => rfl
  by_cases h : 32 < w
  · exact (((takes_read_any w).bind fun a => (takes_read_any w).bind fun b => Takes.pure (a, b))).congr (read2_large h)
  · exact (((takes_read_any (w * 2)).bind fun d => Takes.pure (d >>> w, lowBits d w))).congr
      (read2_small h0 (by omega))

theorem readMany_takes {α : Type} {f : BitReader → Outcome ImportError (α × BitReader)} {k : Nat} (hf : Takes f k) :
    ∀ (n : Nat) (r : BitReader), r.Inv → ∀ l r', readMany f n r = .ok (l, r') →
      l.length = n ∧ r'.Inv ∧ r'.rem.length + n * k ≤ r.rem.length
  | 0, r, hr, l, r', e => by
    simp only [readMany] at e
    cases e
    exact ⟨rfl, hr, by simp⟩
  | n + 1, r, hr, l, r', e => by
    simp only [readMany, Outcome.bind_eq_ok] at e
    obtain ⟨⟨a, r1⟩, e1, ⟨l', r2⟩, e2, e3⟩ := e
    cases e3
    obtain ⟨hi1, h1⟩ := hf r hr _ _ e1
    obtain ⟨hl, hi2, h2⟩ := readMany_takes hf n r1 hi1 _ _ e2
    exact ⟨by simp [hl], hi2, by rw [Nat.add_mul]; dsimp only; omega⟩

/-- A loop over a slice of `n` bytes. -/
theorem readMany_slice {α : Type} {f : BitReader → Outcome ImportError (α × BitReader)} (hf : Takes f 1)
    {n : Nat} {rest : List UInt8} {l : List α} {r' : BitReader} (e : readMany f n (.new (.slice rest)) = .ok (l, r')) :
    l.length ≤ 8 * rest.length := by
  obtain ⟨hl, _, h⟩ := readMany_takes hf n _ (BitReader.inv_new _) _ _ e
  rw [BitReader.rem_new, length_byteBits] at h
  have : (Source.slice rest).bytes = rest := rfl
  rw [this] at h
  omega

theorem readIndexPairs_takes (b : Build) {w : Nat} (h : PairWidth w) (min : Nat) :
    ∀ (n : Nat) (r : BitReader), r.Inv → ∀ l r', readIndexPairs b w min n r = .ok (l, r') →
      l.length = 2 * n ∧ r'.Inv ∧ r'.rem.length + 2 * n ≤ r.rem.length
  | 0, r, hr, l, r', e => by
    simp only [readIndexPairs] at e
    cases e
    exact ⟨rfl, hr, by simp⟩
  | n + 1, r, hr, l, r', e => by
    simp only [readIndexPairs, Outcome.bind_eq_ok] at e
    obtain ⟨⟨⟨a, c⟩, r1⟩, e1, x, ex, y, ey, ⟨l', r2⟩, e2, e3⟩ := e
    cases e3
    obtain ⟨hi1, h1⟩ := takes_read2 h r hr _ _ e1
    obtain ⟨hl, hi2, h2⟩ := readIndexPairs_takes b h min n r1 hi1 _ _ e2
    exact ⟨by simp [hl]; omega, hi2, by dsimp only; omega⟩

theorem readIndices_size (b : Build) {w : Nat} (h : PairWidth w) {min n : Nat} {rest : List UInt8} {l : List Nat}
    (e : readIndices b w min n (.new (.slice rest)) = .ok l) : l.length ≤ 8 * rest.length := by
  unfold readIndices at e
  rw [Outcome.bind_eq_ok] at e
  obtain ⟨⟨l1, r1⟩, e1, e⟩ := e
  obtain ⟨hl, hi, h1⟩ := readIndexPairs_takes b h min _ _ (BitReader.inv_new _) _ _ e1
  rw [BitReader.rem_new, length_byteBits] at h1
  have hb : (Source.slice rest).bytes = rest := rfl
  rw [hb] at h1
  dsimp only at e
  split at e
  · simp only [Outcome.bind_eq_ok] at e
    obtain ⟨⟨i, r2⟩, e2, x, ex, e3⟩ := e
    cases e3
    obtain ⟨_, h2⟩ := takes_read h.2.1 r1 hi _ _ e2
    have := h.1
    simp only [List.length_append, List.length_singleton]
    omega
  · cases e
    omega

/-! ### Headers -/

theorem rest_le {α : Type} {p : Prog α} {l rest : List UInt8} {a : α} (h : p.runSlice l = .ok (a, rest)) :
    rest.length ≤ l.length := by
  obtain ⟨used, rfl, _⟩ := Prog.runSlice_prefix p h
  simp

theorem byteAt_append_right {l r : List UInt8} (i : Nat) : byteAt (l ++ r) (l.length + i) = byteAt r i := by
  unfold byteAt
  rw [List.getElem?_append_right (by omega)]
  simp

theorem byteAt_leBytes {n : Nat} (h : n < 256) (r : List UInt8) : byteAt (leBytes 1 n ++ r) 0 = n := by
  simp [byteAt, leBytes, Nat.mod_eq_of_lt h]

theorem readPrec_inv {p : Nat} {l rest : List UInt8} (h : readPrec.runSlice l = .ok (p, rest)) :
    p < 64 ∧ l = leBytes 1 p ++ rest := by
  rw [readPrec, Prog.runSlice_bind, Outcome.bind_eq_ok] at h
  obtain ⟨⟨n, l1⟩, h1, h⟩ := h
  dsimp only at h
  split at h
  · cases h
  · obtain ⟨_, rfl⟩ := readU8_inv h1
    cases h
    exact ⟨by omega, rfl⟩

theorem readF64_inv {fo : FloatOps} {fb : F64Bytes fo} {d : fo.D} {l rest : List UInt8}
    (h : (readF64 fb).runSlice l = .ok (d, rest)) : ∃ u : List UInt8, u.length = 8 ∧ l = u ++ rest := by
  rw [readF64, Prog.runSlice_readExact] at h
  split at h
  · rename_i hl
    cases h
    exact ⟨l.take 8, by simp [hl], by simp⟩
  · cases h

theorem trianglesHeader_width {ctx : DecodeCtx} {w n min : Nat} {l rest : List UInt8}
    (h : (readTrianglesHeader ctx).runSlice l = .ok ((w, n, min), rest)) : byteAt l 0 = w := by
  rw [readTrianglesHeader, Prog.runSlice_bind, Outcome.bind_eq_ok] at h
  obtain ⟨⟨w', l1⟩, h1, h⟩ := h
  obtain ⟨hw, rfl⟩ := readU8_inv h1
  rw [byteAt_leBytes hw]
  dsimp only at h
  rw [Prog.runSlice_bind, Outcome.bind_eq_ok] at h
  obtain ⟨⟨n', l2⟩, h2, h⟩ := h
  dsimp only at h
  rw [Prog.runSlice_bind, Outcome.bind_eq_ok] at h
  obtain ⟨⟨m', l3⟩, h3, h⟩ := h
  dsimp only at h
  split at h
  · cases h
  · cases h
    rfl

theorem readTriangles_size {b : Build} {ctx : DecodeCtx} {data : List UInt8} {l : List Nat}
    (e : readTriangles b ctx data = .ok l) (h : PairWidth (byteAt data 0)) : l.length ≤ 8 * data.length := by
  unfold readTriangles at e
  rw [Outcome.bind_eq_ok] at e
  obtain ⟨⟨⟨w, n, min⟩, rest⟩, e1, e2⟩ := e
  rw [trianglesHeader_width e1] at h
  have := readIndices_size b h e2
  have := rest_le e1
  omega

theorem readDefaultTriangles_size {b : Build} {ctx : DecodeCtx} {data : List UInt8} {l : List Nat}
    (e : readDefaultTriangles b ctx data = .ok l) (h : PairWidth (byteAt data 0)) : l.length ≤ 8 * data.length := by
  unfold readDefaultTriangles at e
  rw [Outcome.bind_eq_ok] at e
  obtain ⟨⟨⟨w, n, min⟩, rest⟩, e1, e2⟩ := e
  rw [trianglesHeader_width e1] at h
  dsimp only at e2
  rw [if_neg (by have := h.1; omega)] at e2
  have := readIndices_size b h e2
  have := rest_le e1
  omega

variable {fo : FloatOps} {fb : F64Bytes fo}

theorem readUvs_size {data : List UInt8} {l : List (Vec2 fo.F)} (e : readUvs fo data = .ok l)
    (h : PairWidth (byteAt data 0)) : l.length ≤ 8 * data.length := by
  unfold readUvs at e
  rw [Outcome.bind_eq_ok] at e
  obtain ⟨⟨⟨w, n⟩, rest⟩, e1, e2⟩ := e
  have hr := rest_le e1
  have hw : byteAt data 0 = w := by
    rw [readUvsHeader, Prog.runSlice_bind, Outcome.bind_eq_ok] at e1
    obtain ⟨⟨w', l1⟩, h1, e1⟩ := e1
    obtain ⟨hw, rfl⟩ := readU8_inv h1
    rw [byteAt_leBytes hw]
    dsimp only at e1
    rw [Prog.runSlice_bind, Outcome.bind_eq_ok] at e1
    obtain ⟨⟨n', l2⟩, h2, e1⟩ := e1
    dsimp only at e1
    split at e1
    · cases e1
    · cases e1
      rfl
  rw [hw] at h
  dsimp only at e2
  rw [if_neg (by have := h.1; omega), if_neg (by have := h.2.1; omega)] at e2
  simp only [Outcome.bind_eq_ok] at e2
  obtain ⟨⟨l1, r1⟩, e2, e3⟩ := e2
  cases e3
  have hf : Takes (readUv fo w) 1 :=
    (((takes_read2 h).bind fun c => Takes.pure (uvOfCodes fo w c)).mono (by omega)).congr fun r => rfl
  have := readMany_slice hf e2
  dsimp only at *
  omega

theorem takes_readNormal (w : Nat) : Takes (readNormal fo w) 1 :=
  ((takes_readBit.bind fun sx => takes_readBit.bind fun sy => takes_readBit.bind fun sz =>
    (takes_read2_any w).bind fun c => Takes.pure (normalFromEncoding fo w ⟨c.1, c.2, sx, sy, sz⟩)).mono
      (by omega)).congr fun r => rfl

theorem takes_readTangent (w : Nat) : Takes (readTangent fo w) 1 :=
  ((takes_readBit.bind fun h => takes_readBit.bind fun sx => takes_readBit.bind fun sy => takes_readBit.bind fun sz =>
    (takes_read_any w).bind fun a => (takes_read_any w).bind fun z =>
      Takes.pure ((normalFromEncoding fo w ⟨a, z, sx, sy, sz⟩, htFromBool fo h) : Tangent fo.F)).mono
      (by omega)).congr fun r => rfl

theorem readNormals_size {data : List UInt8} {l : List (Vec3 fo.F)} (e : readNormals fo data = .ok l) :
    l.length ≤ 8 * data.length := by
  unfold readNormals at e
  simp only [Outcome.bind_eq_ok] at e
  obtain ⟨⟨⟨n, w⟩, rest⟩, e1, ⟨l1, r1⟩, e2, e3⟩ := e
  cases e3
  have := readMany_slice (takes_readNormal w) e2
  have := rest_le e1
  dsimp only at *
  omega

theorem readTangents_size {data : List UInt8} {l : List (Tangent fo.F)} (e : readTangents fo data = .ok l) :
    l.length ≤ 8 * data.length := by
  unfold readTangents at e
  simp only [Outcome.bind_eq_ok] at e
  obtain ⟨⟨⟨n, w⟩, rest⟩, e1, ⟨l1, r1⟩, e2, e3⟩ := e
  cases e3
  have := readMany_slice (takes_readTangent w) e2
  have := rest_le e1
  dsimp only at *
  omega

theorem verticesHeader_widths {data rest : List UInt8} {n : Nat} {s : VBox fo.F} {p : Nat × Nat × Nat}
    (h : (readVerticesHeader fo fb).runSlice data = .ok ((n, s, p), rest)) :
    byteAt data 56 = p.1 ∧ byteAt data 57 = p.2.1 ∧ byteAt data 58 = p.2.2 ∧ p.1 < 64 ∧ p.2.1 < 64 ∧ p.2.2 < 64 := by
  simp only [readVerticesHeader, Prog.runSlice_bind, Outcome.bind_eq_ok] at h
  obtain ⟨⟨n', l0⟩, h0, ⟨d1, l1⟩, h1, ⟨d2, l2⟩, h2, ⟨d3, l3⟩, h3, ⟨d4, l4⟩, h4, ⟨d5, l5⟩, h5, ⟨d6, l6⟩, h6,
    ⟨px, l7⟩, h7, ⟨py, l8⟩, h8, ⟨pz, l9⟩, h9, h⟩ := h
  obtain ⟨_, rfl⟩ := readU64_inv h0
  obtain ⟨u1, hu1, rfl⟩ := readF64_inv h1
  obtain ⟨u2, hu2, rfl⟩ := readF64_inv h2
  obtain ⟨u3, hu3, rfl⟩ := readF64_inv h3
  obtain ⟨u4, hu4, rfl⟩ := readF64_inv h4
  obtain ⟨u5, hu5, rfl⟩ := readF64_inv h5
  obtain ⟨u6, hu6, rfl⟩ := readF64_inv h6
  obtain ⟨hx, rfl⟩ := readPrec_inv h7
  obtain ⟨hy, rfl⟩ := readPrec_inv h8
  obtain ⟨hz, rfl⟩ := readPrec_inv h9
  dsimp only at h
  split at h
  · cases h
  · cases h
    have hl : (leBytes 8 n ++ u1 ++ u2 ++ u3 ++ u4 ++ u5 ++ u6).length = 56 := by simp [length_leBytes, *]
    have e : ∀ X : List UInt8, leBytes 8 n ++ (u1 ++ (u2 ++ (u3 ++ (u4 ++ (u5 ++ (u6 ++ X)))))) =
        (leBytes 8 n ++ u1 ++ u2 ++ u3 ++ u4 ++ u5 ++ u6) ++ X := by intro X; simp
    have a := fun X i => byteAt_append_right (l := leBytes 8 n ++ u1 ++ u2 ++ u3 ++ u4 ++ u5 ++ u6) (r := X) i
    rw [hl] at a
    dsimp only
    refine ⟨?_, ?_, ?_, hx, hy, hz⟩
    · rw [e, a _ 0, byteAt_leBytes (by omega)]
    · rw [e, a _ 1]
      exact (byteAt_append_right (l := leBytes 1 px) 0).trans (byteAt_leBytes (by omega) _)
    · rw [e, a _ 2]
      exact (byteAt_append_right (l := leBytes 1 px) 1).trans
        ((byteAt_append_right (l := leBytes 1 py) 0).trans (byteAt_leBytes (by omega) _))

theorem readVertices_size {data : List UInt8} {l : List (Vec3 fo.F)} (e : readVertices fo fb data = .ok l)
    (h : 0 < byteAt data 56 + byteAt data 57 + byteAt data 58) : l.length ≤ 8 * data.length := by
  unfold readVertices at e
  simp only [Outcome.bind_eq_ok] at e
  obtain ⟨⟨⟨n, s, p⟩, rest⟩, e1, ⟨l1, r1⟩, e2, e3⟩ := e
  cases e3
  obtain ⟨a1, a2, a3, b1, b2, b3⟩ := verticesHeader_widths e1
  have hf : Takes (readVertex fo s p) 1 :=
    (((takes_read b1).bind fun x => (takes_read b2).bind fun y => (takes_read b3).bind fun z =>
      Takes.pure (vertexOfCodes fo s p (x, y, z))).mono (by omega)).congr fun r => rfl
  have := readMany_slice hf e2
  have := rest_le e1
  dsimp only at *
  omega

theorem readFloats_size {data : List UInt8} {d : CustomData fo.F} (e : readFloats fo fb data = .ok d)
    (h : 0 < byteAt data 24) : ∃ l p, d = .float l p ∧ l.length ≤ 8 * data.length := by
  unfold readFloats at e
  simp only [Outcome.bind_eq_ok] at e
  obtain ⟨⟨⟨n, min, max, w⟩, rest⟩, e1, ⟨l1, r1⟩, e2, e3⟩ := e
  cases e3
  have hr := rest_le e1
  have hw : byteAt data 24 = w ∧ w < 64 := by
    simp only [readFloatsHeader, Prog.runSlice_bind, Outcome.bind_eq_ok] at e1
    obtain ⟨⟨n', l0⟩, h0, e1⟩ := e1
    dsimp only at e1
    split at e1
    · cases e1
    simp only [Prog.runSlice_bind, Outcome.bind_eq_ok] at e1
    obtain ⟨⟨d1, l1⟩, h1, ⟨d2, l2⟩, h2, ⟨w', l3⟩, h3, e1⟩ := e1
    cases e1
    obtain ⟨_, rfl⟩ := readU64_inv h0
    obtain ⟨u1, hu1, rfl⟩ := readF64_inv h1
    obtain ⟨u2, hu2, rfl⟩ := readF64_inv h2
    obtain ⟨hx, rfl⟩ := readPrec_inv h3
    have hl : (leBytes 8 n ++ u1 ++ u2).length = 24 := by simp [length_leBytes, *]
    have a := byteAt_append_right (l := leBytes 8 n ++ u1 ++ u2) (r := leBytes 1 w' ++ l3) 0
    rw [hl] at a
    refine ⟨?_, hx⟩
    rw [← List.append_assoc, ← List.append_assoc, a, byteAt_leBytes (by omega)]
  have hf : Takes (readFloat fo min max w) 1 :=
    (((takes_read hw.2).bind fun c => Takes.pure (floatOfCode fo min max w c)).mono (by omega)).congr fun r => rfl
  have := readMany_slice hf e2
  dsimp only at *
  exact ⟨_, _, rfl, by omega⟩

theorem readColors_size {b : Build} {data : List UInt8} {d : CustomData fo.F} (e : readColors fo b data = .ok d)
    (h : PairWidth (byteAt data 8)) : ∃ l p, d = .color l p ∧ l.length ≤ 8 * data.length := by
  unfold readColors at e
  rw [Outcome.bind_eq_ok] at e
  obtain ⟨⟨⟨n, w⟩, rest⟩, e1, e⟩ := e
  have hr := rest_le e1
  have hw : byteAt data 8 = w := by
    simp only [Prog.runSlice_bind, Outcome.bind_eq_ok] at e1
    obtain ⟨⟨n', l0⟩, h0, ⟨w', l1⟩, h1, e1⟩ := e1
    cases e1
    obtain ⟨_, rfl⟩ := readU64_inv h0
    obtain ⟨hx, rfl⟩ := readU8_inv h1
    have a := byteAt_append_right (l := leBytes 8 n') (r := leBytes 1 w' ++ l1) 0
    rw [length_leBytes] at a
    rw [a, byteAt_leBytes hx]
  rw [hw] at h
  dsimp only at e
  split at e
  · cases e
  simp only [Outcome.bind_eq_ok] at e
  obtain ⟨pow, _, ⟨l1, r1⟩, e2, e3⟩ := e
  cases e3
  have hf : Takes (readColor fo (pow - 1) w) 1 :=
    (((takes_read2 h).bind fun c => (takes_read2 h).bind fun c' =>
      Takes.pure ((channelOfCode fo (pow - 1) c.1, channelOfCode fo (pow - 1) c.2, channelOfCode fo (pow - 1) c'.1,
        channelOfCode fo (pow - 1) c'.2) : Vec4 fo.F)).mono (by omega)).congr fun r => rfl
  have := readMany_slice hf e2
  dsimp only at *
  exact ⟨_, _, rfl, by omega⟩

theorem customName_inv {data name rest : List UInt8} (h : readCustomName.runSlice data = .ok (name, rest)) :
    ∀ i, byteAt data (1 + byteAt data 0 + i) = byteAt rest i := by
  rw [readCustomName, Prog.runSlice_bind, Outcome.bind_eq_ok] at h
  obtain ⟨⟨n, l1⟩, h1, h⟩ := h
  obtain ⟨hn, rfl⟩ := readU8_inv h1
  obtain ⟨hl, rfl⟩ := readBytes_inv h
  intro i
  rw [byteAt_leBytes hn, ← List.append_assoc]
  have := byteAt_append_right (l := leBytes 1 n ++ name) (r := rest) i
  rwa [List.length_append, length_leBytes, hl] at this

theorem readCustom_size {b : Build} {ctx : DecodeCtx} {kind : SectionType} {data : List UInt8} {s : CustomSeg fo.F}
    (hk : kind = .customIndex ∨ kind = .customInteger ∨ kind = .customFloat ∨ kind = .customColor)
    (e : CustomSeg.read fo fb b ctx kind data = .ok s) (h : TakesBits kind data) :
    (DecodedSegment.custom s).elements ≤ 8 * data.length := by
  unfold CustomSeg.read at e
  rw [Outcome.bind_eq_ok] at e
  obtain ⟨⟨name, rest⟩, e1, e⟩ := e
  have hb := customName_inv e1
  have hr := rest_le e1
  have hb0 := hb 0
  rw [Nat.add_zero] at hb0
  rcases hk with rfl | rfl | rfl | rfl
  · simp only [TakesBits, hb0] at h
    simp only [Outcome.bind_eq_ok] at e
    obtain ⟨l, e2, e3⟩ := e
    cases e3
    have := readTriangles_size e2 h
    simp only [DecodedSegment.elements]
    omega
  · simp only [TakesBits, hb0] at h
    simp only [Outcome.bind_eq_ok] at e
    obtain ⟨l, e2, e3⟩ := e
    cases e3
    have := readTriangles_size e2 h
    simp only [DecodedSegment.elements]
    omega
  · simp only [TakesBits, hb] at h
    simp only [Outcome.bind_eq_ok] at e
    obtain ⟨d, e2, e3⟩ := e
    cases e3
    obtain ⟨l, p, rfl, hl⟩ := readFloats_size e2 h
    simp only [DecodedSegment.elements]
    omega
  · simp only [TakesBits, hb] at h
    simp only [Outcome.bind_eq_ok] at e
    obtain ⟨d, e2, e3⟩ := e
    cases e3
    obtain ⟨l, p, rfl, hl⟩ := readColors_size e2 h
    simp only [DecodedSegment.elements]
    omega

theorem decodeIndices_size {b : Build} {ctx : DecodeCtx} {seg : EncodedSegment} {l : List Nat}
    (e : decodeIndices b ctx seg = .ok l) (h : PairWidth (byteAt seg.data 0)) : l.length ≤ 8 * seg.data.length := by
  unfold decodeIndices at e
  split at e
  · exact readDefaultTriangles_size e h
  all_goals cases e

theorem decode_size {b : Build} {ctx : DecodeCtx} {seg : EncodedSegment} {d : DecodedSegment fo.F}
    (e : seg.decode fo fb b ctx = .ok d) (h : TakesBits seg.segType seg.data) : d.elements ≤ 8 * seg.data.length := by
  obtain ⟨kind, comp, data⟩ := seg
  cases kind
  case invalid => cases e; simp [DecodedSegment.elements]
  case sharedTriangle =>
    simp only [EncodedSegment.decode] at e
    cases data with
    | nil => cases e
    | cons mask rest =>
      simp only [decodeShared] at e
      split at e
      · rw [Outcome.bind_eq_ok] at e
        obtain ⟨l, e1, e2⟩ := e
        cases e2
        have := readDefaultTriangles_size e1 h
        simp only [DecodedSegment.elements, List.length_cons]
        omega
      · cases e
  all_goals
    simp only [EncodedSegment.decode, Outcome.bind_eq_ok] at e
    obtain ⟨l, e1, e2⟩ := e
    cases e2
  case vertex => exact readVertices_size e1 h
  case normal => exact readNormals_size e1
  case uv => exact readUvs_size e1 h
  case tangent => exact readTangents_size e1
  case vertexTriangle => exact decodeIndices_size e1 h
  case normalTriangle => exact decodeIndices_size e1 h
  case uvTriangle => exact decodeIndices_size e1 h
  case tangentTriangle => exact decodeIndices_size e1 h
  all_goals exact readCustom_size (by simp) e1 h

end Tmf
