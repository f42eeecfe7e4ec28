import Verif.Lemmas.FileRoundTrip
import Verif.Lemmas.Decode
import Verif.Lemmas.Tangents
import Verif.Spec.AnyBuild
/-
Files written by either build, with any widths: sizes, names and index arrays come back, or the
file is rejected because of a width of 64 bits or more.
-/

namespace Tmf
open Spec DecodedSegment

/-! ### Reading with enough bits left -/

/-- With `k` bits left the reader succeeds, and takes at most `k`. -/
def Gives {α : Type} (f : BitReader → Outcome ImportError (α × BitReader)) (k : Nat) : Prop :=
  ∀ r : BitReader, r.Inv → k ≤ r.rem.length → ∃ a r', f r = .ok (a, r') ∧ r'.Inv ∧ r.rem.length ≤ r'.rem.length + k

theorem Gives.pure {α : Type} (a : α) : Gives (fun r => .ok (a, r)) 0 := fun r hr _ => ⟨a, r, rfl, hr, by omega⟩

theorem Gives.bind {α β : Type} {f : BitReader → Outcome ImportError (α × BitReader)}
    {g : α → BitReader → Outcome ImportError (β × BitReader)} {k j : Nat} (hf : Gives f k) (hg : ∀ a, Gives (g a) j) :
    Gives (fun r => f r >>= fun x => g x.1 x.2) (k + j) := by
  intro r hr h
  obtain ⟨a, r1, e1, h1, l1⟩ := hf r hr (by omega)
  obtain ⟨c, r2, e2, h2, l2⟩ := hg a r1 h1 (by omega)
  exact ⟨c, r2, by show (f r >>= fun x => g x.1 x.2) = _; rw [e1]; exact e2, h2, by omega⟩

theorem Gives.mono {α : Type} {f : BitReader → Outcome ImportError (α × BitReader)} {k j : Nat} (h : Gives f k) (hkj : k ≤ j) :
    Gives f j := by
  intro r hr hj
  obtain ⟨a, r', e, hi, hl⟩ := h r hr (by omega)
  exact ⟨a, r', e, hi, by omega⟩

theorem gives_readBit : Gives BitReader.readBit 1 := by
  intro r hr h
  rcases BitReader.readBit_cases hr with ⟨bit, rest, r', h1, e, hi, h2, _⟩ | ⟨h1, _⟩
  · exact ⟨bit, r', e, hi, by rw [h1, h2]; simp⟩
  · rw [h1] at h; simp at h

theorem gives_read (w : Nat) : Gives (BitReader.read w) (if w < 64 then w else 0) := by
  intro r hr h
  rcases BitReader.read_cases hr w with ⟨_, e⟩ | ⟨h1, h2, r', e, hi, hd, _⟩ | ⟨h1, h2, _⟩
  · exact ⟨_, r, e, hr, by omega⟩
  · refine ⟨_, r', e, hi, ?_⟩
    rw [hd, List.length_drop, if_pos h1]
    omega
  · rw [if_pos h1] at h; omega

theorem gives_read2 (w : Nat) : Gives (BitReader.read2 w) (if w < 64 then 2 * w else 0) := by
  by_cases h0 : w = 0
  · subst h0
    exact ((Gives.pure ((0, 0) : Nat × Nat))).mono (Nat.zero_le _)
  by_cases h32 : 32 < w
  · have h := (gives_read w).bind fun a => (gives_read w).bind fun c => Gives.pure (a, c)
    intro r hr hk
    have e : r.read2 w = (r.read w >>= fun x => x.2.read w >>= fun y => .ok ((x.1, y.1), y.2)) := by
      unfold BitReader.read2
      rw [if_neg h0, if_pos h32]
    obtain ⟨a, r', e', hi, hl⟩ := h.mono (j := if w < 64 then 2 * w else 0) (by split <;> omega) r hr hk
    exact ⟨a, r', by rw [e]; exact e', hi, hl⟩
  · have h := (gives_read (w * 2)).bind fun d => Gives.pure (d >>> w, lowBits d w)
    intro r hr hk
    have e : r.read2 w = (r.read (w * 2) >>= fun x => .ok ((x.1 >>> w, lowBits x.1 w), x.2)) := by
      unfold BitReader.read2
      rw [if_neg h0, if_neg h32]
    obtain ⟨a, r', e', hi, hl⟩ := h.mono (j := if w < 64 then 2 * w else 0) (by split <;> split <;> omega) r hr hk
    exact ⟨a, r', by rw [e]; exact e', hi, hl⟩

theorem readMany_gives {α : Type} {f : BitReader → Outcome ImportError (α × BitReader)} {k : Nat} (hf : Gives f k) :
    ∀ (n : Nat) (r : BitReader), r.Inv → n * k ≤ r.rem.length → ∃ l r', readMany f n r = .ok (l, r') ∧ l.length = n
  | 0, r, _, _ => ⟨[], r, rfl, rfl⟩
  | n + 1, r, hr, h => by
    rw [Nat.add_mul] at h
    obtain ⟨a, r1, e1, h1, l1⟩ := hf r hr (by omega)
    obtain ⟨l, r2, e2, h2⟩ := readMany_gives hf n r1 h1 (by omega)
    exact ⟨a :: l, r2, by simp [readMany, e1, e2], by simp [h2]⟩

/-- The payload is at least as long as its fields, if they are at most 64 bits wide. -/
theorem payload_bits {b : Build} {fields : List (Nat × Nat)} {w : BitWriter} (h : ∀ p ∈ fields, p.1 ≤ 64)
    (e : BitWriter.writeAll b fields .new = .ok w) : fieldWidth fields ≤ (byteBits w.finish).length := by
  obtain ⟨w', pad, e', _, hb⟩ := written_bits b h
  rw [e'] at e
  cases e
  have := hb []
  rw [List.append_nil] at this
  rw [this]
  simp

theorem fieldWidth_flatMap {α : Type} {g : α → List (Nat × Nat)} {k : Nat} (h : ∀ a, fieldWidth (g a) = k) :
    ∀ l : List α, fieldWidth (l.flatMap g) = l.length * k
  | [] => by simp [fieldWidth]
  | a :: l => by
    have := fieldWidth_flatMap h l
    simp only [fieldWidth, List.flatMap_cons, List.map_append, List.sum_append, List.length_cons] at this ⊢
    rw [this, Nat.add_mul, Nat.one_mul, ← h a]
    simp only [fieldWidth]
    omega

/-! ### Either loaded or rejected -/

/-- The result satisfies `P`; otherwise the widths are not all below 64 (`W`), and there is either an
error about a width of 64 bits or more, or (with overflow checks) a panic. -/
inductive Loads {α : Type} (b' : Build) (W : Prop) (P : α → Prop) : Outcome ImportError α → Prop
  | ok {a : α} : P a → Loads b' W P (.ok a)
  | err {p : Nat} : 64 ≤ p → p < 256 → ¬ W → Loads b' W P (.err (.invalidPrecision p))
  | panic : b' = .checked → ¬ W → Loads b' W P .panic

theorem Loads.bind {α β : Type} {b' : Build} {W : Prop} {P : α → Prop} {Q : β → Prop} {x : Outcome ImportError α}
    {f : α → Outcome ImportError β} (hx : Loads b' W P x) (hf : ∀ a, P a → Loads b' W Q (f a)) : Loads b' W Q (x >>= f) := by
  cases hx with
  | ok h => exact hf _ h
  | err h1 h2 h3 => exact .err h1 h2 h3
  | panic h1 h2 => exact .panic h1 h2

theorem Loads.imp {α : Type} {b' : Build} {W : Prop} {P Q : α → Prop} {x : Outcome ImportError α}
    (hx : Loads b' W P x) (hf : ∀ a, P a → Q a) : Loads b' W Q x := by
  cases hx with
  | ok h => exact .ok (hf _ h)
  | err h1 h2 h3 => exact .err h1 h2 h3
  | panic h1 h2 => exact .panic h1 h2

theorem Loads.mapAll {α β γ : Type} {b' : Build} {W : Prop} {P : γ → β → Prop} {f : α → Outcome ImportError β}
    {ps : List γ} {l : List α} (h : List.Forall₂ (fun p a => Loads b' W (P p) (f a)) ps l) :
    Loads b' W (List.Forall₂ P ps) (Outcome.mapAll f l) := by
  induction h with
  | nil => exact .ok .nil
  | cons h _ ih => exact h.bind fun x hx => ih.bind fun xs hxs => .ok (.cons hx hxs)

theorem Loads.collect {α β γ : Type} {b' : Build} {W : Prop} {P : γ → β → Prop} {f : α → Outcome ImportError β}
    {ps : List γ} {l : List α} (h : List.Forall₂ (fun p a => Loads b' W (P p) (f a)) ps l) :
    Loads b' W (List.Forall₂ P ps) (collect (l.map f)) := by
  unfold Tmf.collect
  split
  · rename_i hp
    rw [List.any_eq_true] at hp
    obtain ⟨x, hx, hpx⟩ := hp
    obtain ⟨a, ha, rfl⟩ := List.mem_map.mp hx
    have : ∃ p, Loads b' W (P p) (f a) := by
      clear hpx hx
      induction h with
      | nil => simp at ha
      | cons h _ ih =>
        rcases List.mem_cons.mp ha with rfl | ha
        · exact ⟨_, h⟩
        · exact ih ha
    obtain ⟨p, this⟩ := this
    cases hfa : f a with
    | ok y => rw [hfa] at hpx; cases hpx
    | err e => rw [hfa] at hpx; cases hpx
    | panic =>
      rw [hfa] at this
      cases this with
      | panic h1 h2 => exact .panic h1 h2
  · have : Outcome.mapAll id (l.map f) = Outcome.mapAll f l := by
      clear h
      rename_i h
      clear h
      induction l with
      | nil => rfl
      | cons a l ih => simp only [List.map_cons, Outcome.mapAll, ih, id]
    rw [this]
    exact Loads.mapAll h

section
variable {fo : FloatOps} {fb : F64Bytes fo} {b b' : Build} {W : Prop}

theorem loads_readPrec {p : Nat} (hp : p < 256) (hW : W → p < 64) (rest : List UInt8) :
    Loads b' W (fun x => x = (p, rest) ∧ p < 64) (readPrec.runSlice (leBytes 1 p ++ rest)) := by
  rw [readPrec, Prog.runSlice_bind, Prog.runSlice_readU8 _ hp]
  simp only [Outcome.bind_ok]
  by_cases h : p ≥ 64
  · rw [if_pos h]
    exact .err h hp fun w => absurd (hW w) (by omega)
  · rw [if_neg h]
    exact .ok ⟨rfl, by omega⟩

/-! ### Arrays -/

theorem loads_uvs {l : List (Vec2 fo.F)} {p : Nat} {bytes : List UInt8} (hp : p < 256) (hW : W → p < 64)
    (hl : l.length ≤ MAX_SEG_SIZE) (h : saveUvs fo b l p = .ok bytes) :
    Loads b' W (fun l' => l'.length = l.length ∧ p < 64) (readUvs fo bytes) := by
  simp only [saveUvs, Outcome.bind_eq_ok] at h
  obtain ⟨m, _, w, hw, h⟩ := h
  cases h
  have hh : readUvsHeader.runSlice (leBytes 1 p ++ leBytes 8 l.length ++ w.finish) = .ok ((p, l.length), w.finish) := by
    rw [readUvsHeader]
    simp only [List.append_assoc]
    rw [Prog.runSlice_bind, Prog.runSlice_readU8 _ hp]
    simp only [Outcome.bind_ok]
    rw [Prog.runSlice_bind, Prog.runSlice_readU64 _ (MAX_lt hl)]
    simp only [Outcome.bind_ok]
    rw [if_neg (by omega)]
    rfl
  unfold readUvs
  rw [hh]
  simp only [Outcome.bind_ok]
  by_cases h0 : p = 0
  · rw [if_pos h0]
    exact .ok ⟨List.length_replicate, by omega⟩
  rw [if_neg h0]
  by_cases h64 : p ≥ 64
  · rw [if_pos h64]
    exact .err h64 hp fun w => absurd (hW w) (by omega)
  rw [if_neg h64]
  have hbits := payload_bits (fun q hq => by
    obtain ⟨x, _, hx⟩ := List.mem_flatMap.mp hq
    simp only [uvFields, List.mem_cons, List.not_mem_nil, or_false] at hx
    rcases hx with rfl | rfl <;> dsimp only <;> omega) hw
  rw [fieldWidth_flatMap (k := 2 * p) (fun a => by simp [uvFields, fieldWidth]; omega)] at hbits
  have hg : Gives (readUv fo p) (2 * p) := by
    have := (gives_read2 p).bind fun c => Gives.pure (uvOfCodes fo p c)
    rw [if_pos (by omega)] at this
    exact this
  obtain ⟨l', r', e, hl'⟩ := readMany_gives hg l.length _ (BitReader.inv_new (.slice w.finish))
    (by rw [BitReader.rem_new]; exact hbits)
  rw [e]
  exact .ok ⟨hl', by omega⟩

theorem loads_normalsHeader {n p : Nat} (hn : n ≤ MAX_SEG_SIZE) (hp : p < 256) (hW : W → p < 64) (rest : List UInt8) :
    Loads b' W (fun x => x = ((n, p), rest) ∧ p < 64) (readNormalsHeader.runSlice (leBytes 8 n ++ leBytes 1 p ++ rest)) := by
  rw [readNormalsHeader, List.append_assoc, Prog.runSlice_bind, Prog.runSlice_readU64 _ (MAX_lt hn)]
  simp only [Outcome.bind_ok]
  rw [if_neg (by omega), Prog.runSlice_bind]
  refine (loads_readPrec hp hW rest).bind fun x hx => ?_
  obtain ⟨rfl, hx⟩ := hx
  exact .ok ⟨rfl, hx⟩

def normalFieldsWith (fo : FloatOps) (m p : Nat) (n : Vec3 fo.F) : List (Nat × Nat) :=
  let c := normalCode fo m n
  [(1, c.sx.toNat), (1, c.sy.toNat), (1, c.sz.toNat), (p, c.asine), (p, c.z)]

theorem loads_normals {l : List (Vec3 fo.F)} {p : Nat} {bytes : List UInt8} (hp : p < 256) (hW : W → p < 64)
    (hl : l.length ≤ MAX_SEG_SIZE) (h : saveNormals fo b l p = .ok bytes) :
    Loads b' W (fun l' => l'.length = l.length ∧ p < 64) (readNormals fo bytes) := by
  simp only [saveNormals, Outcome.bind_eq_ok] at h
  obtain ⟨fields, hf, w, hw, h⟩ := h
  cases h
  unfold readNormals
  have hh := loads_normalsHeader (b' := b') hl hp hW w.finish
  refine Loads.bind hh fun x hx => ?_
  obtain ⟨rfl, h64⟩ := hx
  dsimp only
  have hfl : ∃ m, fields.flatten = l.flatMap (normalFieldsWith fo m p) := by
    cases hm : mulI32 b p with
    | ok m =>
      refine ⟨m, ?_⟩
      have e : Outcome.mapAll (normalFields fo b p) l = .ok (l.map (normalFieldsWith fo m p)) :=
        mapAll_of_ok (fun a ha => by simp [normalFields, normalToEncoding, hm, normalFieldsWith])
      rw [e] at hf
      cases hf
      rw [List.flatMap_def]
    | err e => cases l with
      | nil => cases hf; exact ⟨0, rfl⟩
      | cons a l => simp [Outcome.mapAll, normalFields, normalToEncoding, hm] at hf
    | panic => cases l with
      | nil => cases hf; exact ⟨0, rfl⟩
      | cons a l => simp [Outcome.mapAll, normalFields, normalToEncoding, hm] at hf
  obtain ⟨m, hfl⟩ := hfl
  rw [hfl] at hw
  have hbits := payload_bits (fun q hq => by
    obtain ⟨x, hx, hq⟩ := List.mem_flatMap.mp hq
    simp only [normalFieldsWith, List.mem_cons, List.not_mem_nil, or_false] at hq
    rcases hq with rfl | rfl | rfl | rfl | rfl <;> dsimp only <;> omega) hw
  rw [fieldWidth_flatMap (k := 3 + 2 * p) (fun a => by simp [normalFieldsWith, fieldWidth]; omega)] at hbits
  have hg : Gives (readNormal fo p) (3 + 2 * p) := by
    have := gives_readBit.bind fun sx => gives_readBit.bind fun sy => gives_readBit.bind fun sz => (gives_read2 p).bind fun c =>
      Gives.pure (normalFromEncoding fo p ⟨c.1, c.2, sx, sy, sz⟩)
    rw [if_pos h64] at this
    exact this.mono (by omega)
  obtain ⟨l', r', e, hl'⟩ := readMany_gives hg l.length _ (BitReader.inv_new (.slice w.finish))
    (by rw [BitReader.rem_new]; exact hbits)
  rw [e]
  exact .ok ⟨hl', h64⟩

theorem loads_tangents {l : List (Tangent fo.F)} {p : Nat} {bytes : List UInt8} (hp : p < 256) (hW : W → p < 64)
    (hl : l.length ≤ MAX_SEG_SIZE) (h : saveTangents fo b l p = .ok bytes) :
    Loads b' W (fun l' => l'.map Prod.snd = l.map (fun t => htFromBool fo (fo.isSignNegative t.2)) ∧ p < 64)
      (readTangents fo bytes) := by
  by_cases h64 : p < 64
  · obtain ⟨mul, hr⟩ := readTangents_any h64 hl h
    have := hr []
    rw [List.append_nil] at this
    rw [this]
    exact .ok ⟨by simp [loadedTangent, Function.comp_def], h64⟩
  · simp only [saveTangents, Outcome.bind_eq_ok] at h
    obtain ⟨fields, hf, w, hw, h⟩ := h
    cases h
    unfold readTangents
    refine (loads_normalsHeader hl hp hW w.finish).bind fun x hx => ?_
    exact absurd hx.2 h64

theorem loads_vertices {l : List (Vec3 fo.F)} {precision edge : fo.F} {bytes : List UInt8}
    (hW : W → ∀ s, vertexBox fo l = .ok s → (s.precs fo precision edge).1 < 64 ∧ (s.precs fo precision edge).2.1 < 64 ∧
      (s.precs fo precision edge).2.2 < 64)
    (hl : l.length ≤ MAX_SEG_SIZE) (h : saveVertices fo fb b l precision edge = .ok bytes) :
    Loads b' W (fun l' => l'.length = l.length ∧ ∃ s, vertexBox fo l = .ok s ∧ (s.precs fo precision edge).1 < 64 ∧
      (s.precs fo precision edge).2.1 < 64 ∧ (s.precs fo precision edge).2.2 < 64) (readVertices fo fb bytes) := by
  simp only [saveVertices, Outcome.bind_eq_ok] at h
  obtain ⟨s, hs, mx, _, my, _, mz, _, w, hw, h⟩ := h
  cases h
  have hb : ∀ x, max (fo.log2CeilU8 x) 1 < 256 := fun x => by have := fo.log2CeilU8_lt x; omega
  have hp1 : (s.precs fo precision edge).1 < 256 := hb _
  have hp2 : (s.precs fo precision edge).2.1 < 256 := hb _
  have hp3 : (s.precs fo precision edge).2.2 < 256 := hb _
  have hW' : W → (s.precs fo precision edge).1 < 64 ∧ (s.precs fo precision edge).2.1 < 64 ∧
      (s.precs fo precision edge).2.2 < 64 := fun w => hW w s hs
  suffices hsuff : Loads b' W (fun l' => l'.length = l.length ∧ (s.precs fo precision edge).1 < 64 ∧
      (s.precs fo precision edge).2.1 < 64 ∧ (s.precs fo precision edge).2.2 < 64) (readVertices fo fb _) from
    hsuff.imp fun l' h => ⟨h.1, s, hs, h.2⟩
  generalize s.precs fo precision edge = p at *
  have hh : Loads b' W (fun x => x = ((l.length, s.reread fo, p), w.finish) ∧ p.1 < 64 ∧ p.2.1 < 64 ∧ p.2.2 < 64)
      ((readVerticesHeader fo fb).runSlice (leBytes 8 l.length
      ++ f64Bytes fb s.minX ++ f64Bytes fb s.maxX ++ f64Bytes fb s.minY ++ f64Bytes fb s.maxY
      ++ f64Bytes fb s.minZ ++ f64Bytes fb s.maxZ ++ leBytes 1 p.1 ++ leBytes 1 p.2.1 ++ leBytes 1 p.2.2 ++ w.finish)) := by
    simp only [readVerticesHeader, f64Bytes, List.append_assoc]
    rw [Prog.runSlice_bind, Prog.runSlice_readU64 _ (MAX_lt hl)]
    simp only [Outcome.bind_ok]
    iterate 6
      rw [Prog.runSlice_bind, readF64_enc]
      simp only [Outcome.bind_ok]
    rw [Prog.runSlice_bind]
    refine (loads_readPrec hp1 (fun w => (hW' w).1) _).bind fun x hx => ?_
    obtain ⟨rfl, h1⟩ := hx
    dsimp only
    rw [Prog.runSlice_bind]
    refine (loads_readPrec hp2 (fun w => (hW' w).2.1) _).bind fun x hx => ?_
    obtain ⟨rfl, h2⟩ := hx
    dsimp only
    rw [Prog.runSlice_bind]
    refine (loads_readPrec hp3 (fun w => (hW' w).2.2) _).bind fun x hx => ?_
    obtain ⟨rfl, h3⟩ := hx
    dsimp only
    rw [if_neg (by omega)]
    exact .ok ⟨rfl, h1, h2, h3⟩
  unfold readVertices
  refine hh.bind fun x hx => ?_
  obtain ⟨rfl, h1, h2, h3⟩ := hx
  dsimp only
  have hbits := payload_bits (fun q hq => by
    obtain ⟨x, hx, hq⟩ := List.mem_flatMap.mp hq
    simp only [vertexFields, List.mem_cons, List.not_mem_nil, or_false] at hq
    rcases hq with rfl | rfl | rfl <;> dsimp only <;> omega) hw
  rw [fieldWidth_flatMap (k := p.1 + (p.2.1 + p.2.2)) (fun a => by simp [vertexFields, fieldWidth])] at hbits
  have hg : Gives (readVertex fo (s.reread fo) p) (p.1 + (p.2.1 + p.2.2)) := by
    have := (gives_read p.1).bind fun x => (gives_read p.2.1).bind fun y => (gives_read p.2.2).bind fun z =>
      Gives.pure (vertexOfCodes fo (s.reread fo) p (x, y, z))
    rw [if_pos h1, if_pos h2, if_pos h3] at this
    exact this
  obtain ⟨l', r', e, hl'⟩ := readMany_gives hg l.length _ (BitReader.inv_new (.slice w.finish))
    (by rw [BitReader.rem_new]; exact hbits)
  rw [e]
  exact .ok ⟨hl', h1, h2, h3⟩

theorem loads_floats {data : List fo.F} {prec : fo.F} {bytes : List UInt8}
    (hW : W → floatPrec fo data prec < 64) (hl : data.length ≤ MAX_SEG_SIZE) (h : saveFloats fo fb b data prec = .ok bytes) :
    Loads b' W (fun d => ∃ l' p', d = .float l' p' ∧ l'.length = data.length ∧ floatPrec fo data prec < 64) (readFloats fo fb bytes) := by
  simp only [saveFloats, Outcome.bind_eq_ok] at h
  obtain ⟨m, _, w, hw, h⟩ := h
  cases h
  have hp : floatPrec fo data prec < 256 := by
    have := fo.log2CeilU8_lt (fo.div (fo.sub (floatRange fo data).2 (floatRange fo data).1) prec)
    rw [floatPrec]
    omega
  generalize floatPrec fo data prec = p at *
  generalize floatRange fo data = rg at *
  have hh : Loads b' W (fun x => x = ((data.length, fo.toD rg.1, fo.toD rg.2, p), w.finish) ∧ p < 64)
      ((readFloatsHeader fb).runSlice (leBytes 8 data.length ++ f64Bytes fb rg.1 ++ f64Bytes fb rg.2 ++
        leBytes 1 p ++ w.finish)) := by
    simp only [readFloatsHeader, f64Bytes, List.append_assoc]
    rw [Prog.runSlice_bind, Prog.runSlice_readU64 _ (MAX_lt hl)]
    simp only [Outcome.bind_ok]
    rw [if_neg (by omega)]
    iterate 2
      rw [Prog.runSlice_bind, readF64_enc]
      simp only [Outcome.bind_ok]
    rw [Prog.runSlice_bind]
    refine (loads_readPrec hp hW _).bind fun x hx => ?_
    obtain ⟨rfl, h1⟩ := hx
    exact .ok ⟨rfl, h1⟩
  unfold readFloats
  refine hh.bind fun x hx => ?_
  obtain ⟨rfl, h1⟩ := hx
  dsimp only
  have hmap : data.map (fun x => (p, floatCode fo rg m x)) = data.flatMap (fun x => [(p, floatCode fo rg m x)]) :=
    (flatMap_singleton' _ _).symm
  rw [hmap] at hw
  have hbits := payload_bits (fun q hq => by
    obtain ⟨x, hx, hq⟩ := List.mem_flatMap.mp hq
    simp only [List.mem_cons, List.not_mem_nil, or_false] at hq
    subst hq; dsimp only; omega) hw
  rw [fieldWidth_flatMap (k := p) (fun a => by simp [fieldWidth])] at hbits
  have hg : Gives (readFloat fo (fo.toD rg.1) (fo.toD rg.2) p) p := by
    have := (gives_read p).bind fun x => Gives.pure (floatOfCode fo (fo.toD rg.1) (fo.toD rg.2) p x)
    rw [if_pos h1] at this
    exact this
  obtain ⟨l', r', e, hl'⟩ := readMany_gives hg data.length _ (BitReader.inv_new (.slice w.finish))
    (by rw [BitReader.rem_new]; exact hbits)
  rw [e]
  exact .ok ⟨l', _, rfl, hl', h1⟩

theorem loads_colors {data : List (Vec4 fo.F)} {prec : fo.F} {bytes : List UInt8}
    (hW : W → b' = .checked → colorPrec fo prec < 64) (hl : data.length ≤ MAX_SEG_SIZE) (h : saveColors fo b data prec = .ok bytes) :
    Loads b' W (fun d => ∃ l' p', d = .color l' p' ∧ l'.length = data.length ∧ (b' = .checked → colorPrec fo prec < 64)) (readColors fo b' bytes) := by
  simp only [saveColors, Outcome.bind_eq_ok] at h
  obtain ⟨m, _, w, hw, h⟩ := h
  cases h
  have hp : colorPrec fo prec < 256 := fo.log2CeilU8_lt _
  generalize colorPrec fo prec = p at *
  have hh : (do let len ← Prog.readU64; let p ← Prog.readU8; pure (len, p) : Prog (Nat × Nat)).runSlice
      (leBytes 8 data.length ++ leBytes 1 p ++ w.finish) = .ok ((data.length, p), w.finish) := by
    simp only [List.append_assoc]
    rw [Prog.runSlice_bind, Prog.runSlice_readU64 _ (MAX_lt hl)]
    simp only [Outcome.bind_ok]
    rw [Prog.runSlice_bind, Prog.runSlice_readU8 _ hp]
    rfl
  unfold readColors
  rw [hh]
  have hlen : data.length ≤ 2 ^ 31 := hl
  simp only [Outcome.bind_ok]
  rw [if_neg (by omega)]
  have hsh : Loads b' W (fun _ => b' = .checked → p < 64) (shiftU64 b' p) := by
    rw [shiftU64.eq_def]
    split
    · rename_i h; exact .ok fun _ => h
    · cases b' with
      | checked => exact .panic rfl fun w => absurd (hW w rfl) (by omega)
      | wrapping => exact .ok fun h => by cases h
  refine hsh.bind fun pow hpow => ?_
  have hg : Gives (readColor fo (pow - 1) p) (if p < 64 then 4 * p else 0) := by
    have := (gives_read2 p).bind fun x => (gives_read2 p).bind fun y =>
      Gives.pure (channelOfCode fo (pow - 1) x.1, channelOfCode fo (pow - 1) x.2, channelOfCode fo (pow - 1) y.1,
        channelOfCode fo (pow - 1) y.2)
    exact this.mono (by split <;> omega)
  obtain ⟨l', r', e, hl'⟩ := readMany_gives hg data.length _ (BitReader.inv_new (.slice w.finish)) (by
    rw [BitReader.rem_new]
    split
    · have hbits := payload_bits (fun q hq => by
        obtain ⟨x, hx, hq⟩ := List.mem_flatMap.mp hq
        simp only [colorFields, List.mem_cons, List.not_mem_nil, or_false] at hq
        rcases hq with rfl | rfl | rfl | rfl <;> dsimp only <;> omega) hw
      rw [fieldWidth_flatMap (k := 4 * p) (fun a => by simp [colorFields, fieldWidth]; omega)] at hbits
      exact hbits
    · omega)
  rw [e]
  exact .ok ⟨l', _, rfl, hl', hpow⟩

/-! ### Segments -/

theorem loads_indexCustom {l : List Nat} {m : Nat} {bytes : List UInt8} (hl : l.length ≤ 2 ^ 31)
    (hi : ∀ i ∈ l, i ≤ m ∧ i < 2 ^ 32) (hm : m < 2 ^ 31 ∨ 2 ^ 32 ≤ m ∧ m < 2 ^ 63)
    (h : saveTriangles b l m = .ok bytes) : readTriangles b' ⟨true⟩ bytes = .ok l := by
  obtain ⟨bytes', e, hr⟩ := readTriangles_saved b b' l (m := m) (by omega) (custom_max hm)
    (fun i h => (hi i h).1) (fun i h => (hi i h).2) hl
  rw [e] at h
  cases h
  simpa using hr []

/-- Segments that agree in everything that is not quantised. -/
inductive Alike {F : Type} : DecodedSegment F → DecodedSegment F → Prop
  | rfl (s) : Alike s s
  | vertex (l l') (h : l'.length = l.length) : Alike (.vertex l) (.vertex l')
  | normal (l l') (h : l'.length = l.length) : Alike (.normal l) (.normal l')
  | uv (l l') (h : l'.length = l.length) : Alike (.uv l) (.uv l')
  | tangent (l l') (h : l'.map Prod.snd = l.map Prod.snd) : Alike (.tangent l) (.tangent l')
  | custom (c c') (hn : c'.name = c.name) (h : SameCustom c.data c'.data) : Alike (.custom c) (.custom c')

theorem readCustom_loads {ty : SectionType} {name rest : List UInt8} {P : CustomData fo.F → Prop}
    {x : Outcome ImportError (CustomData fo.F)} (hx : Loads b' W P x)
    (e : ∀ d, x = .ok d → CustomSeg.read fo fb b' ⟨true⟩ ty (leBytes 1 name.length ++ name ++ rest) = .ok ⟨name, d⟩)
    (he : ∀ e, x = .err e → CustomSeg.read fo fb b' ⟨true⟩ ty (leBytes 1 name.length ++ name ++ rest) = .err e)
    (hp : x = .panic → CustomSeg.read fo fb b' ⟨true⟩ ty (leBytes 1 name.length ++ name ++ rest) = .panic) :
    Loads b' W (fun s => s.name = name ∧ P s.data) (CustomSeg.read fo fb b' ⟨true⟩ ty (leBytes 1 name.length ++ name ++ rest)) := by
  cases hx with
  | ok h => rw [e _ rfl]; exact .ok ⟨rfl, h⟩
  | err h1 h2 h3 => rw [he _ rfl]; exact .err h1 h2 h3
  | panic h1 h2 => rw [hp rfl]; exact .panic h1 h2

theorem loads_custom {s : CustomSeg fo.F} (hs : CustomFits s) {d : List UInt8}
    (hW : W → NarrowCustom fo b' s.data) (h : s.encode fo fb b = .ok d) :
    Loads b' W (fun c => c.name = s.name ∧ SameCustom s.data c.data ∧ NarrowCustom fo b' s.data) (CustomSeg.read fo fb b' ⟨true⟩ s.data.sectionType d) := by
  rw [CustomSeg.encode, Outcome.bind_eq_ok] at h
  obtain ⟨data, hd, h⟩ := h
  cases h
  cases hs with
  | index name l m hn hl hi hm =>
    have e := readCustom_index (fo := fo) (fb := fb) (b' := b') hn (loads_indexCustom hl hi hm hd)
    simp only [CustomData.sectionType]
    rw [e]
    exact .ok ⟨rfl, .index l m _, trivial⟩
  | integer name l m hn hl hi hm =>
    have e := readCustom_integer (fo := fo) (fb := fb) (b' := b') hn (loads_indexCustom hl hi hm hd)
    simp only [CustomData.sectionType]
    rw [e]
    exact .ok ⟨rfl, .integer l m _, trivial⟩
  | float name l p hn hl =>
    refine readCustom_loads (P := fun d => SameCustom (.float l p) d ∧ NarrowCustom fo b' (.float l p)) ((loads_floats hW hl hd).imp fun d hd => ?_) (fun d e => readCustom_float hn e) ?_ ?_
    · obtain ⟨l', p', rfl, h, hn⟩ := hd
      exact ⟨.float l l' p p' h, hn⟩
    · intro e he
      simp only [CustomSeg.read, CustomData.sectionType]
      rw [readCustomName_ok hn]
      simp [he]
    · intro he
      simp only [CustomSeg.read, CustomData.sectionType]
      rw [readCustomName_ok hn]
      simp [he]
  | color name l p hn hl =>
    refine readCustom_loads (P := fun d => SameCustom (.color l p) d ∧ NarrowCustom fo b' (.color l p)) ((loads_colors hW hl hd).imp fun d hd => ?_) (fun d e => readCustom_color hn e) ?_ ?_
    · obtain ⟨l', p', rfl, h, hn⟩ := hd
      exact ⟨.color l l' p p' h, hn⟩
    · intro e he
      simp only [CustomSeg.read, CustomData.sectionType]
      rw [readCustomName_ok hn]
      simp [he]
    · intro he
      simp only [CustomSeg.read, CustomData.sectionType]
      rw [readCustomName_ok hn]
      simp [he]

/-- A segment that asks for fewer than 64 bits. -/
def SegNarrow (fo : FloatOps) (b' : Build) (prec : PrecisionInfo fo.F) (edge : fo.F) : DecodedSegment fo.F → Prop
  | .vertex l => ∀ s, vertexBox fo l = .ok s → (s.precs fo prec.vertex edge).1 < 64 ∧ (s.precs fo prec.vertex edge).2.1 < 64 ∧
      (s.precs fo prec.vertex edge).2.2 < 64
  | .normal _ => prec.normal < 64
  | .uv _ => prec.uv < 64
  | .tangent _ => prec.tangent < 64
  | .custom c => NarrowCustom fo b' c.data
  | _ => True

theorem sameCustom_loaded (d : CustomData fo.F) : SameCustom d (d.loaded fo) := by
  cases d with
  | index l m => exact .index l m _
  | integer l m => exact .integer l m _
  | float l p => exact .float l _ p _ (by simp)
  | color l p => exact .color l _ p _ (by simp)

theorem SameCustom.symm {F : Type} {c d : CustomData F} (h : SameCustom c d) : SameCustom d c := by
  cases h with
  | index l m m' => exact .index l _ _
  | integer l m m' => exact .integer l _ _
  | float l l' p p' h => exact .float _ _ _ _ h.symm
  | color l l' p p' h => exact .color _ _ _ _ h.symm

theorem SameCustom.trans {F : Type} {c d e : CustomData F} (h : SameCustom c d) (h' : SameCustom d e) : SameCustom c e := by
  cases h <;> cases h'
  · exact .index _ _ _
  · exact .integer _ _ _
  · rename_i h1 _ _ h2; exact .float _ _ _ _ (h2.trans h1)
  · rename_i h1 _ _ h2; exact .color _ _ _ _ (h2.trans h1)

theorem quantVertices_length (precision edge : fo.F) (l : List (Vec3 fo.F)) :
    (quantVertices fo precision edge l).length = l.length := by
  cases l with
  | nil => rfl
  | cons v l => simp [quantVertices, vertexBox]

theorem loads_segment {prec prec' : PrecisionInfo fo.F} {edge edge' : fo.F} (hS : ByteSettings prec)
    {s : DecodedSegment fo.F} (hs : SegFits prec' s) (hW : W → SegNarrow fo b' prec edge s) {e : EncodedSegment}
    (h : s.encode fo fb b prec edge = .ok e) :
    Loads b' W (fun d => Alike (s.loaded fo prec' edge') d ∧ SegNarrow fo b' prec edge s) (e.decode fo fb b' ⟨true⟩) ∧ e.compression = .none := by
  cases s with
  | nothing => simp only [encode] at h; cases h; exact ⟨.ok ⟨.rfl _, trivial⟩, rfl⟩
  | vertex l =>
    rw [encode, Outcome.bind_eq_ok] at h
    obtain ⟨d, hd, h⟩ := h
    cases h
    refine ⟨?_, rfl⟩
    simp only [EncodedSegment.decode]
    refine (loads_vertices hW hs hd).bind fun l' hl' => .ok ⟨.vertex _ _ ?_, fun s hs => ?_⟩
    · rw [hl'.1, quantVertices_length]
    · obtain ⟨_, s', hs', h⟩ := hl'
      rw [hs'] at hs
      cases hs
      exact h
  | normal l =>
    rw [encode, Outcome.bind_eq_ok] at h
    obtain ⟨d, hd, h⟩ := h
    cases h
    refine ⟨?_, rfl⟩
    simp only [EncodedSegment.decode]
    exact (loads_normals hS.normal hW hs.1 hd).bind fun l' hl' => .ok ⟨.normal _ _ (by rw [hl'.1, List.length_map]), hl'.2⟩
  | uv l =>
    rw [encode, Outcome.bind_eq_ok] at h
    obtain ⟨d, hd, h⟩ := h
    cases h
    refine ⟨?_, rfl⟩
    simp only [EncodedSegment.decode]
    exact (loads_uvs hS.uv hW hs hd).bind fun l' hl' => .ok ⟨.uv _ _ (by rw [hl'.1, List.length_map]), hl'.2⟩
  | tangent l =>
    rw [encode, Outcome.bind_eq_ok] at h
    obtain ⟨d, hd, h⟩ := h
    cases h
    refine ⟨?_, rfl⟩
    simp only [EncodedSegment.decode]
    exact (loads_tangents hS.tangent hW hs.1 hd).bind fun l' hl' => .ok ⟨.tangent _ _ (by
      rw [hl'.1]; simp [quantTangent, Function.comp_def]), hl'.2⟩
  | triVertex l =>
    rw [encode, Outcome.bind_eq_ok] at h
    obtain ⟨d, hd, h⟩ := h
    cases h
    refine ⟨?_, rfl⟩
    simp only [EncodedSegment.decode, decodeIndices]
    rw [decode_tri hs hd]
    exact .ok ⟨.rfl _, trivial⟩
  | triNormal l =>
    rw [encode, Outcome.bind_eq_ok] at h
    obtain ⟨d, hd, h⟩ := h
    cases h
    refine ⟨?_, rfl⟩
    simp only [EncodedSegment.decode, decodeIndices]
    rw [decode_tri hs hd]
    exact .ok ⟨.rfl _, trivial⟩
  | triUv l =>
    rw [encode, Outcome.bind_eq_ok] at h
    obtain ⟨d, hd, h⟩ := h
    cases h
    refine ⟨?_, rfl⟩
    simp only [EncodedSegment.decode, decodeIndices]
    rw [decode_tri hs hd]
    exact .ok ⟨.rfl _, trivial⟩
  | triTangent l =>
    rw [encode, Outcome.bind_eq_ok] at h
    obtain ⟨d, hd, h⟩ := h
    cases h
    refine ⟨?_, rfl⟩
    simp only [EncodedSegment.decode, decodeIndices]
    rw [decode_tri hs hd]
    exact .ok ⟨.rfl _, trivial⟩
  | shared mask l =>
    rw [encode, Outcome.bind_eq_ok] at h
    obtain ⟨d, hd, h⟩ := h
    cases h
    refine ⟨?_, rfl⟩
    have hmask : leBytes 1 mask ++ d = UInt8.ofNat mask :: d := by
      simp [leBytes]
    simp only [EncodedSegment.decode, decodeShared, hmask]
    rw [decode_tri hs.2 hd]
    simp only [Outcome.bind_ok, DecodedSegment.loaded]
    rw [toNat_ofNat_lt hs.1]
    exact .ok ⟨.rfl _, trivial⟩
  | custom c =>
    rw [encode, Outcome.bind_eq_ok] at h
    obtain ⟨d, hd, h⟩ := h
    cases h
    refine ⟨?_, rfl⟩
    have hc := loads_custom (b' := b') hs hW hd
    have : EncodedSegment.decode fo fb b' ⟨true⟩ ⟨c.data.sectionType, .none, d⟩ =
        (CustomSeg.read fo fb b' ⟨true⟩ c.data.sectionType d >>= fun s => .ok (.custom s)) := by
      cases c.data <;> rfl
    rw [this]
    exact hc.bind fun s hs => .ok ⟨.custom _ _ hs.1 (SameCustom.trans (SameCustom.symm (sameCustom_loaded _)) hs.2.1), hs.2.2⟩

/-! ### Meshes -/

/-- Meshes that agree in everything that is not quantised. -/
structure MeshAlike {F : Type} (m m' : Mesh F) : Prop where
  indices : SameIndices m m'
  sizes : SameSizes m m'
  hands : m'.tangents.map (List.map Prod.snd) = m.tangents.map (List.map Prod.snd)
  custom : List.Forall₂ (fun c c' => c'.name = c.name ∧ SameCustom c.data c'.data) m.customData m'.customData

theorem forall₂_flatMap_eq {S α : Type} {R : S → S → Prop} {g : S → List α} (h : ∀ s s', R s s' → g s' = g s) {l l' : List S}
    (hl : List.Forall₂ R l l') : l'.flatMap g = l.flatMap g := by
  induction hl with
  | nil => rfl
  | cons hs _ ih => rw [List.flatMap_cons, List.flatMap_cons, ih, h _ _ hs]

/-- Pieces that look the same from some angle do so when joined. -/
theorem joined_map {α β : Type} {k : List α → List β} (hk : ∀ p q, k (p ++ q) = k p ++ k q) (hn : k [] = []) :
    ∀ l : List (List α), (joined l).map k = joined (l.map k)
  | [] => rfl
  | a :: l => by
    have : ∀ l : List (List α), k l.flatten = (l.map k).flatten := by
      intro l
      induction l with
      | nil => exact hn
      | cons a l ih => rw [List.flatten_cons, hk, ih]; rfl
    show some (k (a :: l).flatten) = some ((a :: l).map k).flatten
    rw [this]

theorem joined_length {α : Type} {l l' : List (List α)} (h : l'.map List.length = l.map List.length) :
    (joined l').map List.length = (joined l).map List.length := by
  cases l with
  | nil =>
    cases l' with
    | nil => rfl
    | cons a l' => simp at h
  | cons a l =>
    cases l' with
    | nil => simp at h
    | cons a' l' =>
      show some _ = some _
      rw [List.length_flatten, List.length_flatten, h]

theorem applied_alike {F : Type} {l l' : List (DecodedSegment F)} (h : List.Forall₂ Alike l l') :
    MeshAlike (l.foldl DecodedSegment.apply Mesh.empty) (l'.foldl DecodedSegment.apply Mesh.empty) := by
  rw [applyAll_eq, applyAll_eq]
  have tri : ∀ g : DecodedSegment F → List (List Nat), (∀ s s', Alike s s' → g s' = g s) →
      joined (l'.flatMap g) = joined (l.flatMap g) := fun g hg => by rw [forall₂_flatMap_eq hg h]
  have len : ∀ {α : Type} (g : DecodedSegment F → List (List α)),
      (∀ s s', Alike s s' → (g s').map List.length = (g s).map List.length) →
      (joined (l'.flatMap g)).map List.length = (joined (l.flatMap g)).map List.length := by
    intro α g hg
    apply joined_length
    rw [← flatMap_map_comm, ← flatMap_map_comm]
    exact forall₂_flatMap_eq (g := fun s => (g s).map List.length) hg h
  have hand : ∀ s s' : DecodedSegment F, Alike s s' →
      (pTangents s').map (List.map Prod.snd) = (pTangents s).map (List.map Prod.snd) := by
    intro s s' hs
    cases hs <;> simp_all [pTangents]
  refine ⟨⟨?_, ?_, ?_, ?_⟩, ⟨?_, ?_, ?_, ?_⟩, ?_, ?_⟩
  · exact tri _ fun s s' hs => by cases hs <;> rfl
  · exact tri _ fun s s' hs => by cases hs <;> rfl
  · exact tri _ fun s s' hs => by cases hs <;> rfl
  · exact tri _ fun s s' hs => by cases hs <;> rfl
  · exact len _ fun s s' hs => by cases hs <;> simp_all [pVertices]
  · exact len _ fun s s' hs => by cases hs <;> simp_all [pNormals]
  · exact len _ fun s s' hs => by cases hs <;> simp_all [pUvs]
  · exact len _ fun s s' hs => by
      have := congrArg (List.map List.length) (hand s s' hs)
      simpa [Function.comp_def] using this
  · show (joined _).map _ = (joined _).map _
    rw [joined_map (by simp) rfl, joined_map (by simp) rfl, ← flatMap_map_comm, ← flatMap_map_comm]
    rw [forall₂_flatMap_eq (g := fun s => (pTangents s).map (List.map Prod.snd)) hand h]
  · show List.Forall₂ _ (l.flatMap pCustom) (l'.flatMap pCustom)
    have hrefl : ∀ c : CustomData F, SameCustom c c := fun c => by
      cases c
      exacts [.index _ _ _, .integer _ _ _, .float _ _ _ _ rfl, .color _ _ _ _ rfl]
    clear tri len hand
    induction h with
    | nil => exact .nil
    | cons hs _ ih =>
      rw [List.flatMap_cons, List.flatMap_cons]
      refine List.rel_append (R := _) ?_ ih
      cases hs with
      | rfl =>
        rename_i s _ _ _
        cases s <;> simp [pCustom, hrefl]
      | custom c c' hn hc => exact .cons ⟨hn, hc⟩ .nil
      | _ => exact .nil

theorem narrow_piece {prec : PrecisionInfo fo.F} {edge : fo.F} {m : Mesh fo.F} (hm : Narrow fo b b' prec m)
    (he : calcShortestEdge fo m.vertexTriangles m.vertices = .ok edge) {s : DecodedSegment fo.F} (hs : s ∈ mergedSegs m)
    {ps : List (DecodedSegment fo.F)} (h : s.optimize fo b = .ok ps) : ∀ p ∈ ps, SegNarrow fo b' prec edge p := by
  intro p hp
  have tri : ∀ {l : List Nat} {mk : List Nat → DecodedSegment fo.F} (_ : ∀ q, SegNarrow fo b' prec edge (mk q)),
      (optTris b l >>= fun ps => Outcome.ok (ps.map mk)) = .ok ps → SegNarrow fo b' prec edge p := by
    intro l mk hmk h
    rw [Outcome.bind_eq_ok] at h
    obtain ⟨qs, _, h⟩ := h
    cases h
    obtain ⟨q, _, rfl⟩ := List.mem_map.mp hp
    exact hmk q
  have hmem := hs
  simp only [mergedSegs, List.mem_append, List.mem_map, Option.mem_toList, Option.map_eq_some_iff] at hs
  rcases hs with ((⟨c, hc, rfl⟩ | ⟨a, ha, rfl⟩) | ⟨a, ha, rfl⟩) | (hs | (⟨a, ha, rfl⟩ | ⟨a, ha, rfl⟩) | ⟨a, ha, rfl⟩)
  · cases h
    rcases List.mem_singleton.mp hp with rfl
    exact hm.custom c (List.mem_reverse.mp hc)
  · exact tri (mk := .triTangent) (fun _ => trivial) h
  · cases h
    rcases List.mem_singleton.mp hp with rfl
    exact hm.tangents (by simp [ha])
  · have : ∀ s ∈ (mergedTris m.uvTriangles m.normalTriangles m.vertexTriangles : List (DecodedSegment fo.F)),
        (∃ l, s = .triUv l) ∨ (∃ l, s = .triNormal l) ∨ (∃ l, s = .triVertex l) ∨ ∃ k l, s = .shared k l := by
      intro s hs
      generalize m.uvTriangles = u, m.normalTriangles = n, m.vertexTriangles = v at hs
      rcases u with - | u <;> rcases n with - | n <;> rcases v with - | v <;>
        simp only [mergedTris, Option.some.injEq, reduceCtorEq, and_false, false_and, if_false] at hs <;>
        (try split_ifs at hs) <;> simp at hs <;> aesop
    rcases this s hs with ⟨l, rfl⟩ | ⟨l, rfl⟩ | ⟨l, rfl⟩ | ⟨k, l, rfl⟩
    · exact tri (mk := .triUv) (fun _ => trivial) h
    · exact tri (mk := .triNormal) (fun _ => trivial) h
    · exact tri (mk := .triVertex) (fun _ => trivial) h
    · exact tri (mk := .shared k) (fun _ => trivial) h
  · cases h
    rcases List.mem_singleton.mp hp with rfl
    exact hm.uvs (by simp [ha])
  · cases h
    rcases List.mem_singleton.mp hp with rfl
    exact hm.normals (by simp [ha])
  · simp only [optimize, Outcome.bind_eq_ok] at h
    obtain ⟨qs, hq, h⟩ := h
    cases h
    obtain ⟨q, hq', rfl⟩ := List.mem_map.mp hp
    exact fun s hs => hm.vertices a edge qs q s ha he hq hq' hs

/-- Loading the segments of a mesh that was written by either build. -/
theorem loads_mesh {prec : PrecisionInfo fo.F} (hS : ByteSettings prec) {m : Mesh fo.F}
    {segs : List EncodedSegment} (hm : MeshHolds m) (hW : W → Narrow fo b b' prec m)
    (h : encodeMesh fo fb b prec m = .ok segs) (name : List UInt8) :
    Loads b' W (fun m' => CameBack fo (m, name) (m', name) ∧ Narrow fo b b' prec m) (assembleMesh fo fb b' ⟨true⟩ segs) ∧
      ∀ e ∈ segs, e.compression = .none := by
  rw [encodeMesh, Outcome.bind_eq_ok] at h
  obtain ⟨edge, he, h⟩ := h
  rw [mergeSegments_eq] at h
  simp only [Outcome.bind_ok, Outcome.bind_eq_ok] at h
  obtain ⟨pieces, hp, hs⟩ := h
  let prec' : PrecisionInfo fo.F := { prec with normal := 0, tangent := 0 }
  have hfit : MeshFits prec' m := ⟨hm.vertices, hm.normals, hm.uvs, hm.tangents, hm.vertexTriangles, hm.normalTriangles,
    hm.uvTriangles, hm.tangentTriangles, hm.custom, fun _ => (by decide : 0 < 64), fun _ => (by decide : 0 < 64)⟩
  have hO := mapAll_forall₂ hp
  have hF : List.Forall₂ (PiecesOf fo b prec' edge) (mergedSegs m) pieces :=
    forall₂_imp hO (fun s hs ps h => optimize_pieces (mergedSegs_fits hfit s hs) h)
  have hfits : ∀ p ∈ pieces.flatten, SegFits prec' p ∧ (W → SegNarrow fo b' prec edge p) := by
    intro p hp'
    obtain ⟨ps, hps, hpp⟩ := List.mem_flatten.mp hp'
    obtain ⟨s, hs, e⟩ := mapAll_ok_mem' hp ps hps
    exact ⟨(optimize_pieces (edge := edge) (mergedSegs_fits hfit s hs) e).fits p hpp,
      fun w => narrow_piece (hW w) he hs e p hpp⟩
  have hE := mapAll_forall₂ hs
  have hseg : ∀ e ∈ segs, e.compression = .none := by
    intro e he
    obtain ⟨p, hp, h⟩ := mapAll_ok_mem' hs e he
    exact (loads_segment (b' := b') (W := W) (edge' := edge) hS (hfits p hp).1 (hfits p hp).2 h).2
  refine ⟨?_, hseg⟩
  have hall : Loads b' W (List.Forall₂ (fun p d => Alike (p.loaded fo prec' edge) d ∧ SegNarrow fo b' prec edge p) pieces.flatten)
      (collect (segs.map (EncodedSegment.decode fo fb b' ⟨true⟩))) :=
    Loads.collect (forall₂_imp hE fun p hp e h =>
      (loads_segment (b' := b') (W := W) (edge' := edge) hS (hfits p hp).1 (hfits p hp).2 h).1)
  unfold assembleMesh
  refine hall.bind fun ds hds => .ok ?_
  have ha : MeshAlike _ _ := applied_alike (l := pieces.flatten.map (DecodedSegment.loaded fo prec' edge))
    (by rw [List.forall₂_map_left_iff]; exact hds.imp fun p d h => h.1)
  rw [applied_pieces hF] at ha
  refine ⟨⟨rfl, ⟨ha.indices.vertex, ha.indices.normal, ha.indices.uv, ha.indices.tangent⟩, ⟨?_, ?_, ?_, ?_⟩, ?_, ?_⟩, ?_⟩
  · rw [ha.sizes.vertices]
    cases hv : m.vertices with
    | none => simp [loadedMesh, hv]
    | some l =>
      obtain ⟨ps, hps⟩ : ∃ ps, PiecesOf fo b prec' edge (.vertex l) ps := by
        have hmem : vertex l ∈ mergedSegs m := by simp [mergedSegs, hv]
        obtain ⟨ps, _, h⟩ := forall₂_mem hF _ hmem
        exact ⟨ps, h⟩
      obtain ⟨qs, hq, hc⟩ := hps.cut l rfl
      simp only [loadedMesh, hv, Option.map_some, Option.some.injEq, loadedVertices, hq]
      rw [← hc, List.length_flatMap, List.length_flatten]
      congr 1
      exact List.map_congr_left fun q _ => quantVertices_length _ _ q
  · rw [ha.sizes.normals]; simp [loadedMesh, Function.comp_def]
  · rw [ha.sizes.uvs]; simp [loadedMesh, Function.comp_def]
  · rw [ha.sizes.tangents]; simp [loadedMesh, Function.comp_def]
  · rw [ha.hands]
    simp [loadedMesh, quantTangent, htFromBool, Function.comp_def]
  · have := ha.custom
    rw [show (loadedMesh fo b prec' edge m).customData = m.customData.reverse.map (CustomSeg.loaded fo) from rfl,
      List.forall₂_map_left_iff] at this
    exact this.imp fun c c' h => ⟨h.1, SameCustom.trans (sameCustom_loaded _) h.2⟩
  · have hn : ∀ s ∈ mergedSegs m, ∀ ps, s.optimize fo b = .ok ps → ∀ p ∈ ps, SegNarrow fo b' prec edge p := by
      intro s hs ps h p hp
      obtain ⟨ps', hps', e⟩ := forall₂_mem hO s hs
      rw [e] at h
      cases h
      obtain ⟨_, _, h⟩ := forall₂_mem hds p (List.mem_flatten.mpr ⟨_, hps', hp⟩)
      exact h.2
    refine ⟨fun h => ?_, fun h => ?_, fun h => ?_, fun c hc => ?_, fun l edge' qs q s hl he' hq hq' hs => ?_⟩
    · obtain ⟨l, h⟩ := Option.isSome_iff_exists.mp h
      exact hn (.normal l) (by simp [mergedSegs, h]) _ rfl _ (List.mem_singleton.mpr rfl)
    · obtain ⟨l, h⟩ := Option.isSome_iff_exists.mp h
      exact hn (.uv l) (by simp [mergedSegs, h]) _ rfl _ (List.mem_singleton.mpr rfl)
    · obtain ⟨l, h⟩ := Option.isSome_iff_exists.mp h
      exact hn (.tangent l) (by simp [mergedSegs, h]) _ rfl _ (List.mem_singleton.mpr rfl)
    · exact hn (.custom c) (by simp [mergedSegs, hc]) _ rfl _ (List.mem_singleton.mpr rfl)
    · have he'' : calcShortestEdge fo m.vertexTriangles m.vertices = .ok edge := he
      rw [he''] at he'
      cases he'
      exact hn (.vertex l) (by simp [mergedSegs, hl]) (qs.map .vertex) (by simp only [optimize, hq]; rfl) (.vertex q)
        (List.mem_map_of_mem hq') s hs

/-! ### Files -/

/-- Loading a file that was written by either build. -/
theorem loads_file {prec : PrecisionInfo fo.F} (hS : ByteSettings prec)
    {meshes : List (Mesh fo.F × List UInt8)} {bytes : List UInt8} (h : tmfBytes fo fb b prec meshes = .ok bytes)
    (hl : LimitsAny fo fb b prec meshes) (hW : W → ∀ mn ∈ meshes, Narrow fo b b' prec mn.1) (hb : bytes.length ≤ 2 ^ 31)
    (junk : List UInt8) (sched : List Nat) :
    Loads b' W (List.Forall₂ (fun mn mn' => CameBack fo mn mn' ∧ Narrow fo b b' prec mn.1) meshes) (readTmf fo fb b' ⟨bytes ++ junk, sched, false⟩) := by
  obtain ⟨enc, hE, hbs⟩ := tmfBytes_ok fo fb b prec h
  have hsz := seg_le_file h hE
  have hF := mapAll_forall₂ hE
  have hbytes : bytes = fileBytes 2 ((meshes.zip enc).map (fun p => ⟨p.1.2, p.2.map rawOf⟩)) := by
    rw [hbs, fileBytes, fileHead, List.length_map, List.length_zip, ← hF.length_eq, Nat.min_self, List.flatMap_map]
    congr 1
    exact flatMap_eq_of (fun p _ => meshBytes_eq _ _)
  have hasm : ∀ p ∈ meshes.zip enc, Loads b' W (fun m' => CameBack fo (p.1.1, p.1.2) (m', p.1.2) ∧ Narrow fo b b' prec p.1.1)
      (assembleMesh fo fb b' ⟨true⟩ p.2) ∧ ∀ e ∈ p.2, e.compression = .none := by
    intro p hp
    have := (List.forall₂_iff_zip.mp hF).2 hp
    have hp1 := (List.of_mem_zip hp).1
    exact loads_mesh hS (hl.holds p.1 hp1) (fun w => hW w p.1 hp1) this p.1.2
  have hframed : ∀ m ∈ (meshes.zip enc).map (fun p => (⟨p.1.2, p.2.map rawOf⟩ : RawMesh)), RawMesh.Framed .new m := by
    intro m hm'
    obtain ⟨p, hp, rfl⟩ := List.mem_map.mp hm'
    obtain ⟨hp1, hp2⟩ := List.of_mem_zip hp
    have he := (List.forall₂_iff_zip.mp hF).2 hp
    refine ⟨hl.names _ hp1, by simpa using hl.segments _ hp1 _ he, ?_⟩
    intro s hs
    obtain ⟨e, he, rfl⟩ := List.mem_map.mp hs
    exact rawOf_framed ((hasm p hp).2 e he) (le_trans (hsz _ hp2 e he) hb)
  have hcount : ((meshes.zip enc).map (fun p => (⟨p.1.2, p.2.map rawOf⟩ : RawMesh))).length < 2 ^ 32 := by
    rw [List.length_map, List.length_zip]
    exact lt_of_le_of_lt (Nat.min_le_left _ _) hl.count
  rw [hbytes]
  have hread := readTmf_file fo fb b' (minMinor := 2) (le_refl 2) hframed hcount junk sched
  rw [hread]
  refine Loads.mapAll ?_
  rw [List.forall₂_map_right_iff]
  clear hread hframed hcount hbytes
  have : ∀ {ms : List (Mesh fo.F × List UInt8)} {es : List (List EncodedSegment)}, ms.length = es.length →
      (∀ p ∈ ms.zip es, Loads b' W (fun m' => CameBack fo (p.1.1, p.1.2) (m', p.1.2) ∧ Narrow fo b b' prec p.1.1)
        (assembleMesh fo fb b' ⟨true⟩ p.2)) →
      List.Forall₂ (fun mn p => Loads b' W (fun mn' => CameBack fo mn mn' ∧ Narrow fo b b' prec mn.1) (rawMesh fo fb b' .new ⟨p.1.2, p.2.map rawOf⟩)) ms (ms.zip es) := by
    intro ms
    induction ms with
    | nil => intro es _ _; exact .nil
    | cons mn ms ih =>
      intro es hlen hz
      cases es with
      | nil => simp at hlen
      | cons e es =>
        rw [List.zip_cons_cons]
        refine .cons ?_ (ih (by simpa using hlen) fun p hp => hz p (by simp [hp]))
        have hmap : (e.map rawOf).map encodedOf = e := by
          rw [List.map_map]
          conv_rhs => rw [← List.map_id e]
          exact List.map_congr_left (fun x _ => encodedOf_rawOf x)
        rw [rawMesh, hmap]
        exact (hz (mn, e) (by simp)).bind fun m' hm' => .ok hm'
  exact this hF.length_eq fun p hp => (hasm p hp).1

end

end Tmf
