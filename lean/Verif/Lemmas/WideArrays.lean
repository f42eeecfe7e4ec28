import Verif.Lemmas.Arrays
import Verif.Spec.Accuracy
/-
Reading back arrays saved with any width below 64. The multiplier is whatever the shift in the save
function yields; the reader always divides by `2^p - 1`. Pairs of 32 bit fields are read as a field
of 64 bits, which yields 0 and consumes nothing.
-/

namespace Tmf
open Spec

/-- What the pair reader makes of a field of `p` bits. -/
def pairCode (p c : Nat) : Nat := if p = 32 then 0 else c % 2 ^ p

theorem pair32 (r : BitReader) : r.read2 32 = .ok ((0, 0), r) := by
  simp [BitReader.read2, BitReader.read, lowBits]

/-- Reading elements that consume nothing. -/
theorem readMany_const {β : Type} {f : BitReader → Outcome ImportError (β × BitReader)} {y : β}
    (h : ∀ r, f r = .ok (y, r)) : ∀ (n : Nat) (r : BitReader), readMany f n r = .ok (List.replicate n y, r) := by
  intro n
  induction n with
  | zero => intro r; rfl
  | succ n ih => intro r; simp [readMany, h, ih, List.replicate_succ]

section
variable {fo : FloatOps} {fb : F64Bytes fo}

theorem replicate_map {α β : Type} {f : α → β} {y : β} {l : List α} (h : ∀ a ∈ l, f a = y) :
    List.replicate l.length y = l.map f := by
  symm
  rw [List.eq_replicate_iff]
  refine ⟨List.length_map _, ?_⟩
  intro x hx
  obtain ⟨a, ha, rfl⟩ := List.mem_map.mp hx
  exact h a ha

/-- A uv coordinate saved with the multiplier `m`. -/
def uvBy (fo : FloatOps) (m p : Nat) (uv : Vec2 fo.F) : Vec2 fo.F :=
  uvOfCodes fo p (pairCode p (fo.toU64 (fo.mul uv.1 (fo.ofNat m))), pairCode p (fo.toU64 (fo.mul uv.2 (fo.ofNat m))))

theorem readUvs_by {b : Build} {l : List (Vec2 fo.F)} {p m : Nat} (hm : mulI32 b p = .ok m) (hp1 : 1 ≤ p) (hp : p < 64)
    (hl : l.length ≤ MAX_SEG_SIZE) :
    ∃ bytes, saveUvs fo b l p = .ok bytes ∧ readUvs fo bytes = .ok (l.map (uvBy fo m p)) := by
  obtain ⟨w, pad, e, _, hb⟩ := written_bits b (fields := l.flatMap (uvFields fo p m)) (by
    intro q hq
    obtain ⟨x, _, hx⟩ := List.mem_flatMap.mp hq
    simp only [uvFields, List.mem_cons, List.not_mem_nil, or_false] at hx
    rcases hx with rfl | rfl <;> dsimp only <;> omega)
  refine ⟨leBytes 1 p ++ leBytes 8 l.length ++ w.finish, ?_, ?_⟩
  · simp [saveUvs, hm, e]
  · have hh : readUvsHeader.runSlice (leBytes 1 p ++ leBytes 8 l.length ++ w.finish) = .ok ((p, l.length), w.finish) := by
      rw [readUvsHeader]
      simp only [List.append_assoc]
      rw [Prog.runSlice_bind, Prog.runSlice_readU8 _ (by omega)]
      simp only [Outcome.bind_ok]
      rw [Prog.runSlice_bind, Prog.runSlice_readU64 _ (MAX_lt hl)]
      simp only [Outcome.bind_ok]
      rw [if_neg (by omega)]
      rfl
    unfold readUvs
    rw [hh]
    simp only [Outcome.bind_ok]
    rw [if_neg (by omega), if_neg (by omega)]
    by_cases h32 : p = 32
    · subst h32
      rw [readMany_const (y := uvOfCodes fo 32 (0, 0)) (fun r => by rw [readUv, pair32]; rfl)]
      simp only [Outcome.bind_ok]
      rw [replicate_map (f := uvBy fo m 32) (fun a _ => by simp [uvBy, pairCode])]
    · obtain ⟨r', e2, _⟩ := readMany_ok (f := readUv fo p) (g := uvFields fo p m) (dec := uvBy fo m p) (l := l)
        (fun a _ r rest hr h => by
          simp only [uvFields, fieldBits_cons, fieldBits_nil, List.append_nil, List.append_assoc] at h
          obtain ⟨r', e, hi, hd⟩ := BitReader.read2_field hr (by omega) (by omega) h
          refine ⟨r', ?_, hi, hd⟩
          rw [readUv, e]
          simp [uvBy, pairCode, h32])
        (BitReader.inv_new (.slice w.finish)) (by rw [BitReader.rem_new]; have := hb []; rw [List.append_nil] at this; exact this)
      rw [e2]
      rfl

/-- A vertex saved with the multipliers `m`. -/
def vertexBy (fo : FloatOps) (s : VBox fo.F) (m p : Nat × Nat × Nat) (v : Vec3 fo.F) : Vec3 fo.F :=
  let sz := s.sizes fo
  vertexOfCodes fo (s.reread fo) p
    (coordCode fo v.1 s.minX sz.1 m.1 % 2 ^ p.1, coordCode fo v.2.1 s.minY sz.2.1 m.2.1 % 2 ^ p.2.1,
     coordCode fo v.2.2 s.minZ sz.2.2 m.2.2 % 2 ^ p.2.2)

theorem readVertices_by {b : Build} {l : List (Vec3 fo.F)} {precision edge : fo.F} {s : VBox fo.F} {m : Nat × Nat × Nat}
    (hs : vertexBox fo l = .ok s) (hx : (s.precs fo precision edge).1 < 64) (hy : (s.precs fo precision edge).2.1 < 64)
    (hz : (s.precs fo precision edge).2.2 < 64) (mx : mulI32 b (s.precs fo precision edge).1 = .ok m.1)
    (my : mulI32 b (s.precs fo precision edge).2.1 = .ok m.2.1) (mz : mulI32 b (s.precs fo precision edge).2.2 = .ok m.2.2)
    (hl : l.length ≤ MAX_SEG_SIZE) :
    ∃ bytes, saveVertices fo fb b l precision edge = .ok bytes ∧
      readVertices fo fb bytes = .ok (l.map (vertexBy fo s m (s.precs fo precision edge))) := by
  set p := s.precs fo precision edge with hpdef
  obtain ⟨w, pad, e, _, hb⟩ := written_bits b (fields := l.flatMap (vertexFields fo s p m)) (by
    intro q hq
    obtain ⟨x, hx, hq⟩ := List.mem_flatMap.mp hq
    simp only [vertexFields, List.mem_cons, List.not_mem_nil, or_false] at hq
    rcases hq with rfl | rfl | rfl <;> dsimp only <;> omega)
  refine ⟨leBytes 8 l.length
    ++ f64Bytes fb s.minX ++ f64Bytes fb s.maxX ++ f64Bytes fb s.minY ++ f64Bytes fb s.maxY
    ++ f64Bytes fb s.minZ ++ f64Bytes fb s.maxZ
    ++ leBytes 1 p.1 ++ leBytes 1 p.2.1 ++ leBytes 1 p.2.2 ++ w.finish, ?_, ?_⟩
  · simp only [saveVertices, hs, Outcome.bind_ok, ← hpdef, mx, my, mz, e]
  · unfold readVertices
    rw [readVerticesHeader_ok hl hx hy hz]
    simp only [Outcome.bind_ok]
    obtain ⟨r', e2, _⟩ := readMany_ok (f := readVertex fo (s.reread fo) (p.1, p.2.1, p.2.2))
      (g := vertexFields fo s p m) (dec := vertexBy fo s m p) (l := l)
      (fun a ha r rest hr h => by
        simp only [vertexFields, fieldBits_cons, fieldBits_nil, List.append_nil, List.append_assoc] at h
        obtain ⟨r1, e1, hi1, hd1⟩ := BitReader.read_field hr (by omega) h
        obtain ⟨r2, e2, hi2, hd2⟩ := BitReader.read_field hi1 (by omega) hd1
        obtain ⟨r3, e3, hi3, hd3⟩ := BitReader.read_field hi2 (by omega) hd2
        refine ⟨r3, ?_, hi3, hd3⟩
        simp only [readVertex, e1, Outcome.bind_ok, e2, e3]
        rfl)
      (BitReader.inv_new (.slice w.finish)) (by rw [BitReader.rem_new]; have := hb []; rw [List.append_nil] at this; exact this)
    rw [e2]
    rfl

/-- A float saved with the multiplier `m`. -/
def floatBy (fo : FloatOps) (r : fo.F × fo.F) (m p : Nat) (x : fo.F) : fo.F :=
  floatOfCode fo (fo.toD r.1) (fo.toD r.2) p (floatCode fo r m x % 2 ^ p)

theorem readFloats_by {b : Build} {data : List fo.F} {prec : fo.F} {m : Nat} (hp : floatPrec fo data prec < 64)
    (hm : mulI32 b (floatPrec fo data prec) = .ok m) (hl : data.length ≤ MAX_SEG_SIZE) :
    ∃ bytes, saveFloats fo fb b data prec = .ok bytes ∧ readFloats fo fb bytes =
      .ok (.float (data.map (floatBy fo (floatRange fo data) m (floatPrec fo data prec)))
        (floatLoadedPrec fo (fo.toD (floatRange fo data).1) (fo.toD (floatRange fo data).2) (floatPrec fo data prec))) := by
  set p := floatPrec fo data prec with hpdef
  set rg := floatRange fo data with hrdef
  obtain ⟨w, pad, e, _, hb⟩ := written_bits b
    (fields := data.flatMap (fun x => [(p, floatCode fo rg m x)])) (by
    intro q hq
    obtain ⟨x, hx, hq⟩ := List.mem_flatMap.mp hq
    simp only [List.mem_cons, List.not_mem_nil, or_false] at hq
    subst hq; dsimp only; omega)
  have hmap : data.flatMap (fun x => [(p, floatCode fo rg m x)]) = data.map (fun x => (p, floatCode fo rg m x)) :=
    flatMap_singleton' _ _
  refine ⟨leBytes 8 data.length ++ f64Bytes fb rg.1 ++ f64Bytes fb rg.2 ++ leBytes 1 p ++ w.finish, ?_, ?_⟩
  · simp only [saveFloats, ← hpdef, ← hrdef, hm, Outcome.bind_ok, ← hmap, e]
  · unfold readFloats
    have hh : (readFloatsHeader fb).runSlice (leBytes 8 data.length ++ f64Bytes fb rg.1 ++ f64Bytes fb rg.2 ++
        leBytes 1 p ++ w.finish) = .ok ((data.length, fo.toD rg.1, fo.toD rg.2, p), w.finish) := by
      simp only [readFloatsHeader, f64Bytes, List.append_assoc]
      rw [Prog.runSlice_bind, Prog.runSlice_readU64 _ (MAX_lt hl)]
      simp only [Outcome.bind_ok]
      rw [if_neg (by omega)]
      iterate 2
        rw [Prog.runSlice_bind, readF64_enc]
        simp only [Outcome.bind_ok]
      rw [Prog.runSlice_bind, readPrec_ok hp]
      rfl
    rw [hh]
    simp only [Outcome.bind_ok]
    obtain ⟨r', e2, _⟩ := readMany_ok (f := readFloat fo (fo.toD rg.1) (fo.toD rg.2) p)
      (g := fun x => [(p, floatCode fo rg m x)]) (dec := floatBy fo rg m p) (l := data)
      (fun a ha r rest hr h => by
        simp only [fieldBits_cons, fieldBits_nil, List.append_nil] at h
        obtain ⟨r1, e1, hi1, hd1⟩ := BitReader.read_field hr (by omega) h
        refine ⟨r1, ?_, hi1, hd1⟩
        simp only [readFloat, e1, Outcome.bind_ok]
        rfl)
      (BitReader.inv_new (.slice w.finish)) (by rw [BitReader.rem_new]; have := hb []; rw [List.append_nil] at this; exact this)
    rw [e2]
    simp only [Outcome.bind_ok]

/-- A colour channel saved with the multiplier `m`. -/
def channelBy (fo : FloatOps) (m p : Nat) (x : fo.F) : fo.F :=
  channelOfCode fo (2 ^ p - 1) (pairCode p (fo.toU64 (fo.mul x (fo.ofNat m))))

def colorBy (fo : FloatOps) (m p : Nat) (c : Vec4 fo.F) : Vec4 fo.F :=
  (channelBy fo m p c.1, channelBy fo m p c.2.1, channelBy fo m p c.2.2.1, channelBy fo m p c.2.2.2)

theorem readColors_by {b b' : Build} {data : List (Vec4 fo.F)} {prec : fo.F} {m : Nat} (hp : colorPrec fo prec < 64)
    (hm : mulI32 b (colorPrec fo prec) = .ok m) (hl : data.length ≤ MAX_SEG_SIZE) :
    ∃ bytes, saveColors fo b data prec = .ok bytes ∧ readColors fo b' bytes =
      .ok (.color (data.map (colorBy fo m (colorPrec fo prec))) (colorLoadedPrec fo (2 ^ colorPrec fo prec))) := by
  set p := colorPrec fo prec with hpdef
  obtain ⟨w, pad, e, _, hb⟩ := written_bits b (fields := data.flatMap (colorFields fo p m)) (by
    intro q hq
    obtain ⟨x, hx, hq⟩ := List.mem_flatMap.mp hq
    simp only [colorFields, List.mem_cons, List.not_mem_nil, or_false] at hq
    rcases hq with rfl | rfl | rfl | rfl <;> dsimp only <;> omega)
  refine ⟨leBytes 8 data.length ++ leBytes 1 p ++ w.finish, ?_, ?_⟩
  · simp only [saveColors, ← hpdef, hm, Outcome.bind_ok, e]
  · unfold readColors
    have hh : (do let len ← Prog.readU64; let p ← Prog.readU8; pure (len, p) : Prog (Nat × Nat)).runSlice
        (leBytes 8 data.length ++ leBytes 1 p ++ w.finish) = .ok ((data.length, p), w.finish) := by
      simp only [List.append_assoc]
      rw [Prog.runSlice_bind, Prog.runSlice_readU64 _ (MAX_lt hl)]
      simp only [Outcome.bind_ok]
      rw [Prog.runSlice_bind, Prog.runSlice_readU8 _ (by omega)]
      rfl
    rw [hh]
    have hlen : data.length ≤ 2 ^ 31 := hl
    simp only [Outcome.bind_ok]
    rw [if_neg (by omega)]
    have hsh : shiftU64 b' p = .ok (2 ^ p) := by rw [shiftU64.eq_def, if_pos (by omega)]
    rw [hsh]
    simp only [Outcome.bind_ok]
    by_cases h32 : p = 32
    · rw [h32]
      have hz : ∀ r, readColor fo (2 ^ 32 - 1) 32 r = .ok ((channelOfCode fo (2 ^ 32 - 1) 0, channelOfCode fo (2 ^ 32 - 1) 0,
          channelOfCode fo (2 ^ 32 - 1) 0, channelOfCode fo (2 ^ 32 - 1) 0), r) := fun r => by
        rw [readColor, pair32]
        simp only [Outcome.bind_ok]
        rw [pair32]
        rfl
      rw [readMany_const hz]
      simp only [Outcome.bind_ok]
      rw [replicate_map (f := colorBy fo m 32) (fun a _ => rfl)]
    · obtain ⟨r', e2, _⟩ := readMany_ok (f := readColor fo (2 ^ p - 1) p) (g := colorFields fo p m)
        (dec := colorBy fo m p) (l := data)
        (fun a ha r rest hr h => by
          simp only [colorFields, fieldBits_cons, fieldBits_nil, List.append_nil, List.append_assoc] at h
          obtain ⟨r1, e1, hi1, hd1⟩ := BitReader.read2_field hr (by omega) (by omega) h
          obtain ⟨r2, e2, hi2, hd2⟩ := BitReader.read2_field hi1 (by omega) (by omega) hd1
          refine ⟨r2, ?_, hi2, hd2⟩
          simp only [readColor, e1, Outcome.bind_ok, e2]
          simp only [colorBy, channelBy, pairCode, if_neg h32])
        (BitReader.inv_new (.slice w.finish)) (by rw [BitReader.rem_new]; have := hb []; rw [List.append_nil] at this; exact this)
      rw [e2]
      simp only [Outcome.bind_ok]

end

/-! ### Normals and tangents -/

def normalFieldsBy (fo : FloatOps) (m p : Nat) (n : Vec3 fo.F) : List (Nat × Nat) :=
  let c := normalCode fo m n
  [(1, c.sx.toNat), (1, c.sy.toNat), (1, c.sz.toNat), (p, c.asine), (p, c.z)]

/-- A normal saved with the multiplier `m`. -/
def normalBy (fo : FloatOps) (m p : Nat) (n : Vec3 fo.F) : Vec3 fo.F :=
  let c := normalCode fo m n
  normalFromEncoding fo p ⟨c.asine % 2 ^ p, c.z % 2 ^ p, c.sx, c.sy, c.sz⟩

/-- Reading elements of three sign bits and nothing else. -/
theorem readMany_signs (fo : FloatOps) : ∀ (n : Nat) (r : BitReader), r.Inv → 3 * n ≤ r.rem.length →
    ∃ l r', readMany (readNormal fo 32) n r = .ok (l, r') ∧ l.length = n ∧
      ∀ w ∈ l, ∃ sx sy sz, w = normalFromEncoding fo 32 ⟨0, 0, sx, sy, sz⟩ := by
  intro n
  induction n with
  | zero => intro r _ _; exact ⟨[], r, rfl, rfl, by simp⟩
  | succ n ih =>
    intro r hr hlen
    have step : ∀ {r : BitReader} {k : Nat}, r.Inv → k + 1 ≤ r.rem.length →
        ∃ x r', r.readBit = .ok (x, r') ∧ r'.Inv ∧ k ≤ r'.rem.length := by
      intro r k hr hk
      rcases BitReader.readBit_cases hr with ⟨b, l, r', h1, e, hi, hd, _⟩ | ⟨h1, _⟩
      · refine ⟨b, r', e, hi, ?_⟩
        rw [h1, List.length_cons] at hk
        rw [hd]
        omega
      · rw [h1] at hk
        simp at hk
    obtain ⟨sx, r1, e1, i1, k1⟩ := step hr (k := 3 * n + 2) (by omega)
    obtain ⟨sy, r2, e2, i2, k2⟩ := step i1 k1
    obtain ⟨sz, r3, e3, i3, k3⟩ := step i2 k2
    obtain ⟨l, r', e4, hl, hw⟩ := ih r3 i3 k3
    refine ⟨normalFromEncoding fo 32 ⟨0, 0, sx, sy, sz⟩ :: l, r', ?_, by rw [List.length_cons, hl], ?_⟩
    · have : readNormal fo 32 r = .ok (normalFromEncoding fo 32 ⟨0, 0, sx, sy, sz⟩, r3) := by
        simp only [readNormal, e1, Outcome.bind_ok, e2, e3]
        rw [pair32]
        rfl
      simp only [readMany, this, Outcome.bind_ok, e4]
    · intro w hmem
      rcases List.mem_cons.mp hmem with rfl | h
      · exact ⟨sx, sy, sz, rfl⟩
      · exact hw w h

section
variable {fo : FloatOps}

/-- Normals: with 32 bits, only signs are read, and not those of the normals. -/
theorem readNormals_by {b : Build} {l : List (Vec3 fo.F)} {p m : Nat} (hm : mulI32 b p = .ok m) (hp : p < 64)
    (hl : l.length ≤ MAX_SEG_SIZE) :
    ∃ bytes l', saveNormals fo b l p = .ok bytes ∧ readNormals fo bytes = .ok l' ∧ l'.length = l.length ∧
      (p ≠ 32 → l' = l.map (normalBy fo m p)) ∧
      (p = 32 → ∀ w ∈ l', ∃ sx sy sz, w = normalFromEncoding fo 32 ⟨0, 0, sx, sy, sz⟩) := by
  obtain ⟨w, pad, e, hw0, hb⟩ := written_bits b (fields := l.flatMap (normalFieldsBy fo m p)) (by
    intro q hq
    obtain ⟨x, hx, hq⟩ := List.mem_flatMap.mp hq
    simp only [normalFieldsBy, List.mem_cons, List.not_mem_nil, or_false] at hq
    rcases hq with rfl | rfl | rfl | rfl | rfl <;> dsimp only <;> omega)
  have hb' : byteBits w.finish = fieldBits (l.flatMap (normalFieldsBy fo m p)) ++ (List.replicate pad false ++ byteBits []) := by
    have := hb []
    rwa [List.append_nil] at this
  have hsave : saveNormals fo b l p = .ok (leBytes 8 l.length ++ leBytes 1 p ++ w.finish) := by
    have : Outcome.mapAll (normalFields fo b p) l = .ok (l.map (normalFieldsBy fo m p)) :=
      mapAll_of_ok (fun a ha => by simp [normalFields, normalToEncoding, hm, normalFieldsBy])
    simp [saveNormals, this, ← List.flatMap_def, e]
  have hread : readNormals fo (leBytes 8 l.length ++ leBytes 1 p ++ w.finish) =
      (readMany (readNormal fo p) l.length (.new (.slice w.finish)) >>= fun x => .ok x.1) := by
    unfold readNormals
    rw [readNormalsHeader_ok hl hp]
    rfl
  by_cases h32 : p = 32
  · subst h32
    obtain ⟨l', r', e2, hlen, hw⟩ := readMany_signs fo l.length (.new (.slice w.finish)) (BitReader.inv_new _) (by
      rw [BitReader.rem_new]
      show _ ≤ (byteBits w.finish).length
      rw [hb', List.length_append, length_fieldBits]
      have : 3 * l.length ≤ fieldWidth (l.flatMap (normalFieldsBy fo m 32)) := by
        clear hb' hread hsave hb e hl hw0
        induction l with
        | nil => simp
        | cons a l ih =>
          simp only [List.flatMap_cons, normalFieldsBy, fieldWidth, List.map_append, List.sum_append, List.map_cons, List.map_nil,
            List.sum_cons, List.sum_nil, List.length_cons] at ih ⊢
          omega
      omega)
    exact ⟨_, l', hsave, by rw [hread, e2]; rfl, hlen, fun h => absurd rfl h, fun _ => hw⟩
  · obtain ⟨r', e2, _⟩ := readMany_ok (f := readNormal fo p) (g := normalFieldsBy fo m p) (dec := normalBy fo m p) (l := l)
      (fun a ha r rest hr h => by
        simp only [normalFieldsBy, fieldBits_cons, fieldBits_nil, List.append_nil, List.append_assoc] at h
        obtain ⟨r1, e1, hi1, hd1⟩ := BitReader.readBit_field hr h
        obtain ⟨r2, e2, hi2, hd2⟩ := BitReader.readBit_field hi1 hd1
        obtain ⟨r3, e3, hi3, hd3⟩ := BitReader.readBit_field hi2 hd2
        obtain ⟨r4, e4, hi4, hd4⟩ := BitReader.read2_field hi3 (by omega) (by omega) hd3
        refine ⟨r4, ?_, hi4, hd4⟩
        simp [readNormal, e1, e2, e3, e4, normalBy])
      (BitReader.inv_new (.slice w.finish)) (by rw [BitReader.rem_new]; exact hb')
    exact ⟨_, _, hsave, by rw [hread, e2]; rfl, List.length_map _, fun _ => rfl, fun h => absurd h h32⟩

theorem readTangents_by {b : Build} {l : List (Tangent fo.F)} {p m : Nat} (hm : mulI32 b p = .ok m) (hp : p < 64)
    (hl : l.length ≤ MAX_SEG_SIZE) :
    ∃ bytes, saveTangents fo b l p = .ok bytes ∧ readTangents fo bytes =
      .ok (l.map fun t => (normalBy fo m p t.1, htFromBool fo (fo.isSignNegative t.2))) := by
  obtain ⟨w, pad, e, _, hb⟩ := written_bits b
    (fields := l.flatMap fun t => (1, (fo.isSignNegative t.2).toNat) :: normalFieldsBy fo m p t.1) (by
    intro q hq
    obtain ⟨x, hx, hq⟩ := List.mem_flatMap.mp hq
    simp only [normalFieldsBy, List.mem_cons, List.not_mem_nil, or_false] at hq
    rcases hq with rfl | rfl | rfl | rfl | rfl | rfl <;> dsimp only <;> omega)
  refine ⟨leBytes 8 l.length ++ leBytes 1 p ++ w.finish, ?_, ?_⟩
  · have : Outcome.mapAll (tangentFields fo b p) l =
        .ok (l.map fun t => (1, (fo.isSignNegative t.2).toNat) :: normalFieldsBy fo m p t.1) :=
      mapAll_of_ok (fun a ha => by simp [tangentFields, normalToEncoding, hm, normalFieldsBy])
    simp [saveTangents, this, ← List.flatMap_def, e]
  · unfold readTangents
    rw [readNormalsHeader_ok hl hp]
    simp only [Outcome.bind_ok]
    obtain ⟨r', e2, _⟩ := readMany_ok (f := readTangent fo p)
      (g := fun t => (1, (fo.isSignNegative t.2).toNat) :: normalFieldsBy fo m p t.1)
      (dec := fun t => (normalBy fo m p t.1, htFromBool fo (fo.isSignNegative t.2))) (l := l)
      (fun a ha r rest hr h => by
        simp only [normalFieldsBy, fieldBits_cons, fieldBits_nil, List.append_nil, List.append_assoc] at h
        obtain ⟨r0, e0, hi0, hd0⟩ := BitReader.readBit_field hr h
        obtain ⟨r1, e1, hi1, hd1⟩ := BitReader.readBit_field hi0 hd0
        obtain ⟨r2, e2, hi2, hd2⟩ := BitReader.readBit_field hi1 hd1
        obtain ⟨r3, e3, hi3, hd3⟩ := BitReader.readBit_field hi2 hd2
        obtain ⟨r4, e4, hi4, hd4⟩ := BitReader.read_field hi3 (by omega) hd3
        obtain ⟨r5, e5, hi5, hd5⟩ := BitReader.read_field hi4 (by omega) hd4
        refine ⟨r5, ?_, hi5, hd5⟩
        simp [readTangent, e0, e1, e2, e3, e4, e5, normalBy])
      (BitReader.inv_new (.slice w.finish)) (by rw [BitReader.rem_new]; have := hb []; rw [List.append_nil] at this; exact this)
    rw [e2]
    rfl

end

/-! ### Widths up to 31 bits -/

section
variable {fo : FloatOps} {fb : F64Bytes fo}

theorem Spec.Writable.mul {b : Build} {p : Nat} (h : Writable b p) : mulI32 b p = .ok (2 ^ p - 1) := by
  rcases h with h | ⟨rfl, rfl⟩
  · cases b
    · exact if_pos h
    · show Outcome.ok _ = _
      rw [Nat.mod_eq_of_lt (by omega)]
  · rfl

theorem Spec.Writable.le {b : Build} {p : Nat} (h : Writable b p) : p ≤ 31 := by
  rcases h with h | ⟨_, h⟩ <;> omega

theorem readUvs_writable {b : Build} {l : List (Vec2 fo.F)} {p : Nat} (hp : Writable b p) (hl : l.length ≤ MAX_SEG_SIZE) :
    ∃ bytes, saveUvs fo b l p = .ok bytes ∧ readUvs fo bytes = .ok (l.map (quantUv fo p)) := by
  rcases Nat.lt_or_ge 30 p with h | h
  · have h31 := hp.le
    obtain ⟨bytes, hs, hr⟩ := readUvs_by (fo := fo) (l := l) hp.mul (by omega) (by omega) hl
    refine ⟨bytes, hs, ?_⟩
    rw [hr]
    congr 1
    refine List.map_congr_left fun uv _ => ?_
    rw [uvBy, pairCode, pairCode, if_neg (by omega), if_neg (by omega), quantUv, if_neg (by omega)]
  · obtain ⟨bytes, hs, hr⟩ := readUvs_saved (fo := fo) (b := b) (l := l) h hl
    have := hr []
    rw [List.append_nil] at this
    exact ⟨bytes, hs, this⟩

theorem readVertices_writable {b : Build} {l : List (Vec3 fo.F)} {precision edge : fo.F} {s : VBox fo.F}
    (hs : vertexBox fo l = .ok s) (hx : Writable b (s.precs fo precision edge).1) (hy : Writable b (s.precs fo precision edge).2.1)
    (hz : Writable b (s.precs fo precision edge).2.2) (hl : l.length ≤ MAX_SEG_SIZE) :
    ∃ bytes, saveVertices fo fb b l precision edge = .ok bytes ∧
      readVertices fo fb bytes = .ok (l.map (quantVertex fo s (s.precs fo precision edge))) := by
  have h1 := hx.le
  have h2 := hy.le
  have h3 := hz.le
  exact readVertices_by (fo := fo) (fb := fb) (m := (2 ^ (s.precs fo precision edge).1 - 1, 2 ^ (s.precs fo precision edge).2.1 - 1,
    2 ^ (s.precs fo precision edge).2.2 - 1)) hs (by omega) (by omega) (by omega) hx.mul hy.mul hz.mul hl

theorem readFloats_writable {b : Build} {data : List fo.F} {prec : fo.F} (hp : Writable b (floatPrec fo data prec))
    (hl : data.length ≤ MAX_SEG_SIZE) :
    ∃ bytes, saveFloats fo fb b data prec = .ok bytes ∧ readFloats fo fb bytes = .ok (quantFloats fo data prec) := by
  have h1 := hp.le
  exact readFloats_by (fo := fo) (fb := fb) (by omega) hp.mul hl

theorem readColors_writable {b b' : Build} {data : List (Vec4 fo.F)} {prec : fo.F} (hp : Writable b (colorPrec fo prec))
    (hl : data.length ≤ MAX_SEG_SIZE) :
    ∃ bytes, saveColors fo b data prec = .ok bytes ∧ readColors fo b' bytes = .ok (quantColors fo data prec) := by
  have h31 := hp.le
  obtain ⟨bytes, hs, hr⟩ := readColors_by (fo := fo) (b' := b') (data := data) (by omega) hp.mul hl
  refine ⟨bytes, hs, ?_⟩
  rw [hr, quantColors]
  have e : colorBy fo (2 ^ colorPrec fo prec - 1) (colorPrec fo prec) = quantColor fo (colorPrec fo prec) := by
    funext c
    simp only [colorBy, channelBy, pairCode, if_neg (show colorPrec fo prec ≠ 32 by omega)]
    rfl
  rw [e]

theorem readNormals_writable {b : Build} {l : List (Vec3 fo.F)} {p : Nat} (hp : Writable b p) (hl : l.length ≤ MAX_SEG_SIZE) :
    ∃ bytes, saveNormals fo b l p = .ok bytes ∧ readNormals fo bytes = .ok (l.map (quantNormal fo p)) := by
  have h31 := hp.le
  obtain ⟨bytes, l', hs, hr, _, e, _⟩ := readNormals_by (fo := fo) (l := l) hp.mul (by omega) hl
  exact ⟨bytes, hs, by rw [hr, e (by omega)]; rfl⟩

theorem readTangents_writable {b : Build} {l : List (Tangent fo.F)} {p : Nat} (hp : Writable b p) (hl : l.length ≤ MAX_SEG_SIZE) :
    ∃ bytes, saveTangents fo b l p = .ok bytes ∧ readTangents fo bytes = .ok (l.map (quantTangent fo p)) := by
  have h31 := hp.le
  exact readTangents_by (fo := fo) hp.mul (by omega) hl

end

end Tmf
