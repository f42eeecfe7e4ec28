import Verif.Spec.Outline
import Verif.Lemmas.Damage
import Verif.Lemmas.NormalDecode
/-
Lemmas for C100: how far a reader gets does not depend on the bits it finds.
-/

namespace Tmf
open Spec

/-- Where `f` succeeds, `g` does so on as many other bits, taking as many, with a related value. -/
def InStep {α β : Type} (R : α → β → Prop) (f : BitReader → Outcome ImportError (α × BitReader))
    (g : BitReader → Outcome ImportError (β × BitReader)) : Prop :=
  ∀ r s : BitReader, r.Inv → s.Inv → s.rem.length = r.rem.length → ∀ a r', f r = .ok (a, r') →
    ∃ c s', g s = .ok (c, s') ∧ R a c ∧ r'.Inv ∧ s'.Inv ∧ s'.rem.length = r'.rem.length

theorem InStep.pure {α β : Type} {R : α → β → Prop} {a : α} {c : β} (h : R a c) :
    InStep R (fun r => .ok (a, r)) (fun r => .ok (c, r)) := by
  intro r s hr hs hl a' r' e
  cases e
  exact ⟨c, s, rfl, h, hr, hs, hl⟩

theorem InStep.bind {α β γ δ : Type} {R : α → β → Prop} {Q : γ → δ → Prop}
    {f : BitReader → Outcome ImportError (α × BitReader)} {g : BitReader → Outcome ImportError (β × BitReader)}
    {h : α → BitReader → Outcome ImportError (γ × BitReader)} {k : β → BitReader → Outcome ImportError (δ × BitReader)}
    (hf : InStep R f g) (hh : ∀ a c, R a c → InStep Q (h a) (k c)) :
    InStep Q (fun r => f r >>= fun x => h x.1 x.2) (fun r => g r >>= fun x => k x.1 x.2) := by
  intro r s hr hs hl a r' e
  simp only [Outcome.bind_eq_ok] at e
  obtain ⟨⟨a1, r1⟩, e1, e2⟩ := e
  obtain ⟨c1, s1, e3, hR, hr1, hs1, hl1⟩ := hf r s hr hs hl _ _ e1
  obtain ⟨c2, s2, e4, hQ, hr2, hs2, hl2⟩ := hh _ _ hR r1 s1 hr1 hs1 hl1 _ _ e2
  refine ⟨c2, s2, ?_, hQ, hr2, hs2, hl2⟩
  dsimp only
  rw [e3, Outcome.bind_ok]
  exact e4

theorem InStep.congr {α β : Type} {R : α → β → Prop} {f f' : BitReader → Outcome ImportError (α × BitReader)}
    {g g' : BitReader → Outcome ImportError (β × BitReader)} (h : InStep R f g) (e : ∀ r, f' r = f r) (e' : ∀ r, g' r = g r) :
    InStep R f' g' := by
  have h1 : f' = f := funext e
  have h2 : g' = g := funext e'
  subst f' g'
  exact h

/-- A reader of a fixed number of bits. -/
theorem Exactly.inStep {α : Type} {f : BitReader → Outcome ImportError (α × BitReader)} {k : Nat} {g : List Bool → α}
    (h : Exactly f k g) : InStep (fun _ _ => True) f f := by
  intro r s hr hs hl a r' e
  have hk : k ≤ r.rem.length := by
    by_contra hc
    exact (h r hr).2 (by omega) _ e
  obtain ⟨r1, e1, hi1, hd1⟩ := (h r hr).1 hk
  obtain ⟨s1, e2, hi2, hd2⟩ := (h s hs).1 (by omega)
  rw [e1] at e
  cases e
  exact ⟨_, s1, e2, trivial, hi1, hi2, by rw [hd1, hd2, List.length_drop, List.length_drop, hl]⟩

theorem inStep_read_any (w : Nat) : InStep (fun _ _ => True) (fun r => r.read w) (fun r => r.read w) := by
  by_cases h : w < 64
  · exact (exactly_read h).inStep
  · have e : ∀ r : BitReader, r.read w = .ok (0, r) := fun r => by unfold BitReader.read; rw [if_pos (by omega)]
    exact (InStep.pure trivial).congr e e

theorem inStep_read (w : Nat) : InStep (fun _ c => c < 2 ^ w) (fun r => r.read w) (fun r => r.read w) := by
  intro r s hr hs hl a r' e
  obtain ⟨c, s', e', _, h⟩ := inStep_read_any w r s hr hs hl a r' e
  have hg := BitReader.read_lt hs w
  dsimp only at e'
  rw [e'] at hg
  exact ⟨c, s', e', hg.1, h⟩

theorem inStep_readBit : InStep (fun _ _ => True) (fun r => r.readBit) (fun r => r.readBit) := exactly_readBit.inStep

theorem inStep_read2 (w : Nat) : InStep (fun _ c => c.1 < 2 ^ w ∧ c.2 < 2 ^ w) (fun r => r.read2 w) (fun r => r.read2 w) := by
  have h : InStep (fun _ _ => True) (fun r => r.read2 w) (fun r => r.read2 w) := by
    by_cases h0 : w = 0
    · subst h0
      exact (InStep.pure (a := (0, 0)) (c := (0, 0)) trivial).congr (fun r => rfl) (fun r => rfl)
    by_cases h : 32 < w
    · exact ((inStep_read_any w).bind fun a c _ => (inStep_read_any w).bind fun a' c' _ =>
        InStep.pure (a := (a, a')) (c := (c, c')) trivial).congr (read2_large h) (read2_large h)
    · exact ((inStep_read_any (w * 2)).bind fun a c _ =>
        InStep.pure (a := (a >>> w, lowBits a w)) (c := (c >>> w, lowBits c w)) trivial).congr
          (read2_small h0 (by omega)) (read2_small h0 (by omega))
  intro r s hr hs hl a r' e
  obtain ⟨c, s', e', _, h⟩ := h r s hr hs hl a r' e
  have hg := BitReader.read2_lt hs w
  dsimp only at e'
  rw [e'] at hg
  exact ⟨c, s', e', hg.1, h⟩

theorem inStep_readMany {α : Type} {R : α → α → Prop} {f : BitReader → Outcome ImportError (α × BitReader)}
    (hf : InStep R f f) : ∀ n, InStep (fun l l' : List α => l'.length = l.length) (readMany f n) (readMany f n)
  | 0 => (InStep.pure (R := fun l l' : List α => l'.length = l.length) (a := []) (c := []) rfl).congr (fun _ => rfl) (fun _ => rfl)
  | n + 1 => (hf.bind fun a c _ => (inStep_readMany hf n).bind fun l l' h =>
      InStep.pure (R := fun l l' : List α => l'.length = l.length) (a := a :: l) (c := c :: l')
        (by rw [List.length_cons, List.length_cons, h])).congr (fun _ => rfl) (fun _ => rfl)

/-- There is room above the minimum, or the build wraps. -/
def Room (b : Build) (w min : Nat) : Prop := b = .checked → min + 2 ^ w ≤ 2 ^ 64

theorem addMin_room {b : Build} {w min c : Nat} (h : Room b w min) (hc : c < 2 ^ w) :
    addMin b c min = .ok ((c + min) % 2 ^ 32) := by
  unfold addMin
  rw [if_neg]
  rintro ⟨h1, h2⟩
  have := h h2
  omega

theorem inStep_indexPairs {b : Build} {w min : Nat} (h : Room b w min) :
    ∀ n, InStep (fun l l' : List Nat => l'.length = l.length) (readIndexPairs b w min n) (readIndexPairs b w min n)
  | 0 => (InStep.pure (R := fun l l' : List Nat => l'.length = l.length) (a := []) (c := []) rfl).congr (fun _ => rfl) (fun _ => rfl)
  | n + 1 => by
    intro r s hr hs hl l r' e
    simp only [readIndexPairs, Outcome.bind_eq_ok] at e
    obtain ⟨⟨⟨a, c⟩, r1⟩, e1, a', e2, c', e3, ⟨l1, r2⟩, e4, e5⟩ := e
    cases e5
    obtain ⟨⟨x, y⟩, s1, e6, ⟨hx, hy⟩, hr1, hs1, hl1⟩ := inStep_read2 w r s hr hs hl _ _ e1
    obtain ⟨l2, s2, e7, hlen, hr2, hs2, hl2⟩ := inStep_indexPairs h n r1 s1 hr1 hs1 hl1 _ _ e4
    refine ⟨(x + min) % 2 ^ 32 :: (y + min) % 2 ^ 32 :: l2, s2, ?_, by simp [hlen], hr2, hs2, hl2⟩
    dsimp only at e6
    rw [readIndexPairs, e6, Outcome.bind_ok]
    dsimp only
    rw [addMin_room h hx, addMin_room h hy, Outcome.bind_ok, Outcome.bind_ok, e7]
    rfl

theorem readIndices_steady {b : Build} {w min n : Nat} (h : Room b w min) {r s : BitReader} (hr : r.Inv) (hs : s.Inv)
    (hl : s.rem.length = r.rem.length) {l : List Nat} (e : readIndices b w min n r = .ok l) :
    ∃ l', readIndices b w min n s = .ok l' ∧ l'.length = l.length := by
  rw [readIndices, Outcome.bind_eq_ok] at e
  obtain ⟨⟨l1, r1⟩, e1, e⟩ := e
  obtain ⟨l2, s1, e2, hlen, hr1, hs1, hl1⟩ := inStep_indexPairs h _ r s hr hs hl _ _ e1
  rw [readIndices, e2, Outcome.bind_ok]
  dsimp only at e ⊢
  split
  · next ho =>
    rw [if_pos ho] at e
    simp only [Outcome.bind_eq_ok] at e
    obtain ⟨⟨a, r2⟩, e3, a', e4, e5⟩ := e
    cases e5
    obtain ⟨c, s2, e6, hc, _⟩ := inStep_read w r1 s1 hr1 hs1 hl1 _ _ e3
    dsimp only at e6
    rw [e6, Outcome.bind_ok]
    dsimp only
    rw [addMin_room h hc]
    exact ⟨_, rfl, by simp [hlen]⟩
  · next ho =>
    rw [if_neg ho] at e
    cases e
    exact ⟨_, rfl, hlen⟩

theorem new_rem_length {d d' : List UInt8} (k : Nat) (h : d'.length = d.length) :
    (BitReader.new (.slice (d'.drop k))).rem.length = (BitReader.new (.slice (d.drop k))).rem.length := by
  rw [BitReader.rem_new, BitReader.rem_new, show (Source.slice (d'.drop k)).bytes = d'.drop k from rfl,
    show (Source.slice (d.drop k)).bytes = d.drop k from rfl, length_byteBits, length_byteBits, List.length_drop,
    List.length_drop, h]

theorem readMany_steady {α : Type} {R : α → α → Prop} {f : BitReader → Outcome ImportError (α × BitReader)}
    (hf : InStep R f f) {n k : Nat} {data data' : List UInt8} (hlen : data'.length = data.length) {l : List α} {r : BitReader}
    (e : readMany f n (.new (.slice (data.drop k))) = .ok (l, r)) :
    ∃ l' r', readMany f n (.new (.slice (data'.drop k))) = .ok (l', r') ∧ l'.length = l.length := by
  obtain ⟨l', s', e', h, _⟩ := inStep_readMany hf n _ _ (BitReader.inv_new _) (BitReader.inv_new _) (new_rem_length k hlen) _ _ e
  exact ⟨l', s', e', h⟩

/-! ### Each kind of array -/

theorem trianglesHeader_min {ctx : DecodeCtx} {w n min : Nat} {l rest : List UInt8}
    (h : (readTrianglesHeader ctx).runSlice l = .ok ((w, n, min), rest)) : storedMin ctx 0 l = min := by
  rw [readTrianglesHeader, Prog.runSlice_bind, Outcome.bind_eq_ok] at h
  obtain ⟨⟨w', l1⟩, h1, h⟩ := h
  obtain ⟨hw, rfl⟩ := readU8_inv h1
  dsimp only at h
  rw [Prog.runSlice_bind, Outcome.bind_eq_ok] at h
  obtain ⟨⟨n', l2⟩, h2, h⟩ := h
  obtain ⟨hn, rfl⟩ := readU64_inv h2
  dsimp only at h
  rw [Prog.runSlice_bind, Outcome.bind_eq_ok] at h
  obtain ⟨⟨m', l3⟩, h3, h⟩ := h
  have hm : m' = min := by
    dsimp only at h
    split at h
    · cases h
    · cases h
      rfl
  subst hm
  unfold DecodeCtx.readTriangleMin at h3
  unfold storedMin
  split
  · next hc =>
    rw [if_pos hc] at h3
    obtain ⟨hm, rfl⟩ := readU64_inv h3
    rw [← List.append_assoc, List.drop_left' (by simp [length_leBytes]), List.take_left' (length_leBytes _ _), leNat_leBytes_of_lt (by norm_num at hm ⊢; exact hm)]
  · next hc =>
    rw [if_neg hc] at h3
    cases h3
    rfl

theorem readTriangles_steady {b : Build} {ctx : DecodeCtx} {data data' : List UInt8} (hlen : data'.length = data.length)
    (hh : data'.take (9 + if ctx.readMin then 8 else 0) = data.take (9 + if ctx.readMin then 8 else 0))
    (hw : Room b (byteAt data 0) (storedMin ctx 0 data)) {l : List Nat} (e : readTriangles b ctx data = .ok l) :
    ∃ l', readTriangles b ctx data' = .ok l' ∧ l'.length = l.length := by
  rw [readTriangles, Outcome.bind_eq_ok] at e
  obtain ⟨⟨⟨w, n, min⟩, rest⟩, e1, e2⟩ := e
  rw [trianglesHeader_width e1, trianglesHeader_min e1] at hw
  obtain ⟨hr, e1'⟩ := (reads_triangles ctx).same e1 hh
  subst hr
  rw [readTriangles, e1', Outcome.bind_ok]
  exact readIndices_steady hw (BitReader.inv_new _) (BitReader.inv_new _) (new_rem_length _ hlen) e2

theorem readDefaultTriangles_steady {b : Build} {ctx : DecodeCtx} {data data' : List UInt8} (hlen : data'.length = data.length)
    (hh : data'.take (9 + if ctx.readMin then 8 else 0) = data.take (9 + if ctx.readMin then 8 else 0))
    (hw : Room b (byteAt data 0) (storedMin ctx 0 data)) {l : List Nat} (e : readDefaultTriangles b ctx data = .ok l) :
    ∃ l', readDefaultTriangles b ctx data' = .ok l' ∧ l'.length = l.length := by
  rw [readDefaultTriangles, Outcome.bind_eq_ok] at e
  obtain ⟨⟨⟨w, n, min⟩, rest⟩, e1, e2⟩ := e
  rw [trianglesHeader_width e1, trianglesHeader_min e1] at hw
  obtain ⟨hr, e1'⟩ := (reads_triangles ctx).same e1 hh
  subst hr
  rw [readDefaultTriangles, e1', Outcome.bind_ok]
  dsimp only at e2 ⊢
  by_cases h0 : w = 0
  · rw [if_pos h0] at e2 ⊢
    cases e2
    exact ⟨_, rfl, rfl⟩
  · rw [if_neg h0] at e2 ⊢
    exact readIndices_steady hw (BitReader.inv_new _) (BitReader.inv_new _) (new_rem_length _ hlen) e2

variable {fo : FloatOps} {fb : F64Bytes fo}

theorem readVertices_steady {data data' : List UInt8} (hlen : data'.length = data.length)
    (hh : data'.take 59 = data.take 59) {l : List (Vec3 fo.F)} (e : readVertices fo fb data = .ok l) :
    ∃ l', readVertices fo fb data' = .ok l' ∧ l'.length = l.length := by
  obtain ⟨l', e', h, _⟩ := readVertices_damage hlen hh e
  exact ⟨l', e', h⟩

theorem readNormals_steady {data data' : List UInt8} (hlen : data'.length = data.length)
    (hh : data'.take 9 = data.take 9) {l : List (Vec3 fo.F)} (e : readNormals fo data = .ok l) :
    ∃ l', readNormals fo data' = .ok l' ∧ l'.length = l.length := by
  unfold readNormals at e
  simp only [Outcome.bind_eq_ok] at e
  obtain ⟨⟨⟨n, w⟩, rest⟩, e1, ⟨l1, r1⟩, e2, e3⟩ := e
  cases e3
  obtain ⟨hr, e1'⟩ := reads_normals.same e1 hh
  subst hr
  have hf : InStep (fun _ _ => True) (readNormal fo w) (readNormal fo w) :=
    (inStep_readBit.bind fun sx sx' _ => inStep_readBit.bind fun sy sy' _ => inStep_readBit.bind fun sz sz' _ =>
      (inStep_read2 w).bind fun c c' _ => InStep.pure (a := normalFromEncoding fo w ⟨c.1, c.2, sx, sy, sz⟩)
        (c := normalFromEncoding fo w ⟨c'.1, c'.2, sx', sy', sz'⟩) trivial).congr (fun r => rfl) (fun r => rfl)
  obtain ⟨l', r', e', hs⟩ := readMany_steady hf hlen e2
  refine ⟨l', ?_, hs⟩
  rw [readNormals, e1', Outcome.bind_ok]
  dsimp only
  rw [e']
  rfl

theorem readTangents_steady {data data' : List UInt8} (hlen : data'.length = data.length)
    (hh : data'.take 9 = data.take 9) {l : List (Tangent fo.F)} (e : readTangents fo data = .ok l) :
    ∃ l', readTangents fo data' = .ok l' ∧ l'.length = l.length := by
  obtain ⟨l', e', h, _⟩ := readTangents_damage hlen hh e
  exact ⟨l', e', h⟩

theorem readUvs_steady {data data' : List UInt8} (hlen : data'.length = data.length)
    (hh : data'.take 9 = data.take 9) {l : List (Vec2 fo.F)} (e : readUvs fo data = .ok l) :
    ∃ l', readUvs fo data' = .ok l' ∧ l'.length = l.length := by
  unfold readUvs at e
  rw [Outcome.bind_eq_ok] at e
  obtain ⟨⟨⟨w, n⟩, rest⟩, e1, e2⟩ := e
  obtain ⟨hr, e1'⟩ := reads_uvs.same e1 hh
  subst hr
  rw [readUvs, e1', Outcome.bind_ok]
  dsimp only at e2 ⊢
  by_cases h0 : w = 0
  · rw [if_pos h0] at e2 ⊢
    cases e2
    exact ⟨_, rfl, rfl⟩
  rw [if_neg h0] at e2 ⊢
  by_cases h64 : w ≥ 64
  · rw [if_pos h64] at e2
    cases e2
  rw [if_neg h64] at e2 ⊢
  simp only [Outcome.bind_eq_ok] at e2
  obtain ⟨⟨l1, r1⟩, e2, e3⟩ := e2
  cases e3
  have hf : InStep (fun _ _ => True) (readUv fo w) (readUv fo w) :=
    ((inStep_read2 w).bind fun c c' _ => InStep.pure (a := uvOfCodes fo w c) (c := uvOfCodes fo w c') trivial).congr
      (fun r => rfl) (fun r => rfl)
  obtain ⟨l', r', e', hs⟩ := readMany_steady hf hlen e2
  refine ⟨l', ?_, hs⟩
  rw [e']
  rfl

theorem readFloats_steady {data data' : List UInt8} (hlen : data'.length = data.length)
    (hh : data'.take 25 = data.take 25) {d : CustomData fo.F} (e : readFloats fo fb data = .ok d) :
    ∃ l l' p, d = .float l p ∧ readFloats fo fb data' = .ok (.float l' p) ∧ l'.length = l.length := by
  obtain ⟨l, l', p, hd, e', h, _⟩ := readFloats_damage hlen hh e
  exact ⟨l, l', p, hd, e', h⟩

theorem readColors_steady {b : Build} {data data' : List UInt8} (hlen : data'.length = data.length)
    (hh : data'.take 9 = data.take 9) {d : CustomData fo.F} (e : readColors fo b data = .ok d) :
    ∃ l l' p, d = .color l p ∧ readColors fo b data' = .ok (.color l' p) ∧ l'.length = l.length := by
  unfold readColors at e
  rw [Outcome.bind_eq_ok] at e
  obtain ⟨⟨⟨n, w⟩, rest⟩, e1, e⟩ := e
  obtain ⟨hr, e1'⟩ := reads_colors.same e1 hh
  subst hr
  rw [readColors, e1', Outcome.bind_ok]
  dsimp only at e ⊢
  split at e
  · cases e
  next hn =>
  rw [if_neg hn]
  simp only [Outcome.bind_eq_ok] at e
  obtain ⟨pow, ep, ⟨l1, r1⟩, e2, e3⟩ := e
  cases e3
  have hf : InStep (fun _ _ => True) (readColor fo (pow - 1) w) (readColor fo (pow - 1) w) :=
    ((inStep_read2 w).bind fun c c' _ => (inStep_read2 w).bind fun d d' _ => InStep.pure
      (a := ((channelOfCode fo (pow - 1) c.1, channelOfCode fo (pow - 1) c.2, channelOfCode fo (pow - 1) d.1,
        channelOfCode fo (pow - 1) d.2) : Vec4 fo.F))
      (c := ((channelOfCode fo (pow - 1) c'.1, channelOfCode fo (pow - 1) c'.2, channelOfCode fo (pow - 1) d'.1,
        channelOfCode fo (pow - 1) d'.2) : Vec4 fo.F)) trivial).congr (fun r => rfl) (fun r => rfl)
  obtain ⟨l', r', e', hs⟩ := readMany_steady hf hlen e2
  refine ⟨l1, l', _, rfl, ?_, hs⟩
  rw [ep, Outcome.bind_ok, e']
  rfl

/-! ### Segments -/

/-- Two decoded segments of the same kind and length. -/
inductive SameForm {F : Type} : DecodedSegment F → DecodedSegment F → Prop where
  | vertex {l l' : List (Vec3 F)} (h : l'.length = l.length) : SameForm (.vertex l) (.vertex l')
  | normal {l l' : List (Vec3 F)} (h : l'.length = l.length) : SameForm (.normal l) (.normal l')
  | uv {l l' : List (Vec2 F)} (h : l'.length = l.length) : SameForm (.uv l) (.uv l')
  | tangent {l l' : List (Tangent F)} (h : l'.length = l.length) : SameForm (.tangent l) (.tangent l')
  | triVertex {l l' : List Nat} (h : l'.length = l.length) : SameForm (.triVertex l) (.triVertex l')
  | triNormal {l l' : List Nat} (h : l'.length = l.length) : SameForm (.triNormal l) (.triNormal l')
  | triUv {l l' : List Nat} (h : l'.length = l.length) : SameForm (.triUv l) (.triUv l')
  | triTangent {l l' : List Nat} (h : l'.length = l.length) : SameForm (.triTangent l) (.triTangent l')
  | shared (mask : Nat) {l l' : List Nat} (h : l'.length = l.length) : SameForm (.shared mask l) (.shared mask l')
  | custom {s s' : CustomSeg F} (h : SameCustom s s') : SameForm (.custom s) (.custom s')
  | nothing : SameForm .nothing .nothing

theorem storedMin_drop {ctx : DecodeCtx} (k : Nat) (data : List UInt8) : storedMin ctx 0 (data.drop k) = storedMin ctx k data := by
  unfold storedMin
  rw [List.drop_drop, Nat.zero_add]

theorem decode_steady {b : Build} {ctx : DecodeCtx} {seg : EncodedSegment} {d : DecodedSegment fo.F}
    (e : seg.decode fo fb b ctx = .ok d) (hw : b = .checked → IndexRoom ctx seg.segType seg.data) {data' : List UInt8}
    (hlen : data'.length = seg.data.length)
    (hh : data'.take (bodyStart ctx seg.segType seg.data) = seg.data.take (bodyStart ctx seg.segType seg.data)) :
    ∃ d', EncodedSegment.decode fo fb b ctx { seg with data := data' } = .ok d' ∧ SameForm d d' := by
  obtain ⟨t, c, data⟩ := seg
  dsimp only at *
  have index : ∀ (mk : List Nat → DecodedSegment fo.F), (∀ l l', l'.length = l.length → SameForm (mk l) (mk l')) →
      Room b (byteAt data 0) (storedMin ctx 0 data) →
      data'.take (9 + if ctx.readMin then 8 else 0) = data.take (9 + if ctx.readMin then 8 else 0) →
      (do let l ← decodeIndices b ctx ⟨t, c, data⟩; .ok (mk l)) = .ok d →
      ∃ d', (do let l ← decodeIndices b ctx ⟨t, c, data'⟩; .ok (mk l)) = .ok d' ∧ SameForm d d' := by
    clear e hh hw
    intro mk he hw hh e
    rw [Outcome.bind_eq_ok] at e
    obtain ⟨l, e, e1⟩ := e
    cases e1
    cases c with
    | none =>
      obtain ⟨l', e', hl⟩ := readDefaultTriangles_steady hlen hh hw e
      exact ⟨mk l', by simp only [decodeIndices]; rw [e']; rfl, he _ _ hl⟩
    | _ => cases e
  cases t with
  | invalid =>
    cases e
    exact ⟨_, rfl, .nothing⟩
  | vertex =>
    simp only [EncodedSegment.decode, Outcome.bind_eq_ok] at e
    obtain ⟨l, e, e1⟩ := e
    cases e1
    obtain ⟨l', e', hl⟩ := readVertices_steady hlen hh e
    exact ⟨.vertex l', by simp only [EncodedSegment.decode]; rw [e']; rfl, .vertex hl⟩
  | normal =>
    simp only [EncodedSegment.decode, Outcome.bind_eq_ok] at e
    obtain ⟨l, e, e1⟩ := e
    cases e1
    obtain ⟨l', e', hl⟩ := readNormals_steady hlen hh e
    exact ⟨.normal l', by simp only [EncodedSegment.decode]; rw [e']; rfl, .normal hl⟩
  | uv =>
    simp only [EncodedSegment.decode, Outcome.bind_eq_ok] at e
    obtain ⟨l, e, e1⟩ := e
    cases e1
    obtain ⟨l', e', hl⟩ := readUvs_steady hlen hh e
    exact ⟨.uv l', by simp only [EncodedSegment.decode]; rw [e']; rfl, .uv hl⟩
  | tangent =>
    simp only [EncodedSegment.decode, Outcome.bind_eq_ok] at e
    obtain ⟨l, e, e1⟩ := e
    cases e1
    obtain ⟨l', e', hl⟩ := readTangents_steady hlen hh e
    exact ⟨.tangent l', by simp only [EncodedSegment.decode]; rw [e']; rfl, .tangent hl⟩
  | vertexTriangle => exact index .triVertex (fun _ _ h => .triVertex h) hw hh e
  | normalTriangle => exact index .triNormal (fun _ _ h => .triNormal h) hw hh e
  | uvTriangle => exact index .triUv (fun _ _ h => .triUv h) hw hh e
  | tangentTriangle => exact index .triTangent (fun _ _ h => .triTangent h) hw hh e
  | sharedTriangle =>
    simp only [EncodedSegment.decode, decodeShared] at e ⊢
    cases data with
    | nil => cases e
    | cons mask rest =>
      cases data' with
      | nil => cases hlen
      | cons mask' rest' =>
        simp only [bodyStart] at hh
        rw [Nat.add_comm 1, List.take_succ_cons, List.take_succ_cons] at hh
        obtain ⟨rfl, hh'⟩ := List.cons.inj hh
        cases c with
        | none =>
          dsimp only at e ⊢
          rw [Outcome.bind_eq_ok] at e
          obtain ⟨l, e, e1⟩ := e
          cases e1
          have hw' : Room b (byteAt rest 0) (storedMin ctx 0 rest) := by
            have h1 := storedMin_drop (ctx := ctx) 1 (mask' :: rest)
            rw [List.drop_one, List.tail_cons] at h1
            rw [h1]
            exact hw
          obtain ⟨l', e', hs⟩ := readDefaultTriangles_steady (by simpa using hlen) hh' hw' e
          exact ⟨.shared mask'.toNat l', by rw [e']; rfl, .shared _ hs⟩
        | _ => cases e
  | customIndex =>
    simp only [EncodedSegment.decode, CustomSeg.read, Outcome.bind_eq_ok] at e
    obtain ⟨s, ⟨⟨name, rest⟩, en, l, e, e1⟩, e2⟩ := e
    cases e1
    cases e2
    obtain ⟨h1, h2⟩ := take_drop_same hh
    obtain ⟨rfl, en'⟩ := customName_damage en h1
    have hw' : Room b (byteAt (data.drop (1 + byteAt data 0)) 0) (storedMin ctx 0 (data.drop (1 + byteAt data 0))) := by
      rw [← customName_inv en 0, storedMin_drop]; exact hw
    obtain ⟨l', e', hs⟩ := readTriangles_steady (by rw [List.length_drop, List.length_drop, hlen]) h2 hw' e
    exact ⟨.custom ⟨name, .index l' (maxIndex l')⟩, by
      simp only [EncodedSegment.decode, CustomSeg.read]; rw [en', Outcome.bind_ok]; dsimp only; rw [e']; rfl, .custom (.index _ _ _ _ _ hs)⟩
  | customInteger =>
    simp only [EncodedSegment.decode, CustomSeg.read, Outcome.bind_eq_ok] at e
    obtain ⟨s, ⟨⟨name, rest⟩, en, l, e, e1⟩, e2⟩ := e
    cases e1
    cases e2
    obtain ⟨h1, h2⟩ := take_drop_same hh
    obtain ⟨rfl, en'⟩ := customName_damage en h1
    have hw' : Room b (byteAt (data.drop (1 + byteAt data 0)) 0) (storedMin ctx 0 (data.drop (1 + byteAt data 0))) := by
      rw [← customName_inv en 0, storedMin_drop]; exact hw
    obtain ⟨l', e', hs⟩ := readTriangles_steady (by rw [List.length_drop, List.length_drop, hlen]) h2 hw' e
    exact ⟨.custom ⟨name, .integer l' (maxIndex l')⟩, by
      simp only [EncodedSegment.decode, CustomSeg.read]; rw [en', Outcome.bind_ok]; dsimp only; rw [e']; rfl, .custom (.integer _ _ _ _ _ hs)⟩
  | customFloat =>
    simp only [EncodedSegment.decode, CustomSeg.read, Outcome.bind_eq_ok] at e
    obtain ⟨s, ⟨⟨name, rest⟩, en, dd, e, e1⟩, e2⟩ := e
    cases e1
    cases e2
    obtain ⟨h1, h2⟩ := take_drop_same hh
    obtain ⟨rfl, en'⟩ := customName_damage en h1
    obtain ⟨l, l', p, rfl, e', hs⟩ := readFloats_steady (by rw [List.length_drop, List.length_drop, hlen]) h2 e
    exact ⟨.custom ⟨name, .float l' p⟩, by
      simp only [EncodedSegment.decode, CustomSeg.read]; rw [en', Outcome.bind_ok]; dsimp only; rw [e']; rfl, .custom (.float _ _ _ _ hs)⟩
  | customColor =>
    simp only [EncodedSegment.decode, CustomSeg.read, Outcome.bind_eq_ok] at e
    obtain ⟨s, ⟨⟨name, rest⟩, en, dd, e, e1⟩, e2⟩ := e
    cases e1
    cases e2
    obtain ⟨h1, h2⟩ := take_drop_same hh
    obtain ⟨rfl, en'⟩ := customName_damage en h1
    obtain ⟨l, l', p, rfl, e', hs⟩ := readColors_steady (by rw [List.length_drop, List.length_drop, hlen]) h2 e
    exact ⟨.custom ⟨name, .color l' p⟩, by
      simp only [EncodedSegment.decode, CustomSeg.read]; rw [en', Outcome.bind_ok]; dsimp only; rw [e']; rfl, .custom (.color _ _ _ _ hs)⟩

end Tmf
