import Verif.Spec.Damage
import Verif.Lemmas.DecodedSize
import Verif.Lemmas.Assemble
/-
Lemmas for C99.
-/

namespace Tmf
open Spec

/-- `f` takes exactly `k` bits and returns `g` of them, or fails. -/
def Exactly {α : Type} (f : BitReader → Outcome ImportError (α × BitReader)) (k : Nat) (g : List Bool → α) : Prop :=
  ∀ r : BitReader, r.Inv →
    (k ≤ r.rem.length → ∃ r', f r = .ok (g (r.rem.take k), r') ∧ r'.Inv ∧ r'.rem = r.rem.drop k) ∧
    (r.rem.length < k → ∀ x, f r ≠ .ok x)

theorem exactly_read {w : Nat} (h : w < 64) : Exactly (fun r => r.read w) w value := by
  intro r hr
  refine ⟨fun hl => ?_, fun hl x e => ?_⟩
  · obtain ⟨r', e, hi, hd, _⟩ := BitReader.read_ok hr h hl
    exact ⟨r', e, hi, hd⟩
  · dsimp only at e
    rw [BitReader.read_err hr h hl] at e
    cases e

theorem exactly_readBit : Exactly (fun r => r.readBit) 1 (fun l => l.headD false) := by
  intro r hr
  rcases BitReader.readBit_cases hr with ⟨b, l, r1, h1, e1, hi, hd, _⟩ | ⟨h1, e1⟩
  · refine ⟨fun _ => ⟨r1, ?_, hi, ?_⟩, fun hl => ?_⟩
    · rw [h1]; exact e1
    · rw [h1, hd]; rfl
    · rw [h1] at hl; simp at hl
  · refine ⟨fun hl => ?_, fun _ x e => ?_⟩
    · rw [h1] at hl; simp at hl
    · dsimp only at e
      rw [e1] at e
      cases e

theorem Exactly.pure {α : Type} (a : α) : Exactly (fun r => .ok (a, r)) 0 (fun _ => a) := by
  intro r hr
  exact ⟨fun _ => ⟨r, rfl, hr, by simp⟩, fun hl => absurd hl (by simp)⟩

theorem Exactly.bind {α β : Type} {f : BitReader → Outcome ImportError (α × BitReader)} {k m : Nat} {g : List Bool → α}
    {h : α → BitReader → Outcome ImportError (β × BitReader)} {q : α → List Bool → β} (hf : Exactly f k g)
    (hh : ∀ a, Exactly (h a) m (q a)) :
    Exactly (fun r => f r >>= fun x => h x.1 x.2) (k + m) (fun l => q (g (l.take k)) (l.drop k)) := by
  intro r hr
  refine ⟨fun hl => ?_, fun hl x e => ?_⟩
  · obtain ⟨r1, e1, hi1, hd1⟩ := (hf r hr).1 (by omega)
    obtain ⟨r2, e2, hi2, hd2⟩ := (hh (g (r.rem.take k)) r1 hi1).1 (by rw [hd1, List.length_drop]; omega)
    refine ⟨r2, ?_, hi2, ?_⟩
    · dsimp only
      rw [e1, Outcome.bind_ok]
      dsimp only
      rw [e2, hd1, List.take_take, Nat.min_eq_left (by omega), List.drop_take, Nat.add_sub_cancel_left]
    · rw [hd2, hd1, List.drop_drop]
  · simp only [Outcome.bind_eq_ok] at e
    obtain ⟨⟨a, r1⟩, e1, e2⟩ := e
    by_cases hk : k ≤ r.rem.length
    · obtain ⟨r1', e1', hi1, hd1⟩ := (hf r hr).1 hk
      have e3 := Outcome.ok.inj (e1.symm.trans e1')
      obtain ⟨ea, er⟩ := Prod.mk.inj e3
      subst ea er
      exact (hh _ _ hi1).2 (by rw [hd1, List.length_drop]; omega) _ e2
    · exact (hf r hr).2 (by omega) _ e1

theorem Exactly.congr {α : Type} {f f' : BitReader → Outcome ImportError (α × BitReader)} {k : Nat} {g g' : List Bool → α}
    (h : Exactly f k g) (e : ∀ r, f' r = f r) (eg : ∀ l, g' l = g l) : Exactly f' k g' := by
  have : f' = f := funext e
  have : g' = g := funext eg
  subst f' g'
  exact h

theorem exactly_read2 {w : Nat} (h : GoodWidth w) :
    Exactly (fun r => r.read2 w) (2 * w) (fun l => (value (l.take w), value (l.drop w))) := by
  have h2 : Exactly (fun r => r.read w >>= fun x => (fun a r => r.read w >>= fun y => (fun b r => .ok ((a, b), r)) y.1 y.2)
      x.1 x.2) (w + (w + 0)) (fun l => (value (l.take w), value ((l.drop w).take w))) :=
    (exactly_read h.1).bind fun a => (exactly_read h.1).bind fun b => Exactly.pure (a, b)
  intro r hr
  have hrel := BitReader.read2_eq hr h.2
  refine ⟨fun hl => ?_, fun hl x e => ?_⟩
  · obtain ⟨r1, e1, hi1, hd1⟩ := (h2 r hr).1 (by omega)
    have e1' : (r.read w >>= fun (a, r) => r.read w >>= fun (b, r) => .ok ((a, b), r)) = Outcome.ok
      ((value ((r.rem.take (w + (w + 0))).take w), value (((r.rem.take (w + (w + 0))).drop w).take w)), r1) := e1
    rw [e1'] at hrel
    cases hq : r.read2 w with
    | ok x =>
      rw [hq] at hrel
      obtain ⟨hv, he⟩ := hrel
      refine ⟨x.2, ?_, he.inv₁, ?_⟩
      · refine hq.trans (congrArg Outcome.ok (Prod.ext ?_ rfl))
        rw [hv]
        refine Prod.ext ?_ ?_
        · rw [show w + (w + 0) = 2 * w by omega]
        · rw [show w + (w + 0) = 2 * w by omega]
          dsimp only
          rw [List.take_of_length_le]
          rw [List.length_drop, List.length_take]
          omega
      · rw [he.rem, hd1, show w + (w + 0) = 2 * w by omega]
    | err x => rw [hq] at hrel; exact hrel.elim
    | panic => rw [hq] at hrel; exact hrel.elim
  · dsimp only at e
    rw [e] at hrel
    cases hq : (r.read w >>= fun (a, r) => r.read w >>= fun (b, r) => (.ok ((a, b), r) : Outcome ImportError _)) with
    | ok y => exact (h2 r hr).2 (by omega) y hq
    | err y => rw [hq] at hrel; exact hrel.elim
    | panic => rw [hq] at hrel; exact hrel.elim

/-- The `i`-th piece of `k` bits. -/
def chunk (k i : Nat) (l : List Bool) : List Bool := (l.drop (i * k)).take k

theorem chunk_succ (k i : Nat) (l : List Bool) : chunk k (i + 1) l = chunk k i (l.drop k) := by
  rw [chunk, chunk, List.drop_drop, Nat.add_mul, Nat.one_mul, Nat.add_comm]

theorem readMany_exact {α : Type} {f : BitReader → Outcome ImportError (α × BitReader)} {k : Nat} {g : List Bool → α}
    (hf : Exactly f k g) : ∀ n, Exactly (readMany f n) (n * k) (fun l => (List.range n).map (fun i => g (chunk k i l)))
  | 0 => by
    intro r hr
    rw [Nat.zero_mul]
    exact ⟨fun _ => ⟨r, rfl, hr, by simp⟩, fun hl => absurd hl (by simp)⟩
  | n + 1 => by
    have ih := readMany_exact hf n
    have h : Exactly (readMany f (n + 1)) (k + (n * k + 0)) (fun l => (List.range (n + 1)).map (fun i => g (chunk k i l))) := by
      refine (hf.bind fun a => ih.bind fun l => Exactly.pure (a :: l)).congr (fun r => rfl) (fun l => ?_)
      rw [List.range_succ_eq_map, List.map_cons, List.map_map]
      refine congrArg₂ List.cons ?_ ?_
      · rw [chunk, Nat.zero_mul, List.drop_zero]
      · refine List.map_congr_left fun i hi => ?_
        have hi := List.mem_range.mp hi
        simp only [Function.comp_apply, Nat.succ_eq_add_one, chunk_succ]
        have : i * k + k ≤ n * k := by
          rw [← Nat.succ_mul]
          exact Nat.mul_le_mul_right _ hi
        refine congrArg g ?_
        rw [chunk, chunk, List.drop_take, List.take_take, Nat.min_eq_left (by omega)]
    rw [show k + (n * k + 0) = (n + 1) * k by rw [Nat.add_mul]; omega] at h
    exact h

/-- What reading an array from a slice gives. -/
theorem readMany_chunks {α : Type} {f : BitReader → Outcome ImportError (α × BitReader)} {k : Nat} {g : List Bool → α}
    (hf : Exactly f k g) {n : Nat} {rest : List UInt8} :
    (n * k ≤ 8 * rest.length → ∃ r', readMany f n (.new (.slice rest)) =
      .ok ((List.range n).map (fun i => g (chunk k i (byteBits rest))), r')) ∧
    ((∃ x, readMany f n (.new (.slice rest)) = .ok x) → n * k ≤ 8 * rest.length) := by
  have hr := readMany_exact hf n (.new (.slice rest)) (BitReader.inv_new _)
  rw [BitReader.rem_new, show (Source.slice rest).bytes = rest from rfl, length_byteBits] at hr
  refine ⟨fun h => ?_, fun ⟨x, e⟩ => ?_⟩
  · obtain ⟨r', e, _⟩ := hr.1 h
    refine ⟨r', e.trans (congrArg Outcome.ok (Prod.ext ?_ rfl))⟩
    refine List.map_congr_left fun i hi => ?_
    have hi := List.mem_range.mp hi
    have : i * k + k ≤ n * k := by
      rw [← Nat.succ_mul]
      exact Nat.mul_le_mul_right _ hi
    refine congrArg g ?_
    rw [chunk, chunk, List.drop_take, List.take_take, Nat.min_eq_left (by omega)]
  · by_contra h
    exact hr.2 (by omega) x e

/-! ### Bits and bytes -/

theorem byteBits_get : ∀ (l : List UInt8) (p : Nat),
    (byteBits l)[p]? = l[p / 8]?.bind (fun b => (bits 8 b.toNat)[p % 8]?)
  | [], p => by simp [byteBits]
  | b :: l, p => by
    rw [byteBits_cons]
    by_cases h : p < 8
    · rw [List.getElem?_append_left (by simpa using h), Nat.div_eq_of_lt h, Nat.mod_eq_of_lt h]
      rfl
    · rw [List.getElem?_append_right (by simpa using h), length_bits, byteBits_get l (p - 8)]
      have h1 : p / 8 = (p - 8) / 8 + 1 := by omega
      have h2 : p % 8 = (p - 8) % 8 := by omega
      rw [h1, h2, List.getElem?_cons_succ]

/-- An element whose bytes are the same has the same bits. -/
theorem chunk_untouched {start k i : Nat} {data data' : List UInt8} (h : Untouched start k i data data') :
    chunk k i (byteBits (data.drop start)) = chunk k i (byteBits (data'.drop start)) := by
  apply List.ext_getElem?
  intro p
  rw [chunk, chunk, List.getElem?_take, List.getElem?_take]
  split
  · next hp =>
    rw [List.getElem?_drop, List.getElem?_drop, byteBits_get, byteBits_get, List.getElem?_drop, List.getElem?_drop]
    rw [h ((i * k + p) / 8) (by omega) (by rw [Nat.add_mul]; omega)]
  · rfl

theorem map_range_get {α : Type} (f : Nat → α) (n i : Nat) :
    ((List.range n).map f)[i]? = if i < n then some (f i) else none := by
  rw [List.getElem?_map]
  split
  · next h => rw [List.getElem?_range h]; rfl
  · next h => rw [List.getElem?_eq_none (by rw [List.length_range]; omega)]; rfl

/-! ### Heads of fixed length -/

/-- Every successful run takes `h` bytes. -/
def Prog.Reads {α : Type} (p : Prog α) (h : Nat) : Prop :=
  ∀ (l : List UInt8) (a : α) (rest : List UInt8), p.runSlice l = .ok (a, rest) → rest.length + h = l.length

theorem Prog.Reads.bind {α β : Type} {p : Prog α} {q : α → Prog β} {h k : Nat} (hp : p.Reads h) (hq : ∀ a, (q a).Reads k) :
    (p >>= q).Reads (h + k) := by
  intro l a rest e
  rw [Prog.runSlice_bind, Outcome.bind_eq_ok] at e
  obtain ⟨⟨x, l1⟩, e1, e2⟩ := e
  have h1 := hp _ _ _ e1
  have h2 := hq _ _ _ _ e2
  dsimp only at h2
  omega

theorem Prog.reads_pure {α : Type} (a : α) : (pure a : Prog α).Reads 0 := by
  intro l a' rest e
  cases e
  rfl

theorem Prog.reads_fail {α : Type} (x : ImportError) (h : Nat) : (Prog.fail x : Prog α).Reads h := by
  intro l a' rest e
  cases e

theorem Prog.Reads.ite {α : Type} {p q : Prog α} {h : Nat} {c : Prop} [Decidable c] (hp : p.Reads h) (hq : q.Reads h) :
    (if c then p else q).Reads h := by
  split
  · exact hp
  · exact hq

theorem Prog.reads_readExact {α : Type} (n : Nat) (f : List UInt8 → α) : (Prog.readExact n (fun bs => .ret (f bs))).Reads n := by
  intro l a rest e
  rw [Prog.runSlice_readExact] at e
  split at e
  · cases e
    rw [List.length_drop]
    omega
  · cases e

theorem reads_readPrec : readPrec.Reads 1 :=
  (Prog.reads_readExact 1 leNat).bind fun _ => .ite (Prog.reads_fail _ 0) (Prog.reads_pure _)

theorem reads_readU8 : Prog.readU8.Reads 1 := Prog.reads_readExact 1 leNat

theorem reads_readU64 : Prog.readU64.Reads 8 := Prog.reads_readExact 8 leNat

theorem reads_readF64 {fo : FloatOps} (fb : F64Bytes fo) : (readF64 fb).Reads 8 := Prog.reads_readExact 8 _

theorem reads_vertices (fo : FloatOps) (fb : F64Bytes fo) : (readVerticesHeader fo fb).Reads 59 :=
  reads_readU64.bind fun _ => (reads_readF64 fb).bind fun _ => (reads_readF64 fb).bind fun _ =>
    (reads_readF64 fb).bind fun _ => (reads_readF64 fb).bind fun _ => (reads_readF64 fb).bind fun _ =>
    (reads_readF64 fb).bind fun _ => reads_readPrec.bind fun _ => reads_readPrec.bind fun _ =>
    reads_readPrec.bind fun _ => .ite (Prog.reads_fail _ 0) (Prog.reads_pure _)

theorem reads_uvs : readUvsHeader.Reads 9 :=
  reads_readU8.bind fun _ => reads_readU64.bind fun _ => .ite (Prog.reads_fail _ 0) (Prog.reads_pure _)

theorem reads_normals : readNormalsHeader.Reads 9 :=
  reads_readU64.bind fun _ => .ite (Prog.reads_fail _ 1) (reads_readPrec.bind fun _ => Prog.reads_pure _)

theorem reads_triangles (ctx : DecodeCtx) : (readTrianglesHeader ctx).Reads (9 + if ctx.readMin then 8 else 0) := by
  have hm : ctx.readTriangleMin.Reads (if ctx.readMin then 8 else 0) := by
    unfold DecodeCtx.readTriangleMin
    split
    · exact reads_readU64
    · exact Prog.reads_pure _
  have h := reads_readU8.bind fun precision => reads_readU64.bind fun length => hm.bind fun min =>
    Prog.Reads.ite (c := length > MAX_SEG_SIZE) (Prog.reads_fail .segmentTooLong 0) (Prog.reads_pure (precision, length, min))
  have e : 1 + (8 + ((if ctx.readMin then 8 else 0) + 0)) = 9 + if ctx.readMin then 8 else 0 := by omega
  rw [e] at h
  exact h

theorem reads_floats {fo : FloatOps} (fb : F64Bytes fo) : (readFloatsHeader fb).Reads 25 :=
  reads_readU64.bind fun _ => .ite (Prog.reads_fail _ 17) ((reads_readF64 fb).bind fun _ => (reads_readF64 fb).bind fun _ =>
    reads_readPrec.bind fun _ => Prog.reads_pure _)

theorem reads_colors : (do let len ← Prog.readU64; let p ← Prog.readU8; pure (len, p) : Prog (Nat × Nat)).Reads 9 :=
  reads_readU64.bind fun _ => reads_readU8.bind fun _ => Prog.reads_pure _

/-- The head depends on its own bytes only. -/
theorem Prog.Reads.same {α : Type} {p : Prog α} {h : Nat} (hp : p.Reads h) {l l' rest : List UInt8} {a : α}
    (e : p.runSlice l = .ok (a, rest)) (ht : l'.take h = l.take h) :
    rest = l.drop h ∧ p.runSlice l' = .ok (a, l'.drop h) := by
  have hlen := hp _ _ _ e
  obtain ⟨used, rfl, hu, _⟩ := p.runSlice_prefix e
  have hl : used.length = h := by simp at hlen; omega
  subst hl
  rw [List.take_left'] at ht
  · refine ⟨by simp, ?_⟩
    have e2 : used ++ l'.drop used.length = l' :=
      (congrArg (· ++ l'.drop used.length) ht).symm.trans (List.take_append_drop _ _)
    have e3 := hu (l'.drop used.length)
    rwa [e2] at e3
  · rfl

/-! ### Arrays -/

/-- Equally long, and the same at every element that was not touched. -/
def SameUntouched {α : Type} (start k : Nat) (data data' : List UInt8) (l l' : List α) : Prop :=
  l'.length = l.length ∧ ∀ i, Untouched start k i data data' → l'[i]? = l[i]?

theorem readMany_damage {α : Type} {f : BitReader → Outcome ImportError (α × BitReader)} {k : Nat} {g : List Bool → α}
    (hf : Exactly f k g) {n start : Nat} {data data' : List UInt8} (hlen : data'.length = data.length) {l : List α}
    {r : BitReader} (e : readMany f n (.new (.slice (data.drop start))) = .ok (l, r)) :
    ∃ l' r', readMany f n (.new (.slice (data'.drop start))) = .ok (l', r') ∧ SameUntouched start k data data' l l' := by
  have hn := (readMany_chunks hf).2 ⟨_, e⟩
  obtain ⟨r1, e1⟩ := (readMany_chunks hf).1 hn
  rw [e1] at e
  obtain ⟨r2, e2⟩ := (readMany_chunks (n := n) (rest := data'.drop start) hf).1 (by
    rw [List.length_drop] at hn ⊢
    rwa [hlen])
  cases e
  refine ⟨_, r2, e2, ?_, fun i hi => ?_⟩
  · simp
  · rw [map_range_get, map_range_get, chunk_untouched hi]

/-- The first `n` values of `w` bits. -/
def codesOf (w n : Nat) (l : List Bool) : List Nat := (List.range n).map (fun i => value (chunk w i l))

theorem codesOf_succ (w n : Nat) (l : List Bool) : codesOf w (n + 1) l = value (l.take w) :: codesOf w n (l.drop w) := by
  rw [codesOf, codesOf, List.range_succ_eq_map, List.map_cons, List.map_map]
  refine congrArg₂ List.cons ?_ ?_
  · rw [chunk, Nat.zero_mul, List.drop_zero]
  · refine List.map_congr_left fun i _ => ?_
    rw [Function.comp_apply, Nat.succ_eq_add_one, chunk_succ]

theorem codesOf_add (w m : Nat) : ∀ (n : Nat) (l : List Bool), codesOf w (n + m) l = codesOf w n l ++ codesOf w m (l.drop (n * w))
  | 0, l => by simp [codesOf]
  | n + 1, l => by
    rw [show n + 1 + m = n + m + 1 by omega, codesOf_succ, codesOf_succ, codesOf_add w m n, List.drop_drop,
      Nat.add_mul, Nat.one_mul, Nat.add_comm w, List.cons_append]

theorem readIndexPairs_codes (b : Build) {w : Nat} (h : GoodWidth w) (min : Nat) : ∀ (n : Nat) (r : BitReader), r.Inv →
    (2 * n * w ≤ r.rem.length → ∃ r' : BitReader, r'.Inv ∧ r'.rem = r.rem.drop (2 * n * w) ∧
      readIndexPairs b w min n r =
        (Outcome.mapAll (fun c => addMin b c min) (codesOf w (2 * n) r.rem) >>= fun l => .ok (l, r'))) ∧
    (r.rem.length < 2 * n * w → ∀ x, readIndexPairs b w min n r ≠ .ok x)
  | 0, r, hr => by
    refine ⟨fun _ => ⟨r, hr, by simp, rfl⟩, fun hl => absurd hl (by simp)⟩
  | n + 1, r, hr => by
    have h2 := exactly_read2 h r hr
    have hw : 2 * (n + 1) * w = 2 * w + 2 * n * w := by ring
    refine ⟨fun hl => ?_, fun hl x e => ?_⟩
    · obtain ⟨r1, e1, hi1, hd1⟩ := h2.1 (by omega)
      obtain ⟨r2, hi2, hd2, e2⟩ := (readIndexPairs_codes b h min n r1 hi1).1 (by rw [hd1, List.length_drop]; omega)
      refine ⟨r2, hi2, ?_, ?_⟩
      · rw [hd2, hd1, List.drop_drop, hw]
      · have e1' : r.read2 w = .ok ((value (r.rem.take w), value ((r.rem.drop w).take w)), r1) := by
          refine e1.trans (congrArg Outcome.ok (Prod.ext (Prod.ext ?_ ?_) rfl))
          · dsimp only
            rw [List.take_take, Nat.min_eq_left (by omega)]
          · dsimp only
            rw [List.drop_take, show 2 * w - w = w by omega]
        rw [readIndexPairs, e1', Outcome.bind_ok]
        dsimp only
        rw [e2, hd1, show 2 * (n + 1) = 2 * n + 1 + 1 by omega, codesOf_succ, codesOf_succ, List.drop_drop,
          show w + w = 2 * w by omega, Outcome.mapAll, Outcome.mapAll]
        cases addMin b (value (r.rem.take w)) min with
        | ok a =>
          cases addMin b (value ((r.rem.drop w).take w)) min with
          | ok c =>
            cases Outcome.mapAll (fun c => addMin b c min) (codesOf w (2 * n) (r.rem.drop (2 * w))) <;> rfl
          | err x => rfl
          | panic => rfl
        | err x => rfl
        | panic => rfl
    · simp only [readIndexPairs, Outcome.bind_eq_ok] at e
      obtain ⟨⟨⟨a, c⟩, r1⟩, e1, _, _, _, _, ⟨l', r2⟩, e2, _⟩ := e
      by_cases hk : 2 * w ≤ r.rem.length
      · obtain ⟨r1', e1', hi1, hd1⟩ := h2.1 hk
        have e3 := Outcome.ok.inj (e1.symm.trans e1')
        obtain ⟨_, er⟩ := Prod.mk.inj e3
        subst er
        exact (readIndexPairs_codes b h min n _ hi1).2 (by rw [hd1, List.length_drop]; omega) _ e2
      · exact h2.2 (by omega) _ e1

theorem mapAll_snoc {ε α β : Type} (f : α → Outcome ε β) : ∀ (l : List α) (x : α),
    Outcome.mapAll f (l ++ [x]) = (Outcome.mapAll f l >>= fun ys => f x >>= fun y => .ok (ys ++ [y]))
  | [], x => by
    simp only [List.nil_append, Outcome.mapAll]
    cases f x <;> rfl
  | a :: l, x => by
    rw [List.cons_append, Outcome.mapAll, Outcome.mapAll, mapAll_snoc f l x]
    cases f a with
    | ok y =>
      cases Outcome.mapAll f l with
      | ok ys => cases f x <;> rfl
      | err e => rfl
      | panic => rfl
    | err e => rfl
    | panic => rfl

theorem readIndices_codes (b : Build) {w : Nat} (h : GoodWidth w) (min n : Nat) (r : BitReader) (hr : r.Inv) :
    (n * w ≤ r.rem.length →
      readIndices b w min n r = Outcome.mapAll (fun c => addMin b c min) (codesOf w n r.rem)) ∧
    (r.rem.length < n * w → ∀ x, readIndices b w min n r ≠ .ok x) := by
  have hp := readIndexPairs_codes b h min (n / 2) r hr
  have hn : n = 2 * (n / 2) + n % 2 := by omega
  have hnw : n * w = 2 * (n / 2) * w + n % 2 * w := by rw [← Nat.add_mul, ← hn]
  refine ⟨fun hl => ?_, fun hl x e => ?_⟩
  · obtain ⟨r1, hi1, hd1, e1⟩ := hp.1 (by omega)
    rw [readIndices, e1]
    by_cases ho : n % 2 = 0
    · rw [show codesOf w n r.rem = codesOf w (2 * (n / 2)) r.rem by congr 1; omega]
      simp only [ho, ne_eq, not_true_eq_false, if_false]
      cases Outcome.mapAll (fun c => addMin b c min) (codesOf w (2 * (n / 2)) r.rem) <;> rfl
    · have ho1 : n % 2 = 1 := by omega
      obtain ⟨r2, e2, _⟩ := (exactly_read h.1 r1 hi1).1 (by
        rw [hd1, List.length_drop]
        rw [ho1, Nat.one_mul] at hnw
        omega)
      have e2' : r1.read w = .ok (value (r1.rem.take w), r2) := e2
      have hc : codesOf w n r.rem = codesOf w (2 * (n / 2)) r.rem ++ [value (r1.rem.take w)] := by
        rw [show codesOf w n r.rem = codesOf w (2 * (n / 2) + 1) r.rem by congr 1; omega, codesOf_add, hd1]
        simp [codesOf, chunk]
      rw [hc, mapAll_snoc]
      simp only [ne_eq, ho, not_false_eq_true, if_true]
      cases Outcome.mapAll (fun c => addMin b c min) (codesOf w (2 * (n / 2)) r.rem) with
      | ok l =>
        simp only [Outcome.bind_ok]
        rw [e2']
        rfl
      | err x => rfl
      | panic => rfl
  · rw [readIndices, Outcome.bind_eq_ok] at e
    obtain ⟨⟨l, r1⟩, e1, e⟩ := e
    by_cases hk : 2 * (n / 2) * w ≤ r.rem.length
    · obtain ⟨r1', hi1, hd1, e1'⟩ := hp.1 hk
      rw [e1', Outcome.bind_eq_ok] at e1
      obtain ⟨l1, _, e1⟩ := e1
      cases e1
      dsimp only at e
      split at e
      · simp only [Outcome.bind_eq_ok] at e
        obtain ⟨y, e2, _⟩ := e
        refine (exactly_read h.1 _ hi1).2 ?_ _ e2
        rw [hd1, List.length_drop]
        rw [show n % 2 = 1 by omega, Nat.one_mul] at hnw
        omega
      · rw [show n % 2 = 0 by omega, Nat.zero_mul] at hnw
        omega
    · exact hp.2 (by omega) _ e1

/-- What adding the minimum to every code gives. -/
theorem addMin_all (b : Build) (min : Nat) : ∀ codes : List Nat,
    Outcome.mapAll (fun c => addMin b c min) codes = .ok (codes.map (fun c => (c + min) % 2 ^ 32)) ∨
    (b = .checked ∧ Outcome.mapAll (fun c => addMin b c min) codes = .panic)
  | [] => Or.inl rfl
  | c :: codes => by
    rw [Outcome.mapAll]
    by_cases h : c + min ≥ 2 ^ 64 ∧ b = .checked
    · rw [addMin, if_pos h]
      exact Or.inr ⟨h.2, rfl⟩
    · rw [addMin, if_neg h, Outcome.bind_ok]
      rcases addMin_all b min codes with e | ⟨hb, e⟩
      · rw [e]
        exact Or.inl rfl
      · rw [e]
        exact Or.inr ⟨hb, rfl⟩

theorem readIndices_damage (b : Build) {w : Nat} (h : GoodWidth w) {min n start : Nat} {data data' : List UInt8}
    (hlen : data'.length = data.length) {l : List Nat}
    (e : readIndices b w min n (.new (.slice (data.drop start))) = .ok l) :
    (b = .checked ∧ readIndices b w min n (.new (.slice (data'.drop start))) = .panic) ∨
    ∃ l', readIndices b w min n (.new (.slice (data'.drop start))) = .ok l' ∧ SameUntouched start w data data' l l' := by
  have h1 := readIndices_codes b h min n (.new (.slice (data.drop start))) (BitReader.inv_new _)
  have h2 := readIndices_codes b h min n (.new (.slice (data'.drop start))) (BitReader.inv_new _)
  rw [BitReader.rem_new, show (Source.slice (data.drop start)).bytes = data.drop start from rfl, length_byteBits,
    List.length_drop] at h1
  rw [BitReader.rem_new, show (Source.slice (data'.drop start)).bytes = data'.drop start from rfl, length_byteBits,
    List.length_drop, hlen] at h2
  have hn : n * w ≤ 8 * (data.length - start) := by
    by_contra hc
    exact h1.2 (by omega) _ e
  rw [h1.1 hn] at e
  rw [h2.1 hn]
  rcases addMin_all b min (codesOf w n (byteBits (data'.drop start))) with e2 | ⟨hb, e2⟩
  · refine Or.inr ⟨_, e2, ?_⟩
    rcases addMin_all b min (codesOf w n (byteBits (data.drop start))) with e1 | ⟨_, e1⟩
    · rw [e1] at e
      cases e
      refine ⟨by simp [codesOf], fun i hi => ?_⟩
      rw [List.getElem?_map, List.getElem?_map, codesOf, codesOf, map_range_get, map_range_get, chunk_untouched hi]
    · rw [e1] at e
      cases e
  · exact Or.inl ⟨hb, e2⟩

/-! ### Each kind of array -/

theorem readTriangles_damage {b : Build} {ctx : DecodeCtx} {data data' : List UInt8} (hlen : data'.length = data.length)
    (hh : data'.take (9 + if ctx.readMin then 8 else 0) = data.take (9 + if ctx.readMin then 8 else 0))
    (hw : GoodWidth (byteAt data 0)) {l : List Nat} (e : readTriangles b ctx data = .ok l) :
    (b = .checked ∧ readTriangles b ctx data' = .panic) ∨
    ∃ l', readTriangles b ctx data' = .ok l' ∧
      SameUntouched (9 + if ctx.readMin then 8 else 0) (byteAt data 0) data data' l l' := by
  rw [readTriangles, Outcome.bind_eq_ok] at e
  obtain ⟨⟨⟨w, n, min⟩, rest⟩, e1, e2⟩ := e
  rw [trianglesHeader_width e1] at hw ⊢
  obtain ⟨hr, e1'⟩ := (reads_triangles ctx).same e1 hh
  subst hr
  rw [readTriangles, e1', Outcome.bind_ok]
  exact readIndices_damage b hw hlen e2

theorem readDefaultTriangles_damage {b : Build} {ctx : DecodeCtx} {data data' : List UInt8} (hlen : data'.length = data.length)
    (hh : data'.take (9 + if ctx.readMin then 8 else 0) = data.take (9 + if ctx.readMin then 8 else 0))
    (hw : GoodWidth (byteAt data 0)) {l : List Nat} (e : readDefaultTriangles b ctx data = .ok l) :
    (b = .checked ∧ readDefaultTriangles b ctx data' = .panic) ∨
    ∃ l', readDefaultTriangles b ctx data' = .ok l' ∧
      SameUntouched (9 + if ctx.readMin then 8 else 0) (byteAt data 0) data data' l l' := by
  rw [readDefaultTriangles, Outcome.bind_eq_ok] at e
  obtain ⟨⟨⟨w, n, min⟩, rest⟩, e1, e2⟩ := e
  rw [trianglesHeader_width e1] at hw ⊢
  obtain ⟨hr, e1'⟩ := (reads_triangles ctx).same e1 hh
  subst hr
  rw [readDefaultTriangles, e1', Outcome.bind_ok]
  dsimp only at e2 ⊢
  by_cases h0 : w = 0
  · rw [if_pos h0] at e2 ⊢
    cases e2
    exact Or.inr ⟨_, rfl, rfl, fun i _ => rfl⟩
  · rw [if_neg h0] at e2 ⊢
    exact readIndices_damage b hw hlen e2

variable {fo : FloatOps} {fb : F64Bytes fo}

theorem readVertices_damage {data data' : List UInt8} (hlen : data'.length = data.length)
    (hh : data'.take 59 = data.take 59) {l : List (Vec3 fo.F)} (e : readVertices fo fb data = .ok l) :
    ∃ l', readVertices fo fb data' = .ok l' ∧
      SameUntouched 59 (byteAt data 56 + byteAt data 57 + byteAt data 58) data data' l l' := by
  unfold readVertices at e
  simp only [Outcome.bind_eq_ok] at e
  obtain ⟨⟨⟨n, s, p⟩, rest⟩, e1, ⟨l1, r1⟩, e2, e3⟩ := e
  cases e3
  obtain ⟨a1, a2, a3, b1, b2, b3⟩ := verticesHeader_widths e1
  rw [a1, a2, a3]
  obtain ⟨hr, e1'⟩ := (reads_vertices fo fb).same e1 hh
  subst hr
  have hf := ((exactly_read b1).bind fun x => (exactly_read b2).bind fun y => (exactly_read b3).bind fun z =>
      Exactly.pure (vertexOfCodes fo s p (x, y, z))).congr (f' := readVertex fo s p) (fun r => rfl) (fun l => rfl)
  rw [show p.1 + (p.2.1 + (p.2.2 + 0)) = p.1 + p.2.1 + p.2.2 by omega] at hf
  obtain ⟨l', r', e', hs⟩ := readMany_damage hf hlen e2
  refine ⟨l', ?_, hs⟩
  rw [readVertices, e1', Outcome.bind_ok]
  dsimp only
  rw [e']
  rfl

theorem normalsHeader_width {data rest : List UInt8} {n w : Nat} (h : readNormalsHeader.runSlice data = .ok ((n, w), rest)) :
    byteAt data 8 = w ∧ w < 64 := by
  rw [readNormalsHeader, Prog.runSlice_bind, Outcome.bind_eq_ok] at h
  obtain ⟨⟨n', l0⟩, h0, h⟩ := h
  dsimp only at h
  split at h
  · cases h
  simp only [Prog.runSlice_bind, Outcome.bind_eq_ok] at h
  obtain ⟨⟨w', l1⟩, h1, h⟩ := h
  cases h
  obtain ⟨_, rfl⟩ := readU64_inv h0
  obtain ⟨hx, rfl⟩ := readPrec_inv h1
  have a := byteAt_append_right (l := leBytes 8 n) (r := leBytes 1 w' ++ l1) 0
  rw [length_leBytes] at a
  exact ⟨by rw [a, byteAt_leBytes (by omega)], hx⟩

theorem readNormals_damage {data data' : List UInt8} (hlen : data'.length = data.length)
    (hh : data'.take 9 = data.take 9) (hw : GoodWidth (byteAt data 8)) {l : List (Vec3 fo.F)}
    (e : readNormals fo data = .ok l) :
    ∃ l', readNormals fo data' = .ok l' ∧ SameUntouched 9 (3 + 2 * byteAt data 8) data data' l l' := by
  unfold readNormals at e
  simp only [Outcome.bind_eq_ok] at e
  obtain ⟨⟨⟨n, w⟩, rest⟩, e1, ⟨l1, r1⟩, e2, e3⟩ := e
  cases e3
  obtain ⟨a1, b1⟩ := normalsHeader_width e1
  rw [a1] at hw ⊢
  obtain ⟨hr, e1'⟩ := reads_normals.same e1 hh
  subst hr
  have hf := (exactly_readBit.bind fun sx => exactly_readBit.bind fun sy => exactly_readBit.bind fun sz =>
    (exactly_read2 hw).bind fun c => Exactly.pure (normalFromEncoding fo w ⟨c.1, c.2, sx, sy, sz⟩)).congr
      (f' := readNormal fo w) (fun r => rfl) (fun l => rfl)
  rw [show 1 + (1 + (1 + (2 * w + 0))) = 3 + 2 * w by omega] at hf
  obtain ⟨l', r', e', hs⟩ := readMany_damage hf hlen e2
  refine ⟨l', ?_, hs⟩
  rw [readNormals, e1', Outcome.bind_ok]
  dsimp only
  rw [e']
  rfl

theorem readTangents_damage {data data' : List UInt8} (hlen : data'.length = data.length)
    (hh : data'.take 9 = data.take 9) {l : List (Tangent fo.F)}
    (e : readTangents fo data = .ok l) :
    ∃ l', readTangents fo data' = .ok l' ∧ SameUntouched 9 (4 + 2 * byteAt data 8) data data' l l' := by
  unfold readTangents at e
  simp only [Outcome.bind_eq_ok] at e
  obtain ⟨⟨⟨n, w⟩, rest⟩, e1, ⟨l1, r1⟩, e2, e3⟩ := e
  cases e3
  obtain ⟨a1, b1⟩ := normalsHeader_width e1
  rw [a1]
  obtain ⟨hr, e1'⟩ := reads_normals.same e1 hh
  subst hr
  have hf := (exactly_readBit.bind fun h => exactly_readBit.bind fun sx => exactly_readBit.bind fun sy =>
    exactly_readBit.bind fun sz => (exactly_read b1).bind fun a => (exactly_read b1).bind fun z =>
      Exactly.pure ((normalFromEncoding fo w ⟨a, z, sx, sy, sz⟩, htFromBool fo h) : Tangent fo.F)).congr
      (f' := readTangent fo w) (fun r => rfl) (fun l => rfl)
  rw [show 1 + (1 + (1 + (1 + (w + (w + 0))))) = 4 + 2 * w by omega] at hf
  obtain ⟨l', r', e', hs⟩ := readMany_damage hf hlen e2
  refine ⟨l', ?_, hs⟩
  rw [readTangents, e1', Outcome.bind_ok]
  dsimp only
  rw [e']
  rfl

theorem uvsHeader_width {data rest : List UInt8} {n w : Nat} (e1 : readUvsHeader.runSlice data = .ok ((w, n), rest)) :
    byteAt data 0 = w := by
  rw [readUvsHeader, Prog.runSlice_bind, Outcome.bind_eq_ok] at e1
  obtain ⟨⟨w', l1⟩, h1, e1⟩ := e1
  obtain ⟨hw, rfl⟩ := readU8_inv h1
  rw [byteAt_leBytes hw]
  dsimp only at e1
  rw [Prog.runSlice_bind, Outcome.bind_eq_ok] at e1
  obtain ⟨⟨n', l2⟩, h2, e1⟩ := e1
  dsimp only at e1
  split at e1
  · cases e1
  · cases e1
    rfl

theorem readUvs_damage {data data' : List UInt8} (hlen : data'.length = data.length)
    (hh : data'.take 9 = data.take 9) (hw : GoodWidth (byteAt data 0)) {l : List (Vec2 fo.F)}
    (e : readUvs fo data = .ok l) :
    ∃ l', readUvs fo data' = .ok l' ∧ SameUntouched 9 (2 * byteAt data 0) data data' l l' := by
  unfold readUvs at e
  rw [Outcome.bind_eq_ok] at e
  obtain ⟨⟨⟨w, n⟩, rest⟩, e1, e2⟩ := e
  rw [uvsHeader_width e1] at hw ⊢
  obtain ⟨hr, e1'⟩ := reads_uvs.same e1 hh
  subst hr
  rw [readUvs, e1', Outcome.bind_ok]
  dsimp only at e2 ⊢
  by_cases h0 : w = 0
  · rw [if_pos h0] at e2 ⊢
    cases e2
    exact ⟨_, rfl, rfl, fun i _ => rfl⟩
  rw [if_neg h0, if_neg (by have := hw.1; omega)] at e2 ⊢
  simp only [Outcome.bind_eq_ok] at e2
  obtain ⟨⟨l1, r1⟩, e2, e3⟩ := e2
  cases e3
  have hf := ((exactly_read2 hw).bind fun c => Exactly.pure (uvOfCodes fo w c)).congr
      (f' := readUv fo w) (fun r => rfl) (fun l => rfl)
  rw [Nat.add_zero] at hf
  obtain ⟨l', r', e', hs⟩ := readMany_damage hf hlen e2
  refine ⟨l', ?_, hs⟩
  rw [e']
  rfl

theorem floatsHeader_width {data rest : List UInt8} {n w : Nat} {min max : fo.D}
    (e1 : (readFloatsHeader fb).runSlice data = .ok ((n, min, max, w), rest)) : byteAt data 24 = w ∧ w < 64 := by
  simp only [readFloatsHeader, Prog.runSlice_bind, Outcome.bind_eq_ok] at e1
  obtain ⟨⟨n', l0⟩, h0, e1⟩ := e1
  dsimp only at e1
  split at e1
  · cases e1
  simp only [Prog.runSlice_bind, Outcome.bind_eq_ok] at e1
  obtain ⟨⟨d1, l1⟩, h1, ⟨d2, l2⟩, h2, ⟨w', l3⟩, h3, e1⟩ := e1
  cases e1
  obtain ⟨_, rfl⟩ := readU64_inv h0
  obtain ⟨u1, hu1, rfl⟩ := readF64_inv h1
  obtain ⟨u2, hu2, rfl⟩ := readF64_inv h2
  obtain ⟨hx, rfl⟩ := readPrec_inv h3
  have hl : (leBytes 8 n ++ u1 ++ u2).length = 24 := by simp [length_leBytes, *]
  have a := byteAt_append_right (l := leBytes 8 n ++ u1 ++ u2) (r := leBytes 1 w' ++ l3) 0
  rw [hl] at a
  refine ⟨?_, hx⟩
  rw [← List.append_assoc, ← List.append_assoc, a, byteAt_leBytes (by omega)]

theorem readFloats_damage {data data' : List UInt8} (hlen : data'.length = data.length)
    (hh : data'.take 25 = data.take 25) {d : CustomData fo.F} (e : readFloats fo fb data = .ok d) :
    ∃ l l' p, d = .float l p ∧ readFloats fo fb data' = .ok (.float l' p) ∧
      SameUntouched 25 (byteAt data 24) data data' l l' := by
  unfold readFloats at e
  simp only [Outcome.bind_eq_ok] at e
  obtain ⟨⟨⟨n, min, max, w⟩, rest⟩, e1, ⟨l1, r1⟩, e2, e3⟩ := e
  cases e3
  obtain ⟨a1, b1⟩ := floatsHeader_width e1
  rw [a1]
  obtain ⟨hr, e1'⟩ := (reads_floats fb).same e1 hh
  subst hr
  have hf := ((exactly_read b1).bind fun c => Exactly.pure (floatOfCode fo min max w c)).congr
      (f' := readFloat fo min max w) (fun r => rfl) (fun l => rfl)
  rw [Nat.add_zero] at hf
  obtain ⟨l', r', e', hs⟩ := readMany_damage hf hlen e2
  refine ⟨l1, l', _, rfl, ?_, hs⟩
  rw [readFloats, e1', Outcome.bind_ok]
  dsimp only
  rw [e']
  rfl

theorem readColors_damage {b : Build} {data data' : List UInt8} (hlen : data'.length = data.length)
    (hh : data'.take 9 = data.take 9) (hw : GoodWidth (byteAt data 8)) {d : CustomData fo.F}
    (e : readColors fo b data = .ok d) :
    ∃ l l' p, d = .color l p ∧ readColors fo b data' = .ok (.color l' p) ∧
      SameUntouched 9 (4 * byteAt data 8) data data' l l' := by
  unfold readColors at e
  rw [Outcome.bind_eq_ok] at e
  obtain ⟨⟨⟨n, w⟩, rest⟩, e1, e⟩ := e
  have hw' : byteAt data 8 = w := by
    have e1 := e1
    simp only [Prog.runSlice_bind, Outcome.bind_eq_ok] at e1
    obtain ⟨⟨n', l0⟩, h0, ⟨w', l1⟩, h1, e1⟩ := e1
    cases e1
    obtain ⟨_, rfl⟩ := readU64_inv h0
    obtain ⟨hx, rfl⟩ := readU8_inv h1
    have a := byteAt_append_right (l := leBytes 8 n') (r := leBytes 1 w' ++ l1) 0
    rw [length_leBytes] at a
    rw [a, byteAt_leBytes hx]
  rw [hw'] at hw ⊢
  obtain ⟨hr, e1'⟩ := reads_colors.same e1 hh
  subst hr
  rw [readColors, e1', Outcome.bind_ok]
  dsimp only at e ⊢
  split at e
  · cases e
  next hn =>
  rw [if_neg hn]
  simp only [Outcome.bind_eq_ok] at e
  obtain ⟨pow, ep, ⟨l1, r1⟩, e2, e3⟩ := e
  cases e3
  have hf := ((exactly_read2 hw).bind fun c => (exactly_read2 hw).bind fun c' =>
      Exactly.pure ((channelOfCode fo (pow - 1) c.1, channelOfCode fo (pow - 1) c.2, channelOfCode fo (pow - 1) c'.1,
        channelOfCode fo (pow - 1) c'.2) : Vec4 fo.F)).congr (f' := readColor fo (pow - 1) w) (fun r => rfl) (fun l => rfl)
  rw [show 2 * w + (2 * w + 0) = 4 * w by omega] at hf
  obtain ⟨l', r', e', hs⟩ := readMany_damage hf hlen e2
  refine ⟨l1, l', _, rfl, ?_, hs⟩
  rw [ep, Outcome.bind_ok, e']
  rfl

/-! ### Behind a name or a mask -/

theorem Untouched.drop {s start k i : Nat} {data data' : List UInt8} (h : Untouched (s + start) k i data data') :
    Untouched start k i (data.drop s) (data'.drop s) := by
  intro j h1 h2
  rw [List.getElem?_drop, List.getElem?_drop, ← Nat.add_assoc]
  exact h j h1 h2

theorem SameUntouched.ofDrop {α : Type} {s start k : Nat} {data data' : List UInt8} {l l' : List α}
    (h : SameUntouched start k (data.drop s) (data'.drop s) l l') : SameUntouched (s + start) k data data' l l' :=
  ⟨h.1, fun i hi => h.2 i hi.drop⟩

theorem take_drop_same {α : Type} {s k : Nat} {l l' : List α} (h : l'.take (s + k) = l.take (s + k)) :
    l'.take s = l.take s ∧ (l'.drop s).take k = (l.drop s).take k := by
  constructor
  · have := congrArg (List.take s) h
    rwa [List.take_take, List.take_take, Nat.min_eq_left (by omega)] at this
  · have := congrArg (List.drop s) h
    rwa [List.drop_take, List.drop_take, Nat.add_sub_cancel_left] at this

theorem customName_damage {data data' name rest : List UInt8} (h : readCustomName.runSlice data = .ok (name, rest))
    (hh : data'.take (1 + byteAt data 0) = data.take (1 + byteAt data 0)) :
    rest = data.drop (1 + byteAt data 0) ∧
      readCustomName.runSlice data' = .ok (name, data'.drop (1 + byteAt data 0)) := by
  have h0 := h
  rw [readCustomName, Prog.runSlice_bind, Outcome.bind_eq_ok] at h0
  obtain ⟨⟨n, l1⟩, h1, h2⟩ := h0
  obtain ⟨hn, rfl⟩ := readU8_inv h1
  obtain ⟨hl, rfl⟩ := readBytes_inv h2
  rw [byteAt_leBytes hn] at hh ⊢
  obtain ⟨used, e, hu, _⟩ := readCustomName.runSlice_prefix h
  have e' : used = leBytes 1 n ++ name := by
    rw [← List.append_assoc] at e
    exact (List.append_cancel_right e).symm
  have hlen : (leBytes 1 n ++ name).length = 1 + n := by rw [List.length_append, length_leBytes, hl]
  rw [← List.append_assoc, List.take_left' hlen] at hh
  refine ⟨by rw [← List.append_assoc, List.drop_left' hlen], ?_⟩
  have e2 : used ++ data'.drop (1 + n) = data' := by
    rw [e', ← hh]
    exact List.take_append_drop _ _
  have e3 := hu (data'.drop (1 + n))
  rwa [e2] at e3

end Tmf
