import Verif.Lemmas.BitOps
import Verif.Lemmas.Prog
import Verif.Lemmas.Triangles
import Verif.Model.Import
/-
Which errors decoding can report, and when it can panic.
-/

namespace Tmf
open Spec

/-- Errors satisfy `E`; a panic is possible only if `P`. -/
def Outcome.Sat {ε α : Type} (E : ε → Prop) (P : Prop) : Outcome ε α → Prop
  | .ok _ => True
  | .err e => E e
  | .panic => P

theorem Outcome.Sat.bind {ε α β : Type} {E : ε → Prop} {P : Prop} {x : Outcome ε α} {f : α → Outcome ε β}
    (hx : x.Sat E P) (hf : ∀ a, x = .ok a → (f a).Sat E P) : (x >>= f).Sat E P := by
  cases x with
  | ok a => exact hf a rfl
  | err e => exact hx
  | panic => exact hx

theorem Outcome.Sat.mono {ε α : Type} {E E' : ε → Prop} {P P' : Prop} {x : Outcome ε α} (h : x.Sat E P)
    (hE : ∀ e, E e → E' e) (hP : P → P') : x.Sat E' P' := by
  cases x with
  | ok a => trivial
  | err e => exact hE e h
  | panic => exact hP h

theorem Outcome.Sat.panic_imp {ε α : Type} {E : ε → Prop} {P : Prop} {x : Outcome ε α} (h : x.Sat E P)
    (hx : x = .panic) : P := by subst hx; exact h

/-- The errors that arise while a file is read after its header, and while segments are decoded. -/
def BodyError : ImportError → Prop
  | .io _ => True
  | .compressionTypeUnknown _ => True
  | .segmentTooLong => True
  | .invalidPrecision _ => True
  | .unsuportedCompressionType _ => True
  | .noMeshes => False
  | .tooManyMeshes => False
  | .notTMFFile => False
  | .newerVersionRequired => False

/-! ### Bit reader -/

/-- The result of reading from a bit stream: never a panic, and values below 2^63. -/
def ReadGood {α : Type} (Q : α → Prop) : Outcome ImportError (α × BitReader) → Prop
  | .ok (a, r) => Q a ∧ r.Inv
  | .err e => ∃ i, e = .io i
  | .panic => False

theorem ReadGood.sat {α : Type} {Q : α → Prop} {x : Outcome ImportError (α × BitReader)} (h : ReadGood Q x)
    (P : Prop) : x.Sat BodyError P := by
  cases x with
  | ok a => trivial
  | err e => obtain ⟨i, rfl⟩ := h; trivial
  | panic => exact h.elim

theorem ReadGood.bind {α β : Type} {Q : α → Prop} {R : β → Prop} {x : Outcome ImportError (α × BitReader)}
    {f : α × BitReader → Outcome ImportError (β × BitReader)} (hx : ReadGood Q x)
    (hf : ∀ a r, Q a → r.Inv → ReadGood R (f (a, r))) : ReadGood R (x >>= f) := by
  cases x with
  | ok p => exact hf p.1 p.2 hx.1 hx.2
  | err e => exact hx
  | panic => exact hx

theorem Source.endError_io (s : Source) : ∃ i, s.endError = .io i := by
  unfold Source.endError; split <;> exact ⟨_, rfl⟩

theorem BitReader.read_good {r : BitReader} (hr : r.Inv) (w : Nat) : ReadGood (· < 2 ^ 63) (r.read w) := by
  rcases read_cases hr w with ⟨_, e⟩ | ⟨h1, h2, r', e, hi, _⟩ | ⟨_, _, e⟩
  · rw [e]; exact ⟨by positivity, hr⟩
  · rw [e]
    refine ⟨Nat.lt_of_lt_of_le (value_lt _) (Nat.pow_le_pow_right (by omega) ?_), hi⟩
    rw [List.length_take]; omega
  · rw [e]; exact r.src.endError_io

theorem BitReader.readBit_good {r : BitReader} (hr : r.Inv) : ReadGood (fun _ => True) r.readBit := by
  rcases readBit_cases hr with ⟨bit, rest, r', _, e, hi, _⟩ | ⟨_, e⟩
  · rw [e]; exact ⟨trivial, hi⟩
  · rw [e]; exact r.src.endError_io

theorem BitReader.read2_good {r : BitReader} (hr : r.Inv) (w : Nat) :
    ReadGood (fun p => p.1 < 2 ^ 63 ∧ p.2 < 2 ^ 63) (r.read2 w) := by
  unfold read2
  split
  · exact ⟨⟨by positivity, by positivity⟩, hr⟩
  split
  · refine (read_good hr w).bind fun a r ha hr => ?_
    refine (read_good hr w).bind fun c r hc hr => ?_
    exact ⟨⟨ha, hc⟩, hr⟩
  · refine (read_good hr (w * 2)).bind fun d r hd hr => ⟨⟨?_, ?_⟩, hr⟩
    · exact Nat.lt_of_le_of_lt (by simp only [Nat.shiftRight_eq_div_pow]; exact Nat.div_le_self _ _) hd
    · have : lowBits d w ≤ d := by
        unfold lowBits
        rw [Nat.shiftRight_eq_div_pow, Nat.shiftLeft_eq]
        apply Nat.div_le_of_le_mul
        rw [Nat.mul_comm]
        exact Nat.mod_le _ _
      exact Nat.lt_of_le_of_lt this hd

theorem readMany_good {α : Type} {f : BitReader → Outcome ImportError (α × BitReader)} {Q : α → Prop}
    (hf : ∀ r, r.Inv → ReadGood Q (f r)) :
    ∀ (n : Nat) {r : BitReader}, r.Inv → ReadGood (fun _ => True) (readMany f n r) := by
  intro n
  induction n with
  | zero => intro r hr; exact ⟨trivial, hr⟩
  | succ n ih =>
    intro r hr
    refine (hf r hr).bind fun a r _ hr => ?_
    refine (ih hr).bind fun l r _ hr => ?_
    exact ⟨trivial, hr⟩

/-! ### Headers -/

/-- The failures of a program all satisfy `E`, and it does not panic. -/
def Prog.Only {α : Type} (E : ImportError → Prop) : Prog α → Prop
  | .ret _ => True
  | .fail e => E e
  | .panic => False
  | .readExact _ k => ∀ bs, (k bs).Only E

theorem Prog.Only.bind {α β : Type} {E : ImportError → Prop} {p : Prog α} {f : α → Prog β} (hp : p.Only E)
    (hf : ∀ a, (f a).Only E) : (p >>= f).Only E := by
  induction p with
  | ret a => exact hf a
  | fail e => exact hp
  | panic => exact hp
  | readExact n k ih => intro bs; exact ih bs (hp bs)

theorem Prog.Only.runSlice {α : Type} {p : Prog α} (hp : p.Only BodyError) (l : List UInt8) (P : Prop) :
    (p.runSlice l).Sat BodyError P := by
  induction p generalizing l with
  | ret a => trivial
  | fail e => exact hp
  | panic => exact hp.elim
  | readExact n k ih =>
    rw [Prog.runSlice_readExact]
    split
    · exact ih _ (hp _) _
    · trivial

theorem Prog.only_readU8 {E : ImportError → Prop} : Prog.readU8.Only E := fun _ => trivial
theorem Prog.only_readU16 {E : ImportError → Prop} : Prog.readU16.Only E := fun _ => trivial
theorem Prog.only_readU32 {E : ImportError → Prop} : Prog.readU32.Only E := fun _ => trivial
theorem Prog.only_readU64 {E : ImportError → Prop} : Prog.readU64.Only E := fun _ => trivial
theorem Prog.only_readBytes {E : ImportError → Prop} (n : Nat) : (Prog.readBytes n).Only E := fun _ => trivial
theorem only_readF64 {fo : FloatOps} (fb : F64Bytes fo) {E : ImportError → Prop} : (readF64 fb).Only E :=
  fun _ => trivial

theorem only_readPrec : readPrec.Only BodyError := by
  refine Prog.only_readU8.bind fun p => ?_
  split <;> trivial

theorem only_readTrianglesHeader (ctx : DecodeCtx) : (readTrianglesHeader ctx).Only BodyError := by
  refine Prog.only_readU8.bind fun p => Prog.only_readU64.bind fun l => ?_
  refine Prog.Only.bind ?_ fun m => ?_
  · unfold DecodeCtx.readTriangleMin
    split
    · exact Prog.only_readU64
    · trivial
  · split <;> trivial

theorem only_readVerticesHeader (fo : FloatOps) (fb : F64Bytes fo) : (readVerticesHeader fo fb).Only BodyError := by
  refine Prog.only_readU64.bind fun _ => ?_
  iterate 6 refine (only_readF64 fb).bind fun _ => ?_
  iterate 3 refine only_readPrec.bind fun _ => ?_
  split <;> trivial

theorem only_readUvsHeader : readUvsHeader.Only BodyError := by
  refine Prog.only_readU8.bind fun _ => Prog.only_readU64.bind fun _ => ?_
  split <;> trivial

theorem only_readNormalsHeader : readNormalsHeader.Only BodyError := by
  refine Prog.only_readU64.bind fun _ => ?_
  split
  · trivial
  · exact only_readPrec.bind fun _ => trivial

theorem only_readFloatsHeader {fo : FloatOps} (fb : F64Bytes fo) : (readFloatsHeader fb).Only BodyError := by
  refine Prog.only_readU64.bind fun _ => ?_
  split
  · trivial
  · exact (only_readF64 fb).bind fun _ => (only_readF64 fb).bind fun _ => only_readPrec.bind fun _ => trivial

/-! ### Arrays -/

variable (fo : FloatOps) (fb : F64Bytes fo) (b : Build)

theorem sat_readVertices (data : List UInt8) (P : Prop) : (readVertices fo fb data).Sat BodyError P := by
  refine ((only_readVerticesHeader fo fb).runSlice data P).bind fun ⟨⟨_, s, p⟩, rest⟩ _ => ?_
  refine Outcome.Sat.bind (ReadGood.sat (readMany_good (Q := fun _ => True) (fun r hr => ?_) _ (BitReader.inv_new _)) P) fun _ _ => trivial
  refine (BitReader.read_good hr _).bind fun _ r _ hr => ?_
  refine (BitReader.read_good hr _).bind fun _ r _ hr => ?_
  refine (BitReader.read_good hr _).bind fun _ r _ hr => ?_
  exact ⟨trivial, hr⟩

theorem sat_readUvs (data : List UInt8) (P : Prop) : (readUvs fo data).Sat BodyError P := by
  refine (only_readUvsHeader.runSlice data P).bind fun ⟨⟨p, n⟩, rest⟩ _ => ?_
  dsimp only
  split
  · trivial
  split
  · trivial
  refine Outcome.Sat.bind (ReadGood.sat (readMany_good (Q := fun _ => True) (fun r hr => ?_) _ (BitReader.inv_new _)) P) fun _ _ => trivial
  exact (BitReader.read2_good hr _).bind fun _ r _ hr => ⟨trivial, hr⟩

theorem sat_readNormals (data : List UInt8) (P : Prop) : (readNormals fo data).Sat BodyError P := by
  refine (only_readNormalsHeader.runSlice data P).bind fun ⟨⟨p, n⟩, rest⟩ _ => ?_
  refine Outcome.Sat.bind (ReadGood.sat (readMany_good (Q := fun _ => True) (fun r hr => ?_) _ (BitReader.inv_new _)) P) fun _ _ => trivial
  refine (BitReader.readBit_good hr).bind fun _ r _ hr => ?_
  refine (BitReader.readBit_good hr).bind fun _ r _ hr => ?_
  refine (BitReader.readBit_good hr).bind fun _ r _ hr => ?_
  exact (BitReader.read2_good hr _).bind fun _ r _ hr => ⟨trivial, hr⟩

theorem sat_readTangents (data : List UInt8) (P : Prop) : (readTangents fo data).Sat BodyError P := by
  refine (only_readNormalsHeader.runSlice data P).bind fun ⟨⟨p, n⟩, rest⟩ _ => ?_
  refine Outcome.Sat.bind (ReadGood.sat (readMany_good (Q := fun _ => True) (fun r hr => ?_) _ (BitReader.inv_new _)) P) fun _ _ => trivial
  refine (BitReader.readBit_good hr).bind fun _ r _ hr => ?_
  refine (BitReader.readBit_good hr).bind fun _ r _ hr => ?_
  refine (BitReader.readBit_good hr).bind fun _ r _ hr => ?_
  refine (BitReader.readBit_good hr).bind fun _ r _ hr => ?_
  refine (BitReader.read_good hr _).bind fun _ r _ hr => ?_
  exact (BitReader.read_good hr _).bind fun _ r _ hr => ⟨trivial, hr⟩

theorem sat_readFloats (data : List UInt8) (P : Prop) : (readFloats fo fb data).Sat BodyError P := by
  refine ((only_readFloatsHeader fb).runSlice data P).bind fun ⟨⟨_, mn, mx, p⟩, rest⟩ _ => ?_
  refine Outcome.Sat.bind (ReadGood.sat (readMany_good (Q := fun _ => True) (fun r hr => ?_) _ (BitReader.inv_new _)) P) fun _ _ => trivial
  exact (BitReader.read_good hr _).bind fun _ r _ hr => ⟨trivial, hr⟩

/-- The condition under which colour data makes the reader panic. -/
def ColorDanger (len p : Nat) : Prop := len ≥ 2 ^ 59 ∨ (b = .checked ∧ p ≥ 64)

theorem sat_readColors (data : List UInt8) :
    (readColors fo b data).Sat BodyError (∃ len p rest,
      len < 2 ^ 64 ∧ p < 256 ∧ data = leBytes 8 len ++ leBytes 1 p ++ rest ∧ ColorDanger b len p) := by
  unfold readColors
  by_cases h9 : data.length < 9
  · have : (do let len ← Prog.readU64; let p ← Prog.readU8; pure (len, p) : Prog (Nat × Nat)).runSlice data = .err eof := by
      simp only [Prog.readU64, Prog.readExact_bind, Prog.ret_bind, Prog.runSlice_readExact, Prog.readU8]
      split
      · rw [if_neg (by rw [List.length_drop]; omega)]
      · rfl
    rw [this]
    trivial
  · have hd : data = leBytes 8 (leNat (data.take 8)) ++ leBytes 1 (leNat ((data.drop 8).take 1)) ++ data.drop 9 := by
      have h1 := leBytes_leNat (data.take 8)
      have h2 := leBytes_leNat ((data.drop 8).take 1)
      rw [List.length_take, show min 8 data.length = 8 by omega] at h1
      rw [List.length_take, List.length_drop, show min 1 (data.length - 8) = 1 by omega] at h2
      rw [h1, h2, List.append_assoc, show data.drop 9 = (data.drop 8).drop 1 by rw [List.drop_drop],
        List.take_append_drop, List.take_append_drop]
    have hl := leNat_lt (data.take 8)
    have hp := leNat_lt ((data.drop 8).take 1)
    rw [List.length_take, show min 8 data.length = 8 by omega] at hl
    rw [List.length_take, List.length_drop, show min 1 (data.length - 8) = 1 by omega] at hp
    generalize leNat (data.take 8) = len at *
    generalize leNat ((data.drop 8).take 1) = p at *
    generalize data.drop 9 = rest at *
    subst hd
    rw [List.append_assoc, Prog.runSlice_bind, Prog.runSlice_readU64 _ hl]
    simp only [Outcome.bind_ok]
    rw [Prog.runSlice_bind, Prog.runSlice_readU8 _ hp]
    simp only [Outcome.bind_ok, Prog.pure_eq, Prog.runSlice_ret]
    have mk : ColorDanger b len p → ∃ len' p' rest', len' < 2 ^ 64 ∧ p' < 256 ∧
        leBytes 8 len ++ (leBytes 1 p ++ rest) = leBytes 8 len' ++ leBytes 1 p' ++ rest' ∧ ColorDanger b len' p' :=
      fun h => ⟨len, p, rest, hl, hp, by simp, h⟩
    split
    · exact mk (Or.inl (by omega))
    · refine Outcome.Sat.bind ?_ fun pow _ => ?_
      · unfold shiftU64
        split
        · trivial
        · cases b with
          | checked => exact mk (Or.inr ⟨rfl, by omega⟩)
          | wrapping => trivial
      · refine Outcome.Sat.bind (ReadGood.sat (readMany_good (Q := fun _ => True) (fun r hr => ?_) _ (BitReader.inv_new _)) _) fun _ _ => trivial
        refine (BitReader.read2_good hr _).bind fun _ r _ hr => ?_
        exact (BitReader.read2_good hr _).bind fun _ r _ hr => ⟨trivial, hr⟩

/-! ### Index arrays -/

theorem sat_addMin {i min : Nat} (hi : i < 2 ^ 63) :
    (addMin b i min).Sat BodyError (b = .checked ∧ 2 ^ 63 < min) := by
  unfold addMin
  split
  · next h => exact ⟨h.2, by omega⟩
  · trivial

theorem sat_readIndexPairs (prec min : Nat) : ∀ (n : Nat) {r : BitReader}, r.Inv →
    match readIndexPairs b prec min n r with
    | .ok (_, r') => r'.Inv
    | .err e => BodyError e
    | .panic => b = .checked ∧ 2 ^ 63 < min := by
  intro n
  induction n with
  | zero => intro r hr; exact hr
  | succ n ih =>
    intro r hr
    unfold readIndexPairs
    have h2 := BitReader.read2_good hr prec
    cases hx : r.read2 prec with
    | err e => rw [hx] at h2; obtain ⟨i, rfl⟩ := h2; trivial
    | panic => rw [hx] at h2; exact h2.elim
    | ok p =>
      obtain ⟨⟨i1, i2⟩, r1⟩ := p
      rw [hx] at h2
      obtain ⟨⟨hi1, hi2⟩, hr1⟩ := h2
      simp only [Outcome.bind_ok]
      have ha1 := sat_addMin b (min := min) hi1
      have ha2 := sat_addMin b (min := min) hi2
      cases h1 : addMin b i1 min with
      | err e => rw [h1] at ha1; exact ha1
      | panic => rw [h1] at ha1; exact ha1
      | ok x =>
        cases h2 : addMin b i2 min with
        | err e => rw [h2] at ha2; exact ha2
        | panic => rw [h2] at ha2; exact ha2
        | ok y =>
          simp only [Outcome.bind_ok]
          have := ih hr1
          cases h3 : readIndexPairs b prec min n r1 with
          | err e => rw [h3] at this; exact this
          | panic => rw [h3] at this; exact this
          | ok q => rw [h3] at this; exact this

theorem sat_readIndices (prec min length : Nat) {r : BitReader} (hr : r.Inv) :
    (readIndices b prec min length r).Sat BodyError (b = .checked ∧ 2 ^ 63 < min) := by
  unfold readIndices
  have := sat_readIndexPairs b prec min (length / 2) hr
  cases h : readIndexPairs b prec min (length / 2) r with
  | err e => rw [h] at this; exact this
  | panic => rw [h] at this; exact this
  | ok q =>
    obtain ⟨l, r'⟩ := q
    rw [h] at this
    simp only [Outcome.bind_ok]
    split
    · have h1 := BitReader.read_good (r := r') this prec
      cases h2 : r'.read prec with
      | err e => rw [h2] at h1; obtain ⟨i, rfl⟩ := h1; trivial
      | panic => rw [h2] at h1; exact h1.elim
      | ok p =>
        rw [h2] at h1
        exact (sat_addMin b h1.1).bind fun _ _ => trivial
    · trivial

/-- Index data whose stored minimum exceeds 2^63 (only such data can make the reader panic). -/
def IndexDanger (ctx : DecodeCtx) (data : List UInt8) : Prop :=
  b = .checked ∧ ctx.readMin = true ∧ ∃ p len min rest,
    p < 256 ∧ len ≤ 2 ^ 31 ∧ min < 2 ^ 64 ∧ 2 ^ 63 < min ∧
      data = leBytes 1 p ++ leBytes 8 len ++ leBytes 8 min ++ rest

theorem readTrianglesHeader_inv {ctx : DecodeCtx} {data : List UInt8} {p len min : Nat} {rest : List UInt8}
    (h : (readTrianglesHeader ctx).runSlice data = .ok ((p, len, min), rest)) :
    p < 256 ∧ len ≤ 2 ^ 31 ∧ min < 2 ^ 64 ∧ (ctx.readMin = false → min = 0) ∧
      data = leBytes 1 p ++ leBytes 8 len ++ (if ctx.readMin then leBytes 8 min else []) ++ rest := by
  simp only [readTrianglesHeader, Prog.readU8, Prog.readU64, Prog.readExact_bind, Prog.ret_bind,
    Prog.runSlice_readExact, DecodeCtx.readTriangleMin] at h
  split at h
  case isFalse => simp at h
  next h1 =>
  split at h
  case isFalse => simp at h
  next h8 =>
  have e1 := leBytes_leNat (data.take 1)
  have l1 := leNat_lt (data.take 1)
  rw [List.length_take, show Min.min 1 data.length = 1 from Nat.min_eq_left h1] at e1 l1
  have e2 := leBytes_leNat ((data.drop 1).take 8)
  have l2 := leNat_lt ((data.drop 1).take 8)
  rw [List.length_take, show Min.min 8 (data.drop 1).length = 8 from Nat.min_eq_left h8] at e2 l2
  cases hm : ctx.readMin with
  | false =>
    simp only [hm, Bool.false_eq_true, if_false, Prog.pure_eq, Prog.ret_bind] at h
    split at h
    · simp at h
    next hle =>
    simp only [Prog.runSlice_ret, Outcome.ok.injEq, Prod.mk.injEq] at h
    obtain ⟨⟨rfl, rfl, rfl⟩, rfl⟩ := h
    refine ⟨by simpa using l1, by unfold MAX_SEG_SIZE at hle; omega, by positivity, fun _ => rfl, ?_⟩
    simp only [Bool.false_eq_true, if_false, List.append_nil]
    rw [e1, e2, List.append_assoc, List.take_append_drop, List.take_append_drop]
  | true =>
    simp only [hm, if_true, Prog.readExact_bind, Prog.ret_bind, Prog.runSlice_readExact] at h
    split at h
    case isFalse => simp at h
    next h9 =>
    split at h
    · simp at h
    next hle =>
    obtain ⟨⟨rfl, rfl, rfl⟩, rfl⟩ := h
    have e3 := leBytes_leNat (((data.drop 1).drop 8).take 8)
    have l3 := leNat_lt (((data.drop 1).drop 8).take 8)
    rw [List.length_take, show Min.min 8 ((data.drop 1).drop 8).length = 8 from Nat.min_eq_left h9] at e3 l3
    refine ⟨by simpa using l1, by unfold MAX_SEG_SIZE at hle; omega, by simpa using l3, by simp, ?_⟩
    simp only [if_true]
    rw [e1, e2, e3, List.append_assoc, List.append_assoc, List.take_append_drop, List.take_append_drop,
      List.take_append_drop]

theorem indexDanger_of_header {ctx : DecodeCtx} {data : List UInt8} {p len min : Nat} {rest : List UInt8}
    (h : (readTrianglesHeader ctx).runSlice data = .ok ((p, len, min), rest)) (hb : b = .checked) (hm : 2 ^ 63 < min) :
    IndexDanger b ctx data := by
  obtain ⟨h1, h2, h3, h4, h5⟩ := readTrianglesHeader_inv h
  have hr : ctx.readMin = true := by
    cases hr : ctx.readMin with
    | true => rfl
    | false => have := h4 hr; omega
  refine ⟨hb, hr, p, len, min, rest, h1, h2, h3, hm, ?_⟩
  rw [h5, hr]; rfl

theorem sat_readTriangles (ctx : DecodeCtx) (data : List UInt8) :
    (readTriangles b ctx data).Sat BodyError (IndexDanger b ctx data) := by
  refine ((only_readTrianglesHeader ctx).runSlice data _).bind fun ⟨⟨p, len, min⟩, rest⟩ h => ?_
  exact (sat_readIndices b p min len (BitReader.inv_new _)).mono (fun _ h => h)
    (fun hd => indexDanger_of_header b h hd.1 hd.2)

theorem sat_readDefaultTriangles (ctx : DecodeCtx) (data : List UInt8) :
    (readDefaultTriangles b ctx data).Sat BodyError (IndexDanger b ctx data) := by
  refine ((only_readTrianglesHeader ctx).runSlice data _).bind fun ⟨⟨p, len, min⟩, rest⟩ h => ?_
  dsimp only
  split
  · trivial
  · exact (sat_readIndices b p min len (BitReader.inv_new _)).mono (fun _ h => h)
      (fun hd => indexDanger_of_header b h hd.1 hd.2)

/-! ### Segments -/

theorem only_readCustomName : readCustomName.Only BodyError :=
  Prog.only_readU8.bind fun n => Prog.only_readBytes n

theorem readCustomName_inv {data name rest : List UInt8} (h : readCustomName.runSlice data = .ok (name, rest)) :
    name.length < 256 ∧ data = leBytes 1 name.length ++ name ++ rest := by
  simp only [readCustomName, Prog.readU8, Prog.readBytes, Prog.readExact_bind, Prog.ret_bind,
    Prog.runSlice_readExact] at h
  split at h
  case isFalse => simp at h
  next h1 =>
  split at h
  case isFalse => simp at h
  next h2 =>
  simp only [Prog.runSlice_ret, Outcome.ok.injEq, Prod.mk.injEq] at h
  obtain ⟨rfl, rfl⟩ := h
  have e1 := leBytes_leNat (data.take 1)
  have l1 := leNat_lt (data.take 1)
  rw [List.length_take, show min 1 data.length = 1 by omega] at e1 l1
  rw [List.length_take, Nat.min_eq_left h2]
  refine ⟨by simpa using l1, ?_⟩
  rw [e1, List.append_assoc, List.take_append_drop, List.take_append_drop]

/-- Custom data that can make the reader panic. -/
def CustomDanger (ctx : DecodeCtx) (kind : SectionType) (data : List UInt8) : Prop :=
  ∃ name rest, name.length < 256 ∧ data = leBytes 1 name.length ++ name ++ rest ∧
    (((kind = .customIndex ∨ kind = .customInteger) ∧ IndexDanger b ctx rest) ∨
      (kind = .customColor ∧ ∃ len p tail, len < 2 ^ 64 ∧ p < 256 ∧
        rest = leBytes 8 len ++ leBytes 1 p ++ tail ∧ ColorDanger b len p))

theorem sat_customRead (ctx : DecodeCtx) (kind : SectionType) (data : List UInt8)
    (hk : kind = .customIndex ∨ kind = .customInteger ∨ kind = .customFloat ∨ kind = .customColor) :
    (CustomSeg.read fo fb b ctx kind data).Sat BodyError (CustomDanger b ctx kind data) := by
  refine (only_readCustomName.runSlice data _).bind fun ⟨name, rest⟩ h => ?_
  obtain ⟨hl, hd⟩ := readCustomName_inv h
  rcases hk with rfl | rfl | rfl | rfl
  · refine Outcome.Sat.bind ((sat_readTriangles b ctx rest).mono (fun _ h => h) fun hi => ?_) fun _ _ => trivial
    exact ⟨name, rest, hl, hd, Or.inl ⟨Or.inl rfl, hi⟩⟩
  · refine Outcome.Sat.bind ((sat_readTriangles b ctx rest).mono (fun _ h => h) fun hi => ?_) fun _ _ => trivial
    exact ⟨name, rest, hl, hd, Or.inl ⟨Or.inr rfl, hi⟩⟩
  · exact Outcome.Sat.bind (sat_readFloats fo fb rest _) fun _ _ => trivial
  · refine Outcome.Sat.bind ((sat_readColors fo b rest).mono (fun _ h => h) fun hi => ?_) fun _ _ => trivial
    exact ⟨name, rest, hl, hd, Or.inr ⟨rfl, hi⟩⟩

/-- Segments that can make the reader panic. -/
def SegDanger (ctx : DecodeCtx) (seg : EncodedSegment) : Prop :=
  ((seg.segType = .vertexTriangle ∨ seg.segType = .normalTriangle ∨ seg.segType = .uvTriangle ∨
      seg.segType = .tangentTriangle) ∧ IndexDanger b ctx seg.data) ∨
  (seg.segType = .sharedTriangle ∧ ∃ mask rest, seg.data = mask :: rest ∧ IndexDanger b ctx rest) ∨
  CustomDanger b ctx seg.segType seg.data

theorem sat_decodeIndices (ctx : DecodeCtx) (seg : EncodedSegment) :
    (decodeIndices b ctx seg).Sat BodyError (IndexDanger b ctx seg.data) := by
  unfold decodeIndices
  split
  · exact sat_readDefaultTriangles b ctx seg.data
  all_goals trivial

theorem sat_decode (ctx : DecodeCtx) (seg : EncodedSegment) :
    (seg.decode fo fb b ctx).Sat BodyError (SegDanger b ctx seg) := by
  unfold EncodedSegment.decode
  cases hk : seg.segType
  case invalid => trivial
  case vertex => exact Outcome.Sat.bind (sat_readVertices fo fb _ _) fun _ _ => trivial
  case normal => exact Outcome.Sat.bind (sat_readNormals fo _ _) fun _ _ => trivial
  case uv => exact Outcome.Sat.bind (sat_readUvs fo _ _) fun _ _ => trivial
  case tangent => exact Outcome.Sat.bind (sat_readTangents fo _ _) fun _ _ => trivial
  case vertexTriangle | normalTriangle | uvTriangle | tangentTriangle =>
    refine Outcome.Sat.bind ((sat_decodeIndices b ctx seg).mono (fun _ h => h) fun hi => ?_) fun _ _ => trivial
    exact Or.inl ⟨by simp [hk], hi⟩
  case customIndex | customInteger | customFloat | customColor =>
    refine Outcome.Sat.bind ((sat_customRead fo fb b ctx _ seg.data (by simp)).mono (fun _ h => h) fun hi => ?_)
      fun _ _ => trivial
    exact Or.inr (Or.inr (by rw [hk]; exact hi))
  case sharedTriangle =>
    dsimp only
    unfold decodeShared
    cases hd : seg.data with
    | nil => trivial
    | cons mask rest =>
      dsimp only
      split
      · refine Outcome.Sat.bind ((sat_readDefaultTriangles b ctx rest).mono (fun _ h => h) fun hi => ?_)
          fun _ _ => trivial
        exact Or.inr (Or.inl ⟨hk, mask, rest, hd, hi⟩)
      · trivial

/-! ### Collecting -/

theorem collect_of_no_panic {ε α : Type} {l : List (Outcome ε α)} (h : ∀ x ∈ l, x ≠ .panic) :
    collect l = Outcome.mapAll id l := by
  unfold collect
  rw [if_neg]
  simp only [List.any_eq_true, not_exists, not_and]
  intro x hx
  have := h x hx
  cases x <;> simp_all

theorem collect_panic {ε α : Type} {l : List (Outcome ε α)} (h : .panic ∈ l) :
    collect l = .panic := by
  unfold collect
  rw [if_pos]
  simp only [List.any_eq_true]
  exact ⟨_, h, rfl⟩

theorem mapAll_id_sat {ε α : Type} {E : ε → Prop} {P : Prop} {l : List (Outcome ε α)} (h : ∀ x ∈ l, x.Sat E P) :
    (Outcome.mapAll id l).Sat E P := by
  induction l with
  | nil => trivial
  | cons x l ih =>
    refine (h x List.mem_cons_self).bind fun a _ => ?_
    exact (ih fun y hy => h y (List.mem_cons_of_mem _ hy)).bind fun _ _ => trivial

theorem collect_sat {ε α : Type} {E : ε → Prop} {P : Prop} {l : List (Outcome ε α)} (h : ∀ x ∈ l, x.Sat E P) :
    (collect l).Sat E P := by
  by_cases hp : .panic ∈ l
  · rw [collect_panic hp]; exact h _ hp
  · rw [collect_of_no_panic (fun x hx he => hp (he ▸ hx))]; exact mapAll_id_sat h

theorem sat_assembleMesh (ctx : DecodeCtx) (segs : List EncodedSegment) :
    (assembleMesh fo fb b ctx segs).Sat BodyError (∃ seg ∈ segs, SegDanger b ctx seg) := by
  refine Outcome.Sat.bind (collect_sat ?_) fun _ _ => trivial
  intro x hx
  obtain ⟨seg, hs, rfl⟩ := List.mem_map.mp hx
  exact (sat_decode fo fb b ctx seg).mono (fun _ h => h) fun h => ⟨seg, hs, h⟩

/-! ### The whole file -/

/-- The bytes a successful run used are a prefix. -/
theorem Prog.runSlice_suffix {α : Type} (p : Prog α) {l : List UInt8} {a : α} {rest : List UInt8}
    (h : p.runSlice l = .ok (a, rest)) : ∃ used, l = used ++ rest := by
  obtain ⟨used, e, _⟩ := p.runSlice_prefix h
  exact ⟨used, e⟩

theorem only_readSegment (ctx : ImportCtx) : (readSegment ctx).Only BodyError := by
  refine Prog.Only.bind ?_ fun t => Prog.Only.bind ?_ fun len => ?_
  · unfold ImportCtx.readType
    split
    · exact Prog.only_readU8.bind fun _ => trivial
    · exact Prog.only_readU16.bind fun _ => trivial
  · unfold ImportCtx.readLength
    split
    · exact Prog.only_readU32
    · exact Prog.only_readU64
  · split
    · trivial
    · refine Prog.only_readU8.bind fun c => Prog.Only.bind ?_ fun c => (Prog.only_readBytes len).bind fun d => trivial
      unfold CompressionType.fromU8
      split <;> trivial

theorem Prog.only_replicate {α : Type} {p : Prog α} {E : ImportError → Prop} (h : p.Only E) (n : Nat) :
    (Prog.replicate n p).Only E := by
  induction n with
  | zero => trivial
  | succ n ih => exact h.bind fun _ => ih.bind fun _ => trivial

theorem only_readString : readString.Only BodyError := by
  refine Prog.only_readU16.bind fun n => (Prog.only_readBytes n).bind fun _ => ?_
  split <;> trivial

theorem sat_importMesh (ctx : ImportCtx) (l : List UInt8) :
    ((importMesh fo fb b ctx).runSlice l).Sat BodyError True := by
  unfold importMesh
  rw [Prog.runSlice_bind]
  refine (only_readString.runSlice l _).bind fun ⟨name, l1⟩ h1 => ?_
  dsimp only
  rw [Prog.runSlice_bind]
  refine (Prog.only_readU16.runSlice l1 _).bind fun ⟨n, l2⟩ h2 => ?_
  dsimp only
  rw [Prog.runSlice_bind]
  refine ((Prog.only_replicate (only_readSegment ctx) n).runSlice l2 _).bind fun ⟨segs, l3⟩ h3 => ?_
  dsimp only
  rw [Prog.runSlice_bind]
  refine Outcome.Sat.bind ?_ fun _ _ => trivial
  have := sat_assembleMesh fo fb b ctx.decode segs
  cases ha : assembleMesh fo fb b ctx.decode segs with
  | ok m => trivial
  | err e => rw [ha] at this; exact this
  | panic => trivial

theorem sat_importMeshes (ctx : ImportCtx) : ∀ (n : Nat) (l : List UInt8),
    ((Prog.replicate n (importMesh fo fb b ctx)).runSlice l).Sat BodyError True := by
  intro n
  induction n with
  | zero => intro l; trivial
  | succ n ih =>
    intro l
    rw [Prog.replicate, Prog.runSlice_bind]
    refine (sat_importMesh fo fb b ctx l).bind fun ⟨m, l1⟩ h1 => ?_
    dsimp only
    rw [Prog.runSlice_bind]
    exact Outcome.Sat.bind (ih l1) fun _ _ => trivial

theorem sat_importBody (ctx : ImportCtx) (l : List UInt8) :
    ((do let n ← Prog.readU32; Prog.replicate n (importMesh fo fb b ctx) :
      Prog (List (Mesh fo.F × List UInt8))).runSlice l).Sat BodyError True := by
  rw [Prog.runSlice_bind]
  refine (Prog.only_readU32.runSlice l _).bind fun ⟨n, l1⟩ h1 => ?_
  exact sat_importMeshes fo fb b ctx n l1

/-- Header errors. -/
def HeaderError (e : ImportError) : Prop := e = eof ∨ e = .notTMFFile ∨ e = .newerVersionRequired

theorem only_readHeader : readHeader.Only (fun e => e = .notTMFFile ∨ e = .newerVersionRequired) := by
  refine (Prog.only_readBytes 3).bind fun m => ?_
  split
  · exact Or.inl rfl
  · iterate 4 refine Prog.only_readU16.bind fun _ => ?_
    split
    · exact Or.inr rfl
    · trivial

theorem Prog.Only.runSlice_or {α : Type} {p : Prog α} {E : ImportError → Prop} (hp : p.Only E) (l : List UInt8) :
    (p.runSlice l).Sat (fun e => e = eof ∨ E e) False := by
  induction p generalizing l with
  | ret a => trivial
  | fail e => exact Or.inr hp
  | panic => exact hp.elim
  | readExact n k ih =>
    rw [Prog.runSlice_readExact]
    split
    · exact ih _ (hp _) _
    · exact Or.inl rfl

theorem sat_importTmf (l : List UInt8) :
    ((importTmf fo fb b).runSlice l).Sat (fun e => BodyError e ∨ e = .notTMFFile ∨ e = .newerVersionRequired) True := by
  unfold importTmf
  rw [Prog.runSlice_bind]
  refine Outcome.Sat.bind ((only_readHeader.runSlice_or l).mono ?_ False.elim) fun ⟨ctx, l1⟩ h1 => ?_
  · rintro e (rfl | h)
    · exact Or.inl trivial
    · exact Or.inr h
  · exact (sat_importBody fo fb b ctx l1).mono (fun _ h => Or.inl h) fun h => h

end Tmf
