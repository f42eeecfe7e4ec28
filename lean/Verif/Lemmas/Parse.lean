import Verif.Lemmas.Decode
import Verif.Lemmas.Loading
/-
What the bytes of a file must have been, given what the reader did.
-/

namespace Tmf
open Spec

theorem readLe_inv {k n : Nat} {l rest : List UInt8}
    (h : (Prog.readExact k (fun bs => .ret (leNat bs))).runSlice l = .ok (n, rest)) :
    n < 256 ^ k ∧ l = leBytes k n ++ rest := by
  rw [Prog.runSlice_readExact] at h
  split at h
  · next hk =>
    simp only [Prog.runSlice_ret, Outcome.ok.injEq, Prod.mk.injEq] at h
    obtain ⟨rfl, rfl⟩ := h
    have e : (l.take k).length = k := by rw [List.length_take]; omega
    have h1 := leNat_lt (l.take k)
    have h2 := leBytes_leNat (l.take k)
    rw [e] at h1 h2
    exact ⟨h1, by rw [h2, List.take_append_drop]⟩
  · simp at h

theorem readU8_inv {n : Nat} {l rest : List UInt8} (h : Prog.readU8.runSlice l = .ok (n, rest)) :
    n < 256 ∧ l = leBytes 1 n ++ rest := readLe_inv (k := 1) h
theorem readU16_inv {n : Nat} {l rest : List UInt8} (h : Prog.readU16.runSlice l = .ok (n, rest)) :
    n < 2 ^ 16 ∧ l = leBytes 2 n ++ rest := readLe_inv (k := 2) h
theorem readU32_inv {n : Nat} {l rest : List UInt8} (h : Prog.readU32.runSlice l = .ok (n, rest)) :
    n < 2 ^ 32 ∧ l = leBytes 4 n ++ rest := readLe_inv (k := 4) h
theorem readU64_inv {n : Nat} {l rest : List UInt8} (h : Prog.readU64.runSlice l = .ok (n, rest)) :
    n < 2 ^ 64 ∧ l = leBytes 8 n ++ rest := readLe_inv (k := 8) h

theorem readBytes_inv {k : Nat} {bs l rest : List UInt8} (h : (Prog.readBytes k).runSlice l = .ok (bs, rest)) :
    bs.length = k ∧ l = bs ++ rest := by
  rw [Prog.readBytes, Prog.runSlice_readExact] at h
  split at h
  · simp only [Prog.runSlice_ret, Outcome.ok.injEq, Prod.mk.injEq] at h
    obtain ⟨rfl, rfl⟩ := h
    exact ⟨by rw [List.length_take]; omega, by rw [List.take_append_drop]⟩
  · simp at h

theorem fromU8_inv {n : Nat} {c : CompressionType} (h : CompressionType.fromU8 n = .ok c) :
    (n = 0 ∨ n = 1 ∨ n = 2 ∨ n = 255) ∧ c = compOf n := by
  unfold CompressionType.fromU8 at h
  split at h
  all_goals first
    | (cases h; exact ⟨by simp, rfl⟩)
    | simp at h

theorem readType_inv {L : Layout} {t : SectionType} {l rest : List UInt8}
    (h : (ctxOf L).readType.runSlice l = .ok (t, rest)) :
    ∃ kind, KindFits L kind ∧ t = SectionType.fromU16 kind ∧ l = kindBytes L kind ++ rest := by
  cases L
  · simp only [ImportCtx.readType, ctxOf, Bool.false_eq_true, if_false] at h
    rw [Prog.runSlice_bind, Outcome.bind_eq_ok] at h
    obtain ⟨⟨n, l1⟩, h1, h⟩ := h
    obtain ⟨hn, rfl⟩ := readU16_inv h1
    simp only [Prog.pure_eq, Prog.runSlice_ret, Outcome.ok.injEq, Prod.mk.injEq] at h
    obtain ⟨rfl, rfl⟩ := h
    exact ⟨n, hn, rfl, rfl⟩
  · simp only [ImportCtx.readType, ctxOf, if_true] at h
    rw [Prog.runSlice_bind, Outcome.bind_eq_ok] at h
    obtain ⟨⟨n, l1⟩, h1, h⟩ := h
    obtain ⟨hn, rfl⟩ := readU8_inv h1
    simp only [Prog.pure_eq, Prog.runSlice_ret, Outcome.ok.injEq, Prod.mk.injEq] at h
    obtain ⟨rfl, rfl⟩ := h
    exact ⟨n, hn, fromU8_eq_fromU16 hn, rfl⟩

theorem readLength_inv {L : Layout} {len : Nat} {l rest : List UInt8}
    (h : (ctxOf L).readLength.runSlice l = .ok (len, rest)) : l = lenBytes L len ++ rest := by
  cases L
  · exact (readU64_inv h).2
  · exact (readU32_inv h).2

theorem readSegment_inv {L : Layout} {l rest : List UInt8} {seg : EncodedSegment}
    (h : (readSegment (ctxOf L)).runSlice l = .ok (seg, rest)) :
    ∃ s : RawSeg, s.Framed L ∧ l = s.bytes L ++ rest ∧ seg = encodedOf s := by
  unfold readSegment at h
  rw [Prog.runSlice_bind, Outcome.bind_eq_ok] at h
  obtain ⟨⟨t, l1⟩, h1, h⟩ := h
  rw [Prog.runSlice_bind, Outcome.bind_eq_ok] at h
  obtain ⟨⟨len, l2⟩, h2, h⟩ := h
  dsimp only at h
  split at h
  · simp at h
  next hlen =>
  rw [Prog.runSlice_bind, Outcome.bind_eq_ok] at h
  obtain ⟨⟨c, l3⟩, h3, h⟩ := h
  dsimp only at h
  rw [Prog.runSlice_bind, Outcome.bind_eq_ok] at h
  obtain ⟨⟨c', l4⟩, h4, h⟩ := h
  dsimp only at h
  rw [Prog.runSlice_bind, Outcome.bind_eq_ok] at h
  obtain ⟨⟨d, l5⟩, h5, h⟩ := h
  simp only [Prog.pure_eq, Prog.runSlice_ret, Outcome.ok.injEq, Prod.mk.injEq] at h
  obtain ⟨rfl, rfl⟩ := h
  obtain ⟨kind, hk, rfl, rfl⟩ := readType_inv h1
  obtain rfl := readLength_inv h2
  obtain ⟨hc, rfl⟩ := readU8_inv h3
  obtain ⟨hd, rfl⟩ := readBytes_inv h5
  cases hf : CompressionType.fromU8 c with
  | err e => rw [hf] at h4; simp [Prog.ofOutcome] at h4
  | panic => rw [hf] at h4; simp [Prog.ofOutcome] at h4
  | ok c'' =>
    rw [hf] at h4
    simp only [Prog.ofOutcome, Prog.runSlice_ret, Outcome.ok.injEq, Prod.mk.injEq] at h4
    obtain ⟨rfl, rfl⟩ := h4
    obtain ⟨hc4, rfl⟩ := fromU8_inv hf
    refine ⟨⟨kind, c, d⟩, ⟨hk, hc4, ?_⟩, ?_, rfl⟩
    · dsimp only; unfold MAX_SEG_SIZE at hlen; omega
    · simp only [RawSeg.bytes, segHead_eq, hd, List.append_assoc]

theorem readSegments_inv {L : Layout} : ∀ (n : Nat) {l rest : List UInt8} {segs : List EncodedSegment},
    (Prog.replicate n (readSegment (ctxOf L))).runSlice l = .ok (segs, rest) →
    ∃ raw : List RawSeg, raw.length = n ∧ (∀ s ∈ raw, s.Framed L) ∧ l = raw.flatMap (RawSeg.bytes L) ++ rest ∧
      segs = raw.map encodedOf := by
  intro n
  induction n with
  | zero =>
    intro l rest segs h
    simp only [Prog.replicate, Prog.pure_eq, Prog.runSlice_ret, Outcome.ok.injEq, Prod.mk.injEq] at h
    obtain ⟨rfl, rfl⟩ := h
    exact ⟨[], rfl, by simp, rfl, rfl⟩
  | succ n ih =>
    intro l rest segs h
    rw [Prog.replicate, Prog.runSlice_bind, Outcome.bind_eq_ok] at h
    obtain ⟨⟨s, l1⟩, h1, h⟩ := h
    dsimp only at h
    rw [Prog.runSlice_bind, Outcome.bind_eq_ok] at h
    obtain ⟨⟨ss, l2⟩, h2, h⟩ := h
    simp only [Prog.pure_eq, Prog.runSlice_ret, Outcome.ok.injEq, Prod.mk.injEq] at h
    obtain ⟨rfl, rfl⟩ := h
    obtain ⟨r, hr, rfl, rfl⟩ := readSegment_inv h1
    obtain ⟨raw, hl, hf, rfl, rfl⟩ := ih h2
    exact ⟨r :: raw, by simp [hl], by simpa using ⟨hr, hf⟩, by simp, rfl⟩

theorem readString_inv {l name rest : List UInt8} (h : readString.runSlice l = .ok (name, rest)) :
    NameOk name ∧ l = leBytes 2 name.length ++ name ++ rest := by
  unfold readString at h
  rw [Prog.runSlice_bind, Outcome.bind_eq_ok] at h
  obtain ⟨⟨n, l1⟩, h1, h⟩ := h
  dsimp only at h
  rw [Prog.runSlice_bind, Outcome.bind_eq_ok] at h
  obtain ⟨⟨bs, l2⟩, h2, h⟩ := h
  dsimp only at h
  obtain ⟨hn, rfl⟩ := readU16_inv h1
  obtain ⟨hb, rfl⟩ := readBytes_inv h2
  split at h
  · next hv =>
    simp only [Prog.pure_eq, Prog.runSlice_ret, Outcome.ok.injEq, Prod.mk.injEq] at h
    obtain ⟨rfl, rfl⟩ := h
    exact ⟨⟨by omega, validUtf8_iff.mp hv⟩, by rw [hb]; simp⟩
  · simp at h

variable (fo : FloatOps) (fb : F64Bytes fo) (b : Build)

/-- If reading a mesh does not fail, the bytes begin with a framed mesh. -/
theorem importMesh_inv {L : Layout} {l : List UInt8} {r : Outcome ImportError ((Mesh fo.F × List UInt8) × List UInt8)}
    (h : (importMesh fo fb b (ctxOf L)).runSlice l = r) (hr : ∀ e, r ≠ .err e) :
    ∃ (m : RawMesh) (rest : List UInt8), m.Framed L ∧ l = m.bytes L ++ rest ∧
      r = rawMesh fo fb b L m >>= fun v => .ok (v, rest) := by
  have panic_free : ∀ {α : Type} {p : Prog α} {E : ImportError → Prop} (hp : p.Only E) (l : List UInt8),
      p.runSlice l ≠ .panic := by
    intro α p E hp l hpan
    have := hp.runSlice_or l
    rw [hpan] at this
    exact this
  unfold importMesh at h
  rw [Prog.runSlice_bind] at h
  cases h1 : readString.runSlice l with
  | err e => rw [h1] at h; exact absurd h.symm (hr e)
  | panic => exact absurd h1 (panic_free only_readString l)
  | ok x =>
    obtain ⟨name, l1⟩ := x
    rw [h1] at h
    simp only [Outcome.bind_ok] at h
    rw [Prog.runSlice_bind] at h
    cases h2 : Prog.readU16.runSlice l1 with
    | err e => rw [h2] at h; exact absurd h.symm (hr e)
    | panic => exact absurd h2 (panic_free (Prog.only_readU16 (E := BodyError)) l1)
    | ok x =>
      obtain ⟨n, l2⟩ := x
      rw [h2] at h
      simp only [Outcome.bind_ok] at h
      rw [Prog.runSlice_bind] at h
      cases h3 : (Prog.replicate n (readSegment (ctxOf L))).runSlice l2 with
      | err e => rw [h3] at h; exact absurd h.symm (hr e)
      | panic => exact absurd h3 (panic_free (Prog.only_replicate (only_readSegment _) n) l2)
      | ok x =>
        obtain ⟨segs, l3⟩ := x
        obtain ⟨hn, rfl⟩ := readString_inv h1
        obtain ⟨hc, rfl⟩ := readU16_inv h2
        obtain ⟨raw, hl, hf, rfl, rfl⟩ := readSegments_inv n h3
        refine ⟨⟨name, raw⟩, l3, ⟨hn, by dsimp only; omega, hf⟩, ?_, ?_⟩
        · simp [RawMesh.bytes, meshHead, hl]
        · rw [h3] at h
          simp only [Outcome.bind_ok] at h
          rw [← h, Prog.runSlice_bind, rawMesh]
          cases assembleMesh fo fb b (ctxOf L).decode (raw.map encodedOf) <;> rfl

/-- Likewise for several meshes. -/
theorem importMeshes_inv {L : Layout} : ∀ (n : Nat) {l : List UInt8}
    {r : Outcome ImportError (List (Mesh fo.F × List UInt8) × List UInt8)},
    (Prog.replicate n (importMesh fo fb b (ctxOf L))).runSlice l = r → (∀ e, r ≠ .err e) →
    ∃ (ms : List RawMesh) (rest : List UInt8), (∀ m ∈ ms, m.Framed L) ∧ l = ms.flatMap (RawMesh.bytes L) ++ rest ∧
      ms.length ≤ n ∧
      ((ms.length = n ∧ ∃ vs, Outcome.mapAll (rawMesh fo fb b L) ms = .ok vs ∧ r = .ok (vs, rest)) ∨
       (∃ init last, ms = init ++ [last] ∧ (∀ m ∈ init, ∃ v, rawMesh fo fb b L m = .ok v) ∧
          rawMesh fo fb b L last = .panic ∧ r = .panic)) := by
  intro n
  induction n with
  | zero =>
    intro l r h hr
    exact ⟨[], l, by simp, by simp, by simp, Or.inl ⟨rfl, [], rfl, h.symm⟩⟩
  | succ n ih =>
    intro l r h hr
    rw [Prog.replicate, Prog.runSlice_bind] at h
    cases h1 : (importMesh fo fb b (ctxOf L)).runSlice l with
    | err e => rw [h1] at h; exact absurd h.symm (hr e)
    | panic =>
      obtain ⟨m, rest, hf, rfl, e⟩ := importMesh_inv fo fb b h1 (by simp)
      rw [h1] at h
      refine ⟨[m], rest, by simpa using hf, by simp, by simp, Or.inr ⟨[], m, rfl, by simp, ?_, h.symm⟩⟩
      cases hm : rawMesh fo fb b L m with
      | ok v => rw [hm] at e; simp at e
      | err v => rw [hm] at e; simp at e
      | panic => rfl
    | ok x =>
      obtain ⟨v, l1⟩ := x
      obtain ⟨m, rest, hf, rfl, e⟩ := importMesh_inv fo fb b h1 (by simp)
      rw [h1] at h
      simp only [Outcome.bind_ok] at h
      obtain ⟨hm, rfl⟩ : rawMesh fo fb b L m = .ok v ∧ l1 = rest := by
        cases hm : rawMesh fo fb b L m with
        | ok w =>
          rw [hm] at e
          simp only [Outcome.bind_ok, Outcome.ok.injEq, Prod.mk.injEq] at e
          exact ⟨by rw [e.1], e.2⟩
        | err v => rw [hm] at e; simp at e
        | panic => rw [hm] at e; simp at e
      rw [Prog.runSlice_bind] at h
      cases h2 : (Prog.replicate n (importMesh fo fb b (ctxOf L))).runSlice l1 with
      | err e => rw [h2] at h; exact absurd h.symm (hr e)
      | panic =>
        rw [h2] at h
        obtain ⟨ms, rest, hfs, rfl, hlen, hd⟩ := ih h2 (by simp)
        rcases hd with ⟨_, vs, _, e⟩ | ⟨init, last, rfl, hi, hp, _⟩
        · simp at e
        · refine ⟨m :: (init ++ [last]), rest, by simpa using ⟨hf, by simpa using hfs⟩, by simp,
            by simp at hlen ⊢; omega, Or.inr ⟨m :: init, last, rfl, ?_, hp, h.symm⟩⟩
          intro x hx
          rcases List.mem_cons.mp hx with rfl | hx
          · exact ⟨v, hm⟩
          · exact hi x hx
      | ok y =>
        obtain ⟨vs, l2⟩ := y
        rw [h2] at h
        obtain ⟨ms, rest, hfs, rfl, hlen, hd⟩ := ih h2 (by simp)
        rcases hd with ⟨hl, vs', hvs, e⟩ | ⟨_, _, _, _, _, e⟩
        · simp only [Outcome.ok.injEq, Prod.mk.injEq] at e
          obtain ⟨rfl, rfl⟩ := e
          refine ⟨m :: ms, l2, by simpa using ⟨hf, hfs⟩, by simp, by simp; omega, Or.inl ⟨by simp [hl], v :: vs, ?_, ?_⟩⟩
          · simp [Outcome.mapAll, hm, hvs]
          · rw [← h]; rfl
        · simp at e

theorem readHeader_inv {ctx : ImportCtx} {l rest : List UInt8} (h : readHeader.runSlice l = .ok (ctx, rest)) :
    ∃ ver minMinor, ver.length = 4 ∧ minMinor ≤ 2 ∧ ctx = ctxOf (layoutOf minMinor) ∧
      l = [84, 77, 70] ++ ver ++ leBytes 2 0 ++ leBytes 2 minMinor ++ rest := by
  unfold readHeader at h
  rw [Prog.runSlice_bind, Outcome.bind_eq_ok] at h
  obtain ⟨⟨m, l1⟩, h1, h⟩ := h
  dsimp only at h
  split at h
  · simp at h
  next hm =>
  rw [Prog.runSlice_bind, Outcome.bind_eq_ok] at h
  obtain ⟨⟨major, l2⟩, h2, h⟩ := h
  dsimp only at h
  rw [Prog.runSlice_bind, Outcome.bind_eq_ok] at h
  obtain ⟨⟨minor, l3⟩, h3, h⟩ := h
  dsimp only at h
  rw [Prog.runSlice_bind, Outcome.bind_eq_ok] at h
  obtain ⟨⟨minMajor, l4⟩, h4, h⟩ := h
  dsimp only at h
  rw [Prog.runSlice_bind, Outcome.bind_eq_ok] at h
  obtain ⟨⟨minMinor, l5⟩, h5, h⟩ := h
  dsimp only at h
  obtain ⟨_, rfl⟩ := readBytes_inv h1
  obtain ⟨_, rfl⟩ := readU16_inv h2
  obtain ⟨_, rfl⟩ := readU16_inv h3
  obtain ⟨_, rfl⟩ := readU16_inv h4
  obtain ⟨_, rfl⟩ := readU16_inv h5
  split at h
  · simp at h
  next hv =>
  simp only [Prog.pure_eq, Prog.runSlice_ret, Outcome.ok.injEq, Prod.mk.injEq] at h
  obtain ⟨rfl, rfl⟩ := h
  have h0 : minMajor = 0 := by omega
  subst h0
  have hm : m = magic := Classical.byContradiction hm
  subst hm
  exact ⟨leBytes 2 major ++ leBytes 2 minor, minMinor, by simp, by omega, ofMinMinor_eq, by simp [magic]⟩

/-- If reading a file does not fail, the bytes begin with framed meshes. -/
theorem importTmf_inv {l : List UInt8} {r : Outcome ImportError (List (Mesh fo.F × List UInt8) × List UInt8)}
    (h : (importTmf fo fb b).runSlice l = r) (hr : ∀ e, r ≠ .err e) :
    ∃ (ver : List UInt8) (minMinor n : Nat) (ms : List RawMesh) (rest : List UInt8),
      ver.length = 4 ∧ minMinor ≤ 2 ∧ n < 2 ^ 32 ∧ (∀ m ∈ ms, m.Framed (layoutOf minMinor)) ∧
      l = [84, 77, 70] ++ ver ++ leBytes 2 0 ++ leBytes 2 minMinor ++ leBytes 4 n ++
        ms.flatMap (RawMesh.bytes (layoutOf minMinor)) ++ rest ∧ ms.length ≤ n ∧
      ((ms.length = n ∧ ∃ vs, Outcome.mapAll (rawMesh fo fb b (layoutOf minMinor)) ms = .ok vs ∧ r = .ok (vs, rest)) ∨
       (∃ init last, ms = init ++ [last] ∧ (∀ m ∈ init, ∃ v, rawMesh fo fb b (layoutOf minMinor) m = .ok v) ∧
          rawMesh fo fb b (layoutOf minMinor) last = .panic ∧ r = .panic)) := by
  unfold importTmf at h
  rw [Prog.runSlice_bind] at h
  cases h1 : readHeader.runSlice l with
  | err e => rw [h1] at h; exact absurd h.symm (hr e)
  | panic =>
    have := only_readHeader.runSlice_or l
    rw [h1] at this
    exact this.elim
  | ok x =>
    obtain ⟨ctx, l1⟩ := x
    rw [h1] at h
    simp only [Outcome.bind_ok] at h
    rw [Prog.runSlice_bind] at h
    obtain ⟨ver, minMinor, hv, hm, rfl, rfl⟩ := readHeader_inv h1
    cases h2 : Prog.readU32.runSlice l1 with
    | err e => rw [h2] at h; exact absurd h.symm (hr e)
    | panic =>
      have := (Prog.only_readU32 (E := BodyError)).runSlice_or l1
      rw [h2] at this
      exact this.elim
    | ok x =>
      obtain ⟨n, l2⟩ := x
      obtain ⟨hn, rfl⟩ := readU32_inv h2
      rw [h2] at h
      simp only [Outcome.bind_ok] at h
      obtain ⟨ms, rest, hf, rfl, hl, hd⟩ := importMeshes_inv fo fb b n h hr
      exact ⟨ver, minMinor, n, ms, rest, hv, hm, hn, hf, by simp, hl, hd⟩

/-- The four version bytes are not looked at. -/
theorem importTmf_ver {ver ver' : List UInt8} (h : ver.length = 4) (h' : ver'.length = 4) (rest : List UInt8) :
    (importTmf fo fb b).runSlice ([84, 77, 70] ++ ver ++ rest) =
      (importTmf fo fb b).runSlice ([84, 77, 70] ++ ver' ++ rest) := by
  have key : ∀ v : List UInt8, v.length = 4 → (importTmf fo fb b).runSlice ([84, 77, 70] ++ v ++ rest) =
      (do let minMajor ← Prog.readU16
          let minMinor ← Prog.readU16
          let ctx ← (if minMajor > 0 ∨ (minMajor = 0 ∧ minMinor > 2) then .fail .newerVersionRequired
            else pure (.ofMinMinor minMinor) : Prog ImportCtx)
          let count ← Prog.readU32
          Prog.replicate count (importMesh fo fb b ctx)).runSlice rest := by
    intro v hv
    have e : v = v.take 2 ++ v.drop 2 := by simp
    rw [e, importTmf, Prog.runSlice_bind, readHeader]
    simp only [List.append_assoc]
    rw [Prog.runSlice_bind, Prog.readBytes,
      Prog.runSlice_readExact_append (n := 3) (l := [84, 77, 70]) _ (by decide)]
    simp only [Prog.runSlice_ret, Outcome.bind_ok, magic, ne_eq, not_true_eq_false, if_false]
    rw [Prog.runSlice_bind, runSlice_readU16_raw (by rw [List.length_take]; omega)]
    simp only [Outcome.bind_ok]
    rw [Prog.runSlice_bind, runSlice_readU16_raw (by rw [List.length_drop]; omega)]
    simp only [Outcome.bind_ok]
    rw [Prog.runSlice_bind, Prog.runSlice_bind]
    cases Prog.readU16.runSlice rest with
    | err e => rfl
    | panic => rfl
    | ok x =>
      simp only [Outcome.bind_ok]
      rw [Prog.runSlice_bind, Prog.runSlice_bind]
      cases Prog.readU16.runSlice x.2 with
      | err e => rfl
      | panic => rfl
      | ok y =>
        simp only [Outcome.bind_ok]
        rw [Prog.runSlice_bind]
  rw [key _ h, key _ h']

/-- Exactly the framed files are accepted. -/
theorem readTmf_iff (bytes : List UInt8) (sched : List Nat) (vs : List (Mesh fo.F × List UInt8)) :
    readTmf fo fb b ⟨bytes, sched, false⟩ = .ok vs ↔
      ∃ (ver : List UInt8) (minMinor : Nat) (ms : List RawMesh) (junk : List UInt8),
        ver.length = 4 ∧ minMinor ≤ 2 ∧ ms.length < 2 ^ 32 ∧ (∀ m ∈ ms, m.Framed (layoutOf minMinor)) ∧
        bytes = fileBytesV ver minMinor ms ++ junk ∧
        Outcome.mapAll (rawMesh fo fb b (layoutOf minMinor)) ms = .ok vs := by
  rw [readTmf_slice]
  constructor
  · intro h
    rw [Outcome.bind_eq_ok] at h
    obtain ⟨⟨vs', rest⟩, h, e⟩ := h
    obtain ⟨ver, minMinor, n, ms, rest', h1, h2, h3, h4, h5, _, h6⟩ := importTmf_inv fo fb b h (by simp)
    rcases h6 with ⟨hl, vs'', hv, e'⟩ | ⟨_, _, _, _, _, e'⟩
    · simp only [Outcome.ok.injEq, Prod.mk.injEq] at e e'
      subst hl
      exact ⟨ver, minMinor, ms, rest', h1, h2, h3, h4, by rw [h5, fileBytesV], by rw [hv, ← e'.1, e]⟩
    · simp at e'
  · rintro ⟨ver, minMinor, ms, junk, h1, h2, h3, h4, rfl, h6⟩
    have := importTmf_file fo fb b h2 h4 h3 junk
    rw [fileBytes, fileHead] at this
    simp only [fileBytesV, List.append_assoc] at this ⊢
    rw [← List.append_assoc, importTmf_ver fo fb b h1 (ver' := leBytes 2 0 ++ leBytes 2 2) (by simp)]
    simp only [List.append_assoc]
    rw [this, h6]
    rfl

theorem fromU16_inv {kind : Nat} {t : SectionType} (h : SectionType.fromU16 kind = t) (ht : t ≠ .invalid) :
    kind = t.toU8 := by
  unfold SectionType.fromU16 at h
  split at h
  · exact absurd h.symm ht
  · unfold SectionType.fromU8 at h
    split at h
    all_goals first
      | (subst h; rfl)
      | exact absurd h.symm ht

theorem bait_of_danger {L : Layout} {s : RawSeg} (h : SegDanger b (ctxOf L).decode (encodedOf s)) :
    Bait (b = .checked) L s.kind s.data := by
  have idx : ∀ {data : List UInt8}, IndexDanger b (ctxOf L).decode data → b = .checked ∧ L = .new ∧
      ∃ w len min rest, w < 256 ∧ len ≤ 2 ^ 31 ∧ 2 ^ 63 < min ∧ min < 2 ^ 64 ∧ data = indexHead L w len min ++ rest := by
    rintro data ⟨hb, hr, w, len, min, rest, hw, hl, hm, hm', rfl⟩
    cases L with
    | old => simp [ctxOf, ImportCtx.decode] at hr
    | new => exact ⟨hb, rfl, w, len, min, rest, hw, hl, hm', hm, rfl⟩
  obtain ⟨kind, comp, data⟩ := s
  simp only [encodedOf, SegDanger] at h
  rcases h with ⟨hk, hi⟩ | ⟨hk, mask, rest, rfl, hi⟩ | ⟨name, rest, hn, rfl, hd⟩
  · have hk : kind = 2 ∨ kind = 4 ∨ kind = 6 ∨ kind = 10 := by
      rcases hk with h | h | h | h
      · exact Or.inl (fromU16_inv h (by simp))
      · exact Or.inr (Or.inl (fromU16_inv h (by simp)))
      · exact Or.inr (Or.inr (Or.inl (fromU16_inv h (by simp))))
      · exact Or.inr (Or.inr (Or.inr (fromU16_inv h (by simp))))
    obtain ⟨hb, hL, w, len, min, rest, hw, hl, hm, hm', rfl⟩ := idx hi
    exact Bait.index kind w len min [] rest hb hL (Or.inl ⟨hk, rfl⟩) hw hl hm hm'
  · obtain ⟨hb, hL, w, len, min, rest, hw, hl, hm, hm', rfl⟩ := idx hi
    exact Bait.index kind w len min [mask] rest hb hL (Or.inr (Or.inl ⟨fromU16_inv hk (by simp), rfl⟩)) hw hl hm hm'
  · rcases hd with ⟨hk, hi⟩ | ⟨hk, len, p, tail, hl, hp, rfl, hc⟩
    · obtain ⟨hb, hL, w, len, min, rest, hw, hl, hm, hm', rfl⟩ := idx hi
      have hk : kind = 15 ∨ kind = 24 := by
        rcases hk with h | h
        · exact Or.inl (fromU16_inv h (by simp))
        · exact Or.inr (fromU16_inv h (by simp))
      have := Bait.index kind w len min (leBytes 1 name.length ++ name) rest hb hL (Or.inr (Or.inr ⟨hk, name, hn, rfl⟩)) hw hl hm hm'
      simpa using this
    · have hk := fromU16_inv hk (by simp)
      subst hk
      have := Bait.color (checks := b = .checked) (L := L) name tail len p hn hl hp hc
      simpa [SectionType.toU8] using this

theorem bait_of_panic {L : Layout} {m : RawMesh} (h : rawMesh fo fb b L m = .panic) :
    ∃ s ∈ m.segs, Bait (b = .checked) L s.kind s.data := by
  have hs := sat_assembleMesh fo fb b (ctxOf L).decode (m.segs.map encodedOf)
  unfold rawMesh at h
  cases ha : assembleMesh fo fb b (ctxOf L).decode (m.segs.map encodedOf) with
  | ok v => rw [ha] at h; simp at h
  | err e => rw [ha] at h; simp at h
  | panic =>
    rw [ha] at hs
    obtain ⟨seg, hseg, hd⟩ := hs
    obtain ⟨s, hs, rfl⟩ := List.mem_map.mp hseg
    exact ⟨s, hs, bait_of_danger b hd⟩

end Tmf
