import Verif.Lemmas.Headers
import Verif.Lemmas.Parse
import Verif.Spec.Analize
/-
The size report of a file.
-/

namespace Tmf
open Spec

/-- Whether a run panics does not depend on how the input ends. -/
theorem Prog.run_panic {α : Type} (p : Prog α) : ∀ s : Source, p.run s = .panic → p.runSlice s.bytes = .panic := by
  induction p with
  | ret a => intro s h; cases h
  | fail e => intro s h; cases h
  | panic => intro s _; rfl
  | readExact n k ih =>
    intro s h
    rw [runSlice_readExact]
    by_cases hn : n ≤ s.bytes.length
    · obtain ⟨s', e, hb, -⟩ := Source.readExact_ok hn
      rw [if_pos hn, ← hb]
      simp only [run, e] at h
      exact ih _ _ h
    · simp only [run, Source.readExact_err (Nat.lt_of_not_le hn)] at h
      cases h

theorem addUsize_ok {b : Build} {x y : Nat} (h : x + y < 2 ^ 64) : addUsize b x y = .ok (x + y) := by
  rw [addUsize, if_neg (by omega), Nat.mod_eq_of_lt h]

/-- Adding up payloads by type. -/
def tally (segs : List EncodedSegment) (results : List Nat) : List Nat :=
  segs.foldl (fun r s => r.set s.segType.toU8 (r.getD s.segType.toU8 0 + s.data.length)) results

theorem toU8_lt (t : SectionType) : t.toU8 < 256 := by cases t <;> decide

theorem set_bound {results : List Nat} {n j d : Nat} (hb : ∀ i, results.getD i 0 + (n + 1) * 2 ^ 31 < 2 ^ 64)
    (hd : d ≤ 2 ^ 31) (i : Nat) : (results.set j (results.getD j 0 + d)).getD i 0 + n * 2 ^ 31 < 2 ^ 64 := by
  have h1 := hb i
  have h2 := hb j
  have h3 : (results.set j (results.getD j 0 + d)).getD i 0 ≤ Nat.max (results.getD i 0) (results.getD j 0 + d) := by
    rw [List.getD_eq_getElem?_getD, List.getElem?_set]
    split
    · split
      · exact Nat.le_max_right _ _
      · exact Nat.zero_le _
    · rw [← List.getD_eq_getElem?_getD]; exact Nat.le_max_left _ _
  rcases Nat.le_total (results.getD i 0) (results.getD j 0 + d) with h | h
  · rw [show Nat.max _ _ = _ from Nat.max_eq_right h] at h3
    omega
  · rw [show Nat.max _ _ = _ from Nat.max_eq_left h] at h3
    omega

theorem analizeSegments_run {b : Build} {L : Layout} : ∀ (n : Nat) (results : List Nat) (l : List UInt8),
    (∀ i, results.getD i 0 + n * 2 ^ 31 < 2 ^ 64) →
    (analizeSegments b (ctxOf L) n results).runSlice l =
      (Prog.replicate n (readSegment (ctxOf L))).runSlice l >>= fun x => .ok (tally x.1 results, x.2) := by
  intro n
  induction n with
  | zero => intro results l _; rfl
  | succ n ih =>
    intro results l hb
    rw [analizeSegments, Prog.replicate, Prog.runSlice_bind, Prog.runSlice_bind]
    cases h : (readSegment (ctxOf L)).runSlice l with
    | err e => rfl
    | panic => rfl
    | ok x =>
      obtain ⟨seg, rest⟩ := x
      obtain ⟨s, hs, -, rfl⟩ := readSegment_inv h
      have hlen : (encodedOf s).data.length ≤ 2 ^ 31 := hs.len
      have hsum := hb (encodedOf s).segType.toU8
      simp only [Outcome.bind_ok]
      rw [addUsize_ok (by omega)]
      simp only [Prog.runSlice_bind, Prog.ofOutcome, Prog.runSlice_ret, Outcome.bind_ok]
      rw [ih]
      · cases (Prog.replicate n (readSegment (ctxOf L))).runSlice rest <;> rfl
      · intro i
        exact set_bound hb hlen i

theorem tally_length (segs : List EncodedSegment) : ∀ results : List Nat, (tally segs results).length = results.length := by
  induction segs with
  | nil => intro r; rfl
  | cons s segs ih => intro r; rw [tally, List.foldl_cons]; exact (ih _).trans (List.length_set ..)

theorem tally_getD (segs : List EncodedSegment) : ∀ (results : List Nat), results.length = 256 → ∀ i,
    (tally segs results).getD i 0 =
      results.getD i 0 + ((segs.filter fun s => s.segType.toU8 == i).map fun s => s.data.length).sum := by
  induction segs with
  | nil => intro r _ i; simp [tally]
  | cons s segs ih =>
    intro r hr i
    rw [tally, List.foldl_cons]
    refine (ih _ (by rw [List.length_set, hr]) i).trans ?_
    by_cases hi : s.segType.toU8 = i
    · subst hi
      rw [List.filter_cons_of_pos (by simp), List.map_cons, List.sum_cons, List.getD_eq_getElem?_getD,
        List.getElem?_set_self (by rw [hr]; exact toU8_lt _), Option.getD_some, Nat.add_assoc]
    · rw [List.filter_cons_of_neg (by simp [hi]), List.getD_eq_getElem?_getD, List.getElem?_set_ne hi,
        ← List.getD_eq_getElem?_getD]

theorem tally_sum (segs : List EncodedSegment) : ∀ (results : List Nat), results.length = 256 →
    (tally segs results).sum = results.sum + (segs.map fun s => s.data.length).sum := by
  induction segs with
  | nil => intro r _; simp [tally]
  | cons s segs ih =>
    intro r hr
    rw [tally, List.foldl_cons]
    refine (ih _ (by rw [List.length_set, hr])).trans ?_
    have hi : s.segType.toU8 < r.length := by rw [hr]; exact toU8_lt _
    have hset : ∀ (l : List Nat) (i n : Nat), i < l.length → (l.set i (l.getD i 0 + n)).sum = l.sum + n := by
      intro l
      induction l with
      | nil => intro i n h; simp at h
      | cons a l ihl =>
        intro i n h
        cases i with
        | zero => simp; omega
        | succ i =>
          have := ihl i n (by simpa using h)
          simp only [List.getD_cons_succ, List.set_cons_succ, List.sum_cons]
          omega
    rw [hset _ _ _ hi, List.map_cons, List.sum_cons, Nat.add_assoc]

/-- The rows for the entries from `i` on. -/
def rowsFrom (i : Nat) (results : List Nat) : List (SectionType × Nat) :=
  (results.zipIdx i).filterMap fun x => if x.1 ≠ 0 then some (SectionType.fromU8 x.2, x.1) else none

theorem analizeTable_eq {b : Build} : ∀ (results : List Nat) (i : Nat) (res : List (SectionType × Nat)) (total : Nat),
    total + results.sum < 2 ^ 64 →
    analizeTable b i results res total = .ok (res ++ rowsFrom i results, total + results.sum) := by
  intro results
  induction results with
  | nil => intro i res total _; simp [analizeTable, rowsFrom]
  | cons n results ih =>
    intro i res total h
    rw [List.sum_cons] at h
    rw [analizeTable, addUsize_ok (by omega)]
    simp only [Outcome.bind_ok]
    rw [ih _ _ _ (by omega), List.sum_cons, Nat.add_assoc]
    by_cases hn : n = 0
    · subst hn; simp [rowsFrom]
    · simp [rowsFrom, hn]

theorem shownCode_eq (kind : Nat) : (SectionType.fromU16 kind).toU8 = shownCode kind := by
  by_cases h : kind ∈ knownKinds
  · rw [shownCode, if_pos h]
    simp only [knownKinds, List.mem_cons, List.not_mem_nil, or_false] at h
    rcases h with rfl | rfl | rfl | rfl | rfl | rfl | rfl | rfl | rfl | rfl | rfl | rfl | rfl <;> rfl
  · rw [shownCode, if_neg h]
    rw [fromU16_unknown h]
    rfl

theorem fromU8_toU8 (t : SectionType) : SectionType.fromU8 t.toU8 = t := by cases t <;> rfl

theorem zeros_sum (n : Nat) : (List.replicate n 0).sum = 0 := by
  induction n with
  | zero => rfl
  | succ n ih => rw [List.replicate_succ, List.sum_cons, ih]

/-- The report on segments. -/
def reportOf (name : List UInt8) (segs : List EncodedSegment) : MeshReport :=
  ⟨name, (rowsFrom 0 (tally segs (List.replicate 256 0))).mergeSort (fun x y => x.2 ≤ y.2),
    (tally segs (List.replicate 256 0)).sum⟩

/-- `analize_mesh` without overflow. -/
def summary (ctx : ImportCtx) : Prog MeshReport := do
  let name ← readString
  let count ← Prog.readU16
  let segs ← Prog.replicate count (readSegment ctx)
  pure (reportOf name segs)

theorem payload_le {L : Layout} {raw : List RawSeg} (h : ∀ s ∈ raw, s.Framed L) :
    ((raw.map encodedOf).map fun s => s.data.length).sum ≤ raw.length * 2 ^ 31 := by
  induction raw with
  | nil => simp
  | cons s raw ih =>
    have h1 : (encodedOf s).data.length ≤ 2 ^ 31 := (h s List.mem_cons_self).len
    have h2 := ih fun x hx => h x (List.mem_cons_of_mem _ hx)
    rw [List.map_cons, List.map_cons, List.sum_cons, List.length_cons]
    omega

theorem analizeMesh_run {b : Build} {L : Layout} (l : List UInt8) :
    (analizeMesh b (ctxOf L)).runSlice l = (summary (ctxOf L)).runSlice l := by
  rw [analizeMesh, summary, Prog.runSlice_bind, Prog.runSlice_bind]
  cases readString.runSlice l with
  | err e => rfl
  | panic => rfl
  | ok x =>
    obtain ⟨name, l1⟩ := x
    simp only [Outcome.bind_ok]
    rw [Prog.runSlice_bind, Prog.runSlice_bind]
    cases h2 : Prog.readU16.runSlice l1 with
    | err e => rfl
    | panic => rfl
    | ok x =>
      obtain ⟨n, l2⟩ := x
      have hn := (readU16_inv h2).1
      simp only [Outcome.bind_ok]
      rw [Prog.runSlice_bind, Prog.runSlice_bind, analizeSegments_run n _ l2 ?_]
      · cases h3 : (Prog.replicate n (readSegment (ctxOf L))).runSlice l2 with
        | err e => rfl
        | panic => rfl
        | ok x =>
          obtain ⟨segs, l3⟩ := x
          obtain ⟨raw, hl, hf, -, rfl⟩ := readSegments_inv n h3
          have hs := payload_le hf
          have ht := tally_sum (raw.map encodedOf) (List.replicate 256 0) (List.length_replicate ..)
          simp only [Outcome.bind_ok]
          rw [Prog.runSlice_bind, analizeTable_eq]
          · simp only [Prog.ofOutcome, Prog.pure_eq, Prog.runSlice_ret, Outcome.bind_ok, List.nil_append, Nat.zero_add]
            rfl
          · rw [ht, zeros_sum]
            rw [hl] at hs
            omega
      · intro i
        rw [List.getD_eq_getElem?_getD, List.getElem?_replicate]
        split
        · simp only [Option.getD_some]; omega
        · simp only [Option.getD_none]; omega

theorem replicate_congr {α : Type} {p q : Prog α} (h : ∀ l, p.runSlice l = q.runSlice l) : ∀ (n : Nat) (l : List UInt8),
    (Prog.replicate n p).runSlice l = (Prog.replicate n q).runSlice l := by
  intro n
  induction n with
  | zero => intro l; rfl
  | succ n ih =>
    intro l
    rw [Prog.replicate, Prog.replicate, Prog.runSlice_bind, Prog.runSlice_bind, h]
    cases q.runSlice l with
    | err e => rfl
    | panic => rfl
    | ok x =>
      simp only [Outcome.bind_ok]
      rw [Prog.runSlice_bind, Prog.runSlice_bind, ih]

theorem only_summary (ctx : ImportCtx) : (summary ctx).Only BodyError :=
  only_readString.bind fun _ => Prog.only_readU16.bind fun n =>
    (Prog.only_replicate (only_readSegment ctx) n).bind fun _ => trivial

theorem not_panic {α : Type} {p : Prog α} {E : ImportError → Prop} (hp : p.Only E) (l : List UInt8) : p.runSlice l ≠ .panic := by
  intro h
  have := hp.runSlice_or l
  rw [h] at this
  exact this

/-- The whole of `analize` against a slice. -/
theorem analize_slice {b : Build} (l : List UInt8) :
    ((do
      let ctx ← readHeader
      let count ← Prog.readU32
      Prog.replicate count (analizeMesh b ctx)) : Prog (List MeshReport)).runSlice l =
    readHeader.runSlice l >>= fun x => Prog.readU32.runSlice x.2 >>= fun y =>
      (Prog.replicate y.1 (summary x.1)).runSlice y.2 := by
  rw [Prog.runSlice_bind]
  cases h : readHeader.runSlice l with
  | err e => rfl
  | panic => rfl
  | ok x =>
    obtain ⟨ctx, l1⟩ := x
    obtain ⟨ver, minMinor, -, -, rfl, -⟩ := readHeader_inv h
    simp only [Outcome.bind_ok]
    rw [Prog.runSlice_bind]
    cases Prog.readU32.runSlice l1 with
    | err e => rfl
    | panic => rfl
    | ok y => exact replicate_congr analizeMesh_run _ _

theorem analize_not_panic (b : Build) (s : Source) : analize b s ≠ .panic := by
  intro h
  unfold analize at h
  have key : ∀ p : Prog (List MeshReport), (p.run s >>= fun x => Outcome.ok x.1) = .panic → p.run s = .panic := by
    intro p hp
    cases hr : p.run s with
    | ok x => rw [hr] at hp; cases hp
    | err e => rw [hr] at hp; cases hp
    | panic => rfl
  have h := Prog.run_panic _ s (key _ h)
  rw [analize_slice] at h
  cases h1 : readHeader.runSlice s.bytes with
  | err e => rw [h1] at h; cases h
  | panic => exact not_panic only_readHeader _ h1
  | ok x =>
    rw [h1] at h
    simp only [Outcome.bind_ok] at h
    cases h2 : Prog.readU32.runSlice x.2 with
    | err e => rw [h2] at h; cases h
    | panic => exact not_panic (Prog.only_readU32 (E := BodyError)) _ h2
    | ok y =>
      rw [h2] at h
      exact not_panic (Prog.only_replicate (only_summary x.1) y.1) _ h

theorem summary_inv {L : Layout} {l rest : List UInt8} {r : MeshReport} (h : (summary (ctxOf L)).runSlice l = .ok (r, rest)) :
    ∃ m : RawMesh, m.Framed L ∧ l = m.bytes L ++ rest ∧ r = reportOf m.name (m.segs.map encodedOf) := by
  unfold summary at h
  rw [Prog.runSlice_bind, Outcome.bind_eq_ok] at h
  obtain ⟨⟨name, l1⟩, h1, h⟩ := h
  dsimp only at h
  rw [Prog.runSlice_bind, Outcome.bind_eq_ok] at h
  obtain ⟨⟨n, l2⟩, h2, h⟩ := h
  dsimp only at h
  rw [Prog.runSlice_bind, Outcome.bind_eq_ok] at h
  obtain ⟨⟨segs, l3⟩, h3, h⟩ := h
  simp only [Prog.pure_eq, Prog.runSlice_ret, Outcome.ok.injEq, Prod.mk.injEq] at h
  obtain ⟨rfl, rfl⟩ := h
  obtain ⟨hn, rfl⟩ := readString_inv h1
  obtain ⟨hc, rfl⟩ := readU16_inv h2
  obtain ⟨raw, hl, hf, rfl, rfl⟩ := readSegments_inv n h3
  exact ⟨⟨name, raw⟩, ⟨hn, by dsimp only; omega, hf⟩, by simp [RawMesh.bytes, meshHead, hl], rfl⟩

theorem summary_ok {L : Layout} {m : RawMesh} (h : m.Framed L) (rest : List UInt8) :
    (summary (ctxOf L)).runSlice (m.bytes L ++ rest) = .ok (reportOf m.name (m.segs.map encodedOf), rest) := by
  rw [RawMesh.bytes, List.append_assoc, meshHead, summary, Prog.runSlice_bind, List.append_assoc,
    readString_ok h.name.len (validUtf8_of_isText h.name.utf8)]
  simp only [Outcome.bind_ok]
  rw [Prog.runSlice_bind, Prog.runSlice_readU16 _ h.count]
  simp only [Outcome.bind_ok]
  have := readSegments_ok h.segs 0 rest
  rw [Nat.add_zero] at this
  rw [Prog.runSlice_bind, this]
  simp [Prog.replicate]

theorem summaries_inv {L : Layout} : ∀ (n : Nat) {l rest : List UInt8} {rs : List MeshReport},
    (Prog.replicate n (summary (ctxOf L))).runSlice l = .ok (rs, rest) →
    ∃ ms : List RawMesh, ms.length = n ∧ (∀ m ∈ ms, m.Framed L) ∧ l = ms.flatMap (RawMesh.bytes L) ++ rest ∧
      rs = ms.map fun m => reportOf m.name (m.segs.map encodedOf) := by
  intro n
  induction n with
  | zero =>
    intro l rest rs h
    simp only [Prog.replicate, Prog.pure_eq, Prog.runSlice_ret, Outcome.ok.injEq, Prod.mk.injEq] at h
    obtain ⟨rfl, rfl⟩ := h
    exact ⟨[], rfl, by simp, by simp, rfl⟩
  | succ n ih =>
    intro l rest rs h
    rw [Prog.replicate, Prog.runSlice_bind, Outcome.bind_eq_ok] at h
    obtain ⟨⟨r, l1⟩, h1, h⟩ := h
    dsimp only at h
    rw [Prog.runSlice_bind, Outcome.bind_eq_ok] at h
    obtain ⟨⟨rs', l2⟩, h2, h⟩ := h
    simp only [Prog.pure_eq, Prog.runSlice_ret, Outcome.ok.injEq, Prod.mk.injEq] at h
    obtain ⟨rfl, rfl⟩ := h
    obtain ⟨m, hf, rfl, rfl⟩ := summary_inv h1
    obtain ⟨ms, hl, hfs, rfl, rfl⟩ := ih h2
    exact ⟨m :: ms, by simp [hl], by simpa using ⟨hf, hfs⟩, by simp, rfl⟩

/-- Exactly the framed files have a report. -/
theorem analize_iff (b : Build) (bytes : List UInt8) (sched : List Nat) (rs : List MeshReport) :
    analize b ⟨bytes, sched, false⟩ = .ok rs ↔
      ∃ (ver : List UInt8) (minMinor : Nat) (ms : List RawMesh) (junk : List UInt8),
        ver.length = 4 ∧ minMinor ≤ 2 ∧ ms.length < 2 ^ 32 ∧ (∀ m ∈ ms, m.Framed (layoutOf minMinor)) ∧
        bytes = fileBytesV ver minMinor ms ++ junk ∧ rs = ms.map fun m => reportOf m.name (m.segs.map encodedOf) := by
  have hrun : ∀ p : Prog (List MeshReport), (p.run ⟨bytes, sched, false⟩ >>= fun x => Outcome.ok x.1) =
      p.runSlice bytes >>= fun x => .ok x.1 := by
    intro p
    have := p.run_eq ⟨bytes, sched, false⟩ rfl
    dsimp only at this
    cases h : p.runSlice bytes with
    | ok x => rw [h] at this; obtain ⟨s', e, _⟩ := this; rw [e]; rfl
    | err e => rw [h] at this; rw [this]; rfl
    | panic => rw [h] at this; rw [this]; rfl
  rw [show analize b ⟨bytes, sched, false⟩ = _ from hrun _, analize_slice]
  constructor
  · intro h
    rw [Outcome.bind_eq_ok] at h
    obtain ⟨⟨rs', junk⟩, h, e⟩ := h
    cases e
    rw [Outcome.bind_eq_ok] at h
    obtain ⟨⟨ctx, l1⟩, h1, h⟩ := h
    dsimp only at h
    rw [Outcome.bind_eq_ok] at h
    obtain ⟨⟨n, l2⟩, h2, h⟩ := h
    dsimp only at h
    obtain ⟨ver, minMinor, hv, hm, rfl, rfl⟩ := readHeader_inv h1
    obtain ⟨hn, rfl⟩ := readU32_inv h2
    obtain ⟨ms, rfl, hf, rfl, rfl⟩ := summaries_inv n h
    exact ⟨ver, minMinor, ms, junk, hv, hm, hn, hf, by simp [fileBytesV], rfl⟩
  · rintro ⟨ver, minMinor, ms, junk, hv, hm, hn, hf, rfl, rfl⟩
    have e : fileBytesV ver minMinor ms ++ junk = [84, 77, 70] ++ ver.take 2 ++ ver.drop 2 ++ leBytes 2 0 ++
        leBytes 2 minMinor ++ (leBytes 4 ms.length ++ (ms.flatMap (RawMesh.bytes (layoutOf minMinor)) ++ junk)) := by
      simp [fileBytesV]
    rw [e, readHeader_eq (by omega) (by omega) _ _ (by simp; omega) (by simp; omega), if_neg (by omega)]
    simp only [Outcome.bind_ok]
    rw [Prog.runSlice_readU32 _ hn]
    simp only [Outcome.bind_ok]
    have := runSlice_replicate (summary (ctxOf (layoutOf minMinor))) (RawMesh.bytes (layoutOf minMinor))
      (fun m => .ok (reportOf m.name (m.segs.map encodedOf))) ms 0 junk (fun m hm rest => summary_ok (hf m hm) rest)
    rw [Nat.add_zero, mapAll_ok] at this
    rw [this]
    simp [Prog.replicate]

theorem zeros_getD (n i : Nat) : (List.replicate n 0).getD i 0 = 0 := by
  rw [List.getD_eq_getElem?_getD, List.getElem?_replicate]
  split <;> rfl

theorem tally_code (segs : List EncodedSegment) (i : Nat) (h : (tally segs (List.replicate 256 0)).getD i 0 ≠ 0) :
    (SectionType.fromU8 i).toU8 = i := by
  rw [tally_getD _ _ (List.length_replicate ..), zeros_getD, Nat.zero_add] at h
  obtain ⟨s, hs⟩ : ∃ s, s ∈ segs.filter fun s => s.segType.toU8 == i := by
    rcases hl : segs.filter fun s => s.segType.toU8 == i with _ | ⟨s, l⟩
    · rw [hl] at h; exact absurd rfl h
    · exact ⟨s, by rw [hl]; exact List.mem_cons_self⟩
  have := (List.mem_filter.mp hs).2
  rw [beq_iff_eq] at this
  rw [← this, fromU8_toU8]

theorem mem_rowsFrom {t : SectionType} {n : Nat} : ∀ (results : List Nat) (i : Nat),
    (t, n) ∈ rowsFrom i results ↔ n ≠ 0 ∧ ∃ j, results.getD j 0 = n ∧ SectionType.fromU8 (i + j) = t := by
  intro results
  induction results with
  | nil =>
    intro i
    refine ⟨fun h => by simp [rowsFrom] at h, ?_⟩
    rintro ⟨h, j, hj, -⟩
    exact absurd hj.symm h
  | cons a l ih =>
    intro i
    have e : rowsFrom i (a :: l) = (if a ≠ 0 then [(SectionType.fromU8 i, a)] else []) ++ rowsFrom (i + 1) l := by
      by_cases ha : a = 0
      · simp [rowsFrom, ha]
      · simp [rowsFrom, ha]
    rw [e, List.mem_append, ih]
    constructor
    · rintro (h | ⟨hn, j, hj, ht⟩)
      · split at h
        · next ha =>
          simp only [List.mem_singleton, Prod.mk.injEq] at h
          obtain ⟨rfl, rfl⟩ := h
          exact ⟨ha, 0, rfl, rfl⟩
        · simp at h
      · exact ⟨hn, j + 1, hj, by rw [← ht, Nat.add_right_comm, Nat.add_assoc]⟩
    · rintro ⟨hn, j, hj, ht⟩
      cases j with
      | zero =>
        left
        have : a = n := hj
        subst this
        rw [if_pos hn, ← ht]
        exact List.mem_singleton.mpr rfl
      | succ j => exact .inr ⟨hn, j, hj, by rw [← ht, Nat.add_right_comm, Nat.add_assoc]⟩

theorem rowsFrom_sorted : ∀ (results : List Nat) (i : Nat),
    (∀ j, results.getD j 0 ≠ 0 → (SectionType.fromU8 (i + j)).toU8 = i + j) →
    (rowsFrom i results).Pairwise fun x y => x.1.toU8 < y.1.toU8 := by
  intro results
  induction results with
  | nil => intro i _; exact .nil
  | cons a l ih =>
    intro i h
    have hl : ∀ j, l.getD j 0 ≠ 0 → (SectionType.fromU8 (i + 1 + j)).toU8 = i + 1 + j := fun j hj => by
      have := h (j + 1) hj
      rwa [← Nat.add_assoc, Nat.add_right_comm] at this
    by_cases ha : a = 0
    · have e : rowsFrom i (a :: l) = rowsFrom (i + 1) l := by simp [rowsFrom, ha]
      rw [e]
      exact ih _ hl
    · have e : rowsFrom i (a :: l) = (SectionType.fromU8 i, a) :: rowsFrom (i + 1) l := by simp [rowsFrom, ha]
      rw [e, List.pairwise_cons]
      refine ⟨?_, ih _ hl⟩
      rintro ⟨t, n⟩ hx
      obtain ⟨hn, j, hj, rfl⟩ := (mem_rowsFrom l (i + 1)).mp hx
      have h0 : (SectionType.fromU8 (i + 0)).toU8 = i + 0 := h 0 ha
      rw [Nat.add_zero] at h0
      dsimp only
      rw [h0, hl j (by rw [hj]; exact hn)]
      omega

theorem mergeSort_stable {l : List (SectionType × Nat)} (h : l.Pairwise fun x y => x.1.toU8 < y.1.toU8) :
    (l.mergeSort fun x y => x.2 ≤ y.2).Pairwise fun x y => x.2 < y.2 ∨ x.2 = y.2 ∧ x.1.toU8 < y.1.toU8 := by
  have trans : ∀ a b c : SectionType × Nat, decide (a.2 ≤ b.2) = true → decide (b.2 ≤ c.2) = true → decide (a.2 ≤ c.2) = true := by
    intro a b c h1 h2
    simp only [decide_eq_true_eq] at *
    omega
  have total : ∀ a b : SectionType × Nat, (decide (a.2 ≤ b.2) || decide (b.2 ≤ a.2)) = true := by
    intro a b
    simp only [Bool.or_eq_true, decide_eq_true_eq]
    omega
  have hsort := List.pairwise_mergeSort trans total l
  have hnd : l.Nodup := h.imp fun {a b} hab e => by subst e; omega
  have hnd' : (l.mergeSort fun x y => x.2 ≤ y.2).Nodup := (List.mergeSort_perm l _).nodup_iff.mpr hnd
  rw [List.pairwise_iff_forall_sublist] at hsort ⊢
  intro a b hab
  have h1 := hsort hab
  simp only [decide_eq_true_eq] at h1
  rcases Nat.lt_or_ge a.2 b.2 with h2 | h2
  · exact .inl h2
  · have he : a.2 = b.2 := Nat.le_antisymm h1 h2
    refine .inr ⟨he, ?_⟩
    have ha : a ∈ l := (List.mergeSort_perm l _).mem_iff.mp (hab.subset (by simp))
    have hb : b ∈ l := (List.mergeSort_perm l _).mem_iff.mp (hab.subset (by simp))
    have hne : a ≠ b := by
      have := hnd'.sublist hab
      simpa using this
    rw [List.pairwise_iff_forall_sublist] at h
    have hpair : [a, b].Sublist l ∨ [b, a].Sublist l := by
      obtain ⟨s, t, rfl⟩ := List.append_of_mem ha
      rcases List.mem_append.mp hb with hs | ht
      · right
        have h1 : [b].Sublist s := List.singleton_sublist.mpr hs
        have h2 : [a].Sublist (a :: t) := List.singleton_sublist.mpr List.mem_cons_self
        exact h1.append h2
      · left
        rcases List.mem_cons.mp ht with rfl | ht
        · exact absurd rfl hne
        · exact ((List.singleton_sublist.mpr ht).cons_cons a).trans (List.sublist_append_right _ _)
    rcases hpair with hp | hp
    · exact h hp
    · have h3 := List.pair_sublist_mergeSort trans total (by simp only [decide_eq_true_eq]; omega) hp
      exfalso
      have h4 := List.pairwise_iff_forall_sublist.mp hnd' hab
      have key : ∀ {s : List (SectionType × Nat)}, s.Nodup → [a, b].Sublist s → [b, a].Sublist s → False := by
        intro s
        induction s with
        | nil => intro _ h; cases h
        | cons x s ih =>
          intro hn h1 h2
          rw [List.nodup_cons] at hn
          cases h1 with
          | cons _ h1 =>
            cases h2 with
            | cons _ h2 => exact ih hn.2 h1 h2
            | cons_cons _ h2 => exact hn.1 (h1.subset (by simp))
          | cons_cons _ h1 =>
            cases h2 with
            | cons _ h2 => exact hn.1 (h2.subset (by simp))
            | cons_cons _ h2 => exact hn.1 (h1.subset (by simp))
      exact key hnd' hab h3

/-- The report says what it should. -/
theorem reports_of (m : RawMesh) : Reports m (reportOf m.name (m.segs.map encodedOf)) where
  name := rfl
  total := by
    show (tally _ _).sum = _
    rw [tally_sum _ _ (List.length_replicate ..), zeros_sum, Nat.zero_add, List.map_map]
    rfl
  rows := fun t n => by
    show (t, n) ∈ List.mergeSort _ _ ↔ _
    rw [(List.mergeSort_perm _ _).mem_iff, mem_rowsFrom]
    have hsum : ∀ j, (tally (m.segs.map encodedOf) (List.replicate 256 0)).getD j 0 = sizeUnder j m := by
      intro j
      rw [tally_getD _ _ (List.length_replicate ..), zeros_getD, Nat.zero_add, List.filter_map, List.map_map, sizeUnder]
      congr 2
      refine List.filter_congr fun s _ => ?_
      show ((SectionType.fromU16 s.kind).toU8 == j) = _
      rw [shownCode_eq]
    constructor
    · rintro ⟨hn, j, hj, rfl⟩
      refine ⟨hn, ?_⟩
      have := tally_code (m.segs.map encodedOf) j (by rw [hj]; exact hn)
      rw [Nat.zero_add, this, ← hsum, hj]
    · rintro ⟨hn, e⟩
      exact ⟨hn, t.toU8, by rw [hsum, e], by rw [Nat.zero_add, fromU8_toU8]⟩
  sorted := mergeSort_stable (rowsFrom_sorted _ 0 fun j hj => by rw [Nat.zero_add]; exact tally_code _ _ hj)

end Tmf
