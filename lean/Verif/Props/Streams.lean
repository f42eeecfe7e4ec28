import Verif.Props.EndToEnd
import Verif.Spec.Streams
/-
C95: several files one after another in the same reader.
-/

namespace Tmf.Props
open Spec

section General
variable {fo : FloatOps} {fb : F64Bytes fo} {b : Build}

theorem whole_iff {file : List UInt8} {out : List (Mesh fo.F × List UInt8)} :
    Whole fo fb b file out ↔ (importTmf fo fb b).runSlice file = .ok (out, []) := by
  constructor
  · intro h
    have h1 := h.loads []
    rw [readTmf_slice, Outcome.bind_eq_ok] at h1
    obtain ⟨⟨ms, rest⟩, h1, e⟩ := h1
    simp only [Outcome.ok.injEq] at e
    subst e
    obtain ⟨used, e, h2, h3⟩ := (importTmf fo fb b).runSlice_prefix h1
    rcases Nat.eq_zero_or_pos rest.length with h0 | h0
    · rw [List.length_eq_zero_iff.mp h0] at h1
      exact h1
    · exfalso
      have := h.full used.length (by rw [e, List.length_append]; omega) []
      rw [readTmf_slice, e, List.take_left, ← List.append_nil used, h2] at this
      cases this
  · intro h
    obtain ⟨used, e, h2, h3⟩ := (importTmf fo fb b).runSlice_prefix h
    rw [List.append_nil] at e
    subst e
    constructor
    · intro sched; rw [readTmf_slice, h]; rfl
    · intro n hn sched; rw [readTmf_slice, h3 n hn]; rfl

/-- Running against a reader, of which the run uses only the first part. -/
theorem run_used {α : Type} (p : Prog α) : ∀ {used : List UInt8} {a : α} {s : Source} {rest : List UInt8},
    p.runSlice used = .ok (a, []) → s.bytes = used ++ rest →
    ∃ s', p.run s = .ok (a, s') ∧ s'.bytes = rest ∧ s'.broken = s.broken := by
  induction p with
  | ret a =>
    intro used a' s rest h e
    simp only [Prog.runSlice_ret, Outcome.ok.injEq, Prod.mk.injEq] at h
    obtain ⟨rfl, rfl⟩ := h
    exact ⟨s, rfl, by simpa using e, rfl⟩
  | fail _ => intro used a s rest h _; simp at h
  | panic => intro used a s rest h _; simp at h
  | readExact n k ih =>
    intro used a s rest h e
    rw [Prog.runSlice_readExact] at h
    split at h
    · next hn =>
      obtain ⟨s', e1, hb, hbr⟩ := Source.readExact_ok (s := s) (n := n) (by rw [e, List.length_append]; omega)
      have h2 : s.bytes.take n = used.take n := by rw [e, List.take_append_of_le_length hn]
      obtain ⟨s'', e2, h3, h4⟩ := ih (used.take n) (s := s') (rest := rest) h
        (by rw [hb, e, List.drop_append_of_le_length hn])
      exact ⟨s'', by simp only [Prog.run, e1, h2, e2], h3, h4.trans hbr⟩
    · simp at h

/-- A run that succeeds uses a part at the front of the reader. -/
theorem run_uses {α : Type} (p : Prog α) : ∀ {a : α} {s s' : Source}, p.run s = .ok (a, s') →
    s'.broken = s.broken ∧ ∃ used, s.bytes = used ++ s'.bytes ∧ p.runSlice used = .ok (a, []) := by
  induction p with
  | ret a => intro a' s s' h; cases h; exact ⟨rfl, [], rfl, rfl⟩
  | fail _ => intro a s s' h; cases h
  | panic => intro a s s' h; cases h
  | readExact n k ih =>
    intro a s s' h
    by_cases hn : n ≤ s.bytes.length
    · obtain ⟨t, e1, hb, hbr⟩ := Source.readExact_ok hn
      simp only [Prog.run, e1] at h
      obtain ⟨h1, used, h2, h3⟩ := ih _ h
      refine ⟨h1.trans hbr, s.bytes.take n ++ used, ?_, ?_⟩
      · rw [List.append_assoc, ← h2, hb, List.take_append_drop]
      · rw [Prog.runSlice_readExact_append _ (by simp [hn])]
        exact h3
    · simp only [Prog.run, Source.readExact_err (Nat.lt_of_not_le hn)] at h
      cases h

/-- C95, reading. `n` calls on one reader succeed exactly when the reader begins with `n` whole files,
one after another: every call returns what its file holds on its own, and the reader then stands
exactly behind the last file. How the bytes are delivered, what follows and how the reader ends does
not matter. -/
theorem C95_files {n : Nat} {bytes : List UInt8} {sched : List Nat} {broken : Bool}
    {outs : List (List (Mesh fo.F × List UInt8))} {rest : List UInt8} :
    (∃ s', readFiles fo fb b n ⟨bytes, sched, broken⟩ = .ok (outs, s') ∧ s'.bytes = rest ∧ s'.broken = broken) ↔
      ∃ files, files.length = n ∧ List.Forall₂ (Whole fo fb b) files outs ∧ bytes = files.flatten ++ rest := by
  suffices h : ∀ (n : Nat) (s : Source) (outs : List (List (Mesh fo.F × List UInt8))),
      (∃ s', readFiles fo fb b n s = .ok (outs, s') ∧ s'.bytes = rest ∧ s'.broken = s.broken) ↔
        ∃ files, files.length = n ∧ List.Forall₂ (Whole fo fb b) files outs ∧ s.bytes = files.flatten ++ rest from
    h n ⟨bytes, sched, broken⟩ outs
  intro n
  induction n with
  | zero =>
    intro s outs
    constructor
    · rintro ⟨s', h, h1, -⟩
      cases h
      exact ⟨[], rfl, .nil, by rw [h1]; rfl⟩
    · rintro ⟨files, h0, h1, h2⟩
      rw [List.length_eq_zero_iff.mp h0] at h1 h2
      cases h1
      exact ⟨s, rfl, h2, rfl⟩
  | succ n ih =>
    intro s outs
    constructor
    · rintro ⟨s', h, h1, h2⟩
      rw [readFiles] at h
      cases hr : (importTmf fo fb b).run s with
      | err e => rw [hr] at h; cases h
      | panic => rw [hr] at h; cases h
      | ok x =>
        obtain ⟨out, t⟩ := x
        rw [hr] at h
        dsimp only at h
        obtain ⟨h3, used, h4, h5⟩ := run_uses _ hr
        cases hr' : readFiles fo fb b n t with
        | err e => rw [hr'] at h; cases h
        | panic => rw [hr'] at h; cases h
        | ok y =>
          obtain ⟨os, t'⟩ := y
          rw [hr'] at h
          cases h
          obtain ⟨files, h6, h7, h8⟩ := (ih t os).mp ⟨s', hr', h1, h2.trans h3.symm⟩
          exact ⟨used :: files, by rw [List.length_cons, h6], .cons (whole_iff.mpr h5) h7,
            by rw [h4, h8, List.flatten_cons, List.append_assoc]⟩
    · rintro ⟨files, h0, h1, h2⟩
      cases h1 with
      | nil => cases h0
      | @cons file out files outs h h1 =>
        rw [List.flatten_cons, List.append_assoc] at h2
        obtain ⟨t, e, h3, h4⟩ := run_used _ (whole_iff.mp h) h2
        obtain ⟨s', h5, h6, h7⟩ := (ih t outs).mpr ⟨files, by simpa using h0, h1, h3⟩
        exact ⟨s', by rw [readFiles, e]; dsimp only; rw [h5], h6, h7.trans h4⟩

/-- C95, at the end. One call more finds the end of the stream. -/
theorem C95_end {n : Nat} {files : List (List UInt8)} {outs : List (List (Mesh fo.F × List UInt8))}
    (hn : files.length = n) (h : List.Forall₂ (Whole fo fb b) files outs) (sched : List Nat) :
    readFiles fo fb b (n + 1) ⟨files.flatten, sched, false⟩ = .err (.io .unexpectedEof) := by
  suffices h : ∀ (s : Source), s.bytes = files.flatten → s.broken = false →
      readFiles fo fb b (n + 1) s = .err (.io .unexpectedEof) from h _ rfl rfl
  induction h generalizing n with
  | nil =>
    intro s hs hb
    have := (importTmf fo fb b).run_eq s hb
    rw [hs, show ([] : List (List UInt8)).flatten = [] from rfl,
      show (importTmf fo fb b).runSlice [] = .err (.io .unexpectedEof) from rfl] at this
    rw [readFiles, this]
  | @cons file out files outs h _ ih =>
    intro s hs hb
    cases n with
    | zero => cases hn
    | succ n =>
      rw [List.flatten_cons] at hs
      obtain ⟨t, e, h3, h4⟩ := run_used _ (whole_iff.mp h) hs
      rw [readFiles, e]
      dsimp only
      rw [ih (by simpa using hn) t h3 (h4.trans hb)]

end General

section Written
variable {fo : FloatOps} {fb : F64Bytes fo} {b : Build} {prec : PrecisionInfo fo.F}

/-- A written file is used to its last byte. -/
theorem whole_low {b' : Build} {meshes : List (Mesh fo.F × List UInt8)} {bytes : List UInt8}
    (h : tmfBytes fo fb b prec meshes = .ok bytes) (hl : LimitsLow fo fb b prec meshes) (hb : bytes.length ≤ 2 ^ 31) :
    ∃ out, Whole fo fb b' bytes out := by
  obtain ⟨out, hr, -⟩ := readTmf_low (b' := b') h hl hb [] []
  refine ⟨out, whole_iff.mpr ?_⟩
  obtain ⟨enc, hE, hbytes⟩ := tmfBytes_ok fo fb b prec h
  have hF := mapAll_forall₂ hE
  have hbytes : bytes = fileBytes 2 ((meshes.zip enc).map (fun p => ⟨p.1.2, p.2.map rawOf⟩)) := by
    rw [hbytes, fileBytes, fileHead, List.length_map, List.length_zip, ← hF.length_eq, Nat.min_self, List.flatMap_map]
    congr 1
    exact flatMap_eq_of (fun p _ => meshBytes_eq _ _)
  have hframed : ∀ m ∈ (meshes.zip enc).map (fun p => (⟨p.1.2, p.2.map rawOf⟩ : RawMesh)), RawMesh.Framed .new m := by
    intro m hm'
    obtain ⟨p, hp, rfl⟩ := List.mem_map.mp hm'
    obtain ⟨hp1, hp2⟩ := List.of_mem_zip hp
    have henc := (List.forall₂_iff_zip.mp hF).2 hp
    obtain ⟨_, _, _, hc, _⟩ := assemble_encoded (b' := b') (hl.fits p.1 hp1) (hl.low.imp id fun hq => hq p.1 hp1) henc
    refine ⟨hl.names _ hp1, by simpa using hl.segments _ hp1 _ henc, ?_⟩
    intro s hs
    obtain ⟨e, he, rfl⟩ := List.mem_map.mp hs
    exact rawOf_framed (hc e he) (le_trans (seg_le_file h hE _ hp2 e he) hb)
  have hcount : ((meshes.zip enc).map (fun p => (⟨p.1.2, p.2.map rawOf⟩ : RawMesh))).length < 2 ^ 32 := by
    rw [List.length_map, List.length_zip]
    exact lt_of_le_of_lt (Nat.min_le_left _ _) hl.count
  have h1 := importTmf_file fo fb b' (minMinor := 2) (le_refl 2) hframed hcount []
  rw [readTmf_slice, hbytes, h1] at hr
  rw [hbytes, ← List.append_nil (fileBytes 2 _), h1]
  cases hm : Outcome.mapAll (rawMesh fo fb b' (layoutOf 2))
      ((meshes.zip enc).map (fun p => (⟨p.1.2, p.2.map rawOf⟩ : RawMesh))) with
  | ok vs =>
    rw [hm] at hr
    simp only [Outcome.bind_ok, Outcome.ok.injEq] at hr ⊢
    rw [hr]
  | err e => rw [hm] at hr; cases hr
  | panic => rw [hm] at hr; cases hr

end Written

section Saved
open Ieee
variable {lib : Libm} {fb : F64Bytes (ops lib)}

theorem whole_unique {fo : FloatOps} {fb : F64Bytes fo} {b : Build} {file : List UInt8} {o o' : List (Mesh fo.F × List UInt8)}
    (h : Whole fo fb b file o) (h' : readTmf fo fb b ⟨file, [], false⟩ = .ok o') : Whole fo fb b file o' := by
  have := h.loads []
  rw [h'] at this
  cases this
  exact h

/-- C95, what was saved. Meshes saved in several files, one after another in the same output, each file
with its own settings, come back file by file from as many calls on one reader, whatever follows and
however the bytes are delivered, in every build. No file can lose its last byte unnoticed. -/
theorem C95_saved (hlog : AccurateLog2 lib) (hmono : MonotoneLog2 lib)
    {jobs : List (PrecisionInfo (Val b32) × List (Mesh (Val b32) × List UInt8))}
    (h : ∀ j ∈ jobs, Saveable 30 j.1 j.2) :
    ∃ files outs, (∀ b, List.Forall₂ (fun j file => tmfBytes (ops lib) fb b j.1 j.2 = .ok file) jobs files) ∧
      List.Forall₂ (fun j out => List.Forall₂ (CameBack (ops lib)) j.2 out) jobs outs ∧
      (∀ b', List.Forall₂ (Whole (ops lib) fb b') files outs) ∧
      ∀ b' junk sched broken, ∃ s', readFiles (ops lib) fb b' jobs.length ⟨files.flatten ++ junk, sched, broken⟩ = .ok (outs, s') ∧
        s'.bytes = junk := by
  suffices H : ∃ files outs, (∀ b, List.Forall₂ (fun j file => tmfBytes (ops lib) fb b j.1 j.2 = .ok file) jobs files) ∧
      List.Forall₂ (fun j out => List.Forall₂ (CameBack (ops lib)) j.2 out) jobs outs ∧
      ∀ b', List.Forall₂ (Whole (ops lib) fb b') files outs by
    obtain ⟨files, outs, h1, h2, h3⟩ := H
    refine ⟨files, outs, h1, h2, h3, fun b' junk sched broken => ?_⟩
    obtain ⟨s', e, hb, -⟩ := (C95_files (n := jobs.length) (sched := sched) (broken := broken) (rest := junk)).mpr
      ⟨files, (h1 b').length_eq.symm, h3 b', rfl⟩
    exact ⟨s', e, hb⟩
  induction jobs with
  | nil => exact ⟨[], [], fun _ => .nil, .nil, fun _ => .nil⟩
  | cons j jobs ih =>
    obtain ⟨files, outs, h1, h2, h3⟩ := ih (fun j hj => h j (List.mem_cons_of_mem _ hj))
    have hj := h j List.mem_cons_self
    obtain ⟨file, out, hb, hlen, hr, hc⟩ := C65_saved (fb := fb) hlog hmono hj
    refine ⟨file :: files, out :: outs, fun b => .cons (hb b) (h1 b), .cons hc h2, fun b' => .cons ?_ (h3 b')⟩
    obtain ⟨o, ho⟩ := whole_low (b' := b') (hb .checked) (saveable_limits hj) hlen
    exact whole_unique ho (by simpa using hr b' [] [])

/-- The mesh of C65 saved twice in one stream. -/
example (fb : F64Bytes (ops someLibm)) (b : Build) : ∃ f out, ∃ s', f ≠ [] ∧
    readFiles (ops someLibm) fb b 2 ⟨f ++ f ++ [1, 2, 3], [1, 5], true⟩ = .ok ([out, out], s') ∧ s'.bytes = [1, 2, 3] := by
  obtain ⟨files, outs, h1, h2, h3, h4⟩ := C95_saved (fb := fb) (jobs := [(kitPrec, [(kit, [65])]), (kitPrec, [(kit, [65])])])
    someLibm_log2 someLibm_monotone (by
      intro j hj
      simp only [List.mem_cons, List.not_mem_nil, or_false, or_self] at hj
      subst hj
      exact saveable_mono (by decide) kit_sensible.saveable)
  cases h1 b with
  | @cons _ f _ files' e1 t1 =>
    cases t1 with
    | @cons _ f' _ files'' e2 t2 =>
      cases t2
      rw [e1] at e2
      cases e2
      cases h3 b with
      | @cons _ o _ os w1 t3 =>
        cases t3 with
        | @cons _ o' _ os' w2 t4 =>
          cases t4
          have := w1.loads []
          rw [w2.loads []] at this
          cases this
          obtain ⟨s', h5, h6⟩ := h4 b [1, 2, 3] [1, 5] true
          refine ⟨f, o, s', ?_, by simpa using h5, h6⟩
          rintro rfl
          have := w1.loads []
          cases this

end Saved

end Tmf.Props
