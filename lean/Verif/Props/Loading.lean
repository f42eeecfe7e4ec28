import Verif.Lemmas.Header
import Verif.Lemmas.Headers
import Mathlib.Tactic.IntervalCases
/-
C14–C16, C18–C25, C50: loading files.
-/

namespace Tmf.Props
open Spec

variable (fo : FloatOps) (fb : F64Bytes fo) (b : Build)

/-- An index segment holding 0, 1, 2 (new layout). -/
def triSeg : RawSeg := ⟨2, 0, [2] ++ leBytes 8 3 ++ leBytes 8 0 ++ [0x18]⟩

/-- What the file with this segment loads as. -/
example : readTmf fo fb b ⟨fileBytes 2 [⟨[65], [triSeg]⟩], [3, 1, 7], false⟩ =
    .ok [({ (Mesh.empty : Mesh fo.F) with vertexTriangles := some [0, 1, 2] }, [65])] := by rfl

theorem triSeg_framed : RawMesh.Framed .new ⟨[65], [triSeg]⟩ :=
  ⟨⟨by decide, ⟨['A'], by decide⟩⟩, by decide, by
    intro s hs
    rcases List.mem_singleton.mp hs with rfl
    exact ⟨show (2 : Nat) < 256 by decide, by decide, by decide⟩⟩

/-- C14. An accepted file has a used part: cut before its end, loading reports an unexpected end
of file; cut behind it, loading is not affected. -/
theorem C14_truncated {bytes : List UInt8} {sched : List Nat} {ms : List (Mesh fo.F × List UInt8)}
    (h : readTmf fo fb b ⟨bytes, sched, false⟩ = .ok ms) :
    ∃ used, used ≤ bytes.length ∧ ∀ n sched',
      (n < used → readTmf fo fb b ⟨bytes.take n, sched', false⟩ = .err (.io .unexpectedEof)) ∧
      (used ≤ n → readTmf fo fb b ⟨bytes.take n, sched', false⟩ = .ok ms) := by
  rw [readTmf_slice, Outcome.bind_eq_ok] at h
  obtain ⟨⟨ms', rest⟩, h, e⟩ := h
  simp only [Outcome.ok.injEq] at e
  subst e
  obtain ⟨used, rfl, h1, h2⟩ := (importTmf fo fb b).runSlice_prefix h
  refine ⟨used.length, by simp, fun n sched' => ⟨fun hn => ?_, fun hn => ?_⟩⟩
  · rw [readTmf_slice, List.take_append_of_le_length (by omega), h2 n hn]
    rfl
  · rw [readTmf_slice, List.take_append, List.take_of_length_le hn, h1]
    rfl

example : ∀ n < 41, readTmf fo fb b ⟨(fileBytes 2 [⟨[65], [triSeg]⟩]).take n, [], false⟩ = .err (.io .unexpectedEof) := by
  intro n hn
  interval_cases n <;> rfl
example : (fileBytes 2 [⟨[65], [triSeg]⟩]).length = 44 := by decide

/-- C15. Bytes behind an accepted file change nothing. -/
theorem C15_trailing {bytes : List UInt8} {sched : List Nat} {ms : List (Mesh fo.F × List UInt8)}
    (h : readTmf fo fb b ⟨bytes, sched, false⟩ = .ok ms) (suffix : List UInt8) (sched' : List Nat) :
    readTmf fo fb b ⟨bytes ++ suffix, sched', false⟩ = .ok ms := by
  rw [readTmf_slice, Outcome.bind_eq_ok] at h
  obtain ⟨⟨ms', rest⟩, h, e⟩ := h
  have := (importTmf fo fb b).runSlice_append bytes suffix
  rw [h] at this
  rw [readTmf_slice, this]
  exact e

/-- C16. How the source splits its bytes into reads does not matter, also if it ends in a device
error. -/
theorem C16_chunking (bytes : List UInt8) (sched sched' : List Nat) (broken : Bool) :
    readTmf fo fb b ⟨bytes, sched, broken⟩ = readTmf fo fb b ⟨bytes, sched', broken⟩ := by
  have := (importTmf fo fb b).run_congr ⟨bytes, sched, broken⟩ ⟨bytes, sched', broken⟩ rfl rfl
  unfold readTmf
  cases h1 : (importTmf fo fb b).run ⟨bytes, sched, broken⟩ <;>
    cases h2 : (importTmf fo fb b).run ⟨bytes, sched', broken⟩ <;> rw [h1, h2] at this
  · obtain ⟨e, _⟩ := this
    simp only [Outcome.bind_ok, e]
  all_goals first
    | exact this.elim
    | rfl
    | (rw [show _ = _ from this])

example : readTmf fo fb b ⟨fileBytes 2 [⟨[65], [triSeg]⟩], [1, 1, 2, 1, 5], true⟩ =
    readTmf fo fb b ⟨fileBytes 2 [⟨[65], [triSeg]⟩], [], true⟩ := by rfl

/-- C18 (part). If loading panics, the file holds a framed segment that is one of three kinds of
bait (`Spec.Bait`); without overflow checks only colour arrays announcing 2^59 or more entries
remain. Missing: files with such segments, see below. -/
theorem C18_panic_only_bait_partial {bytes : List UInt8} {sched : List Nat}
    (h : readTmf fo fb b ⟨bytes, sched, false⟩ = .panic) :
    ∃ (minMinor : Nat) (s : RawSeg) (before after : List UInt8), minMinor ≤ 2 ∧ s.Framed (layoutOf minMinor) ∧
      bytes = before ++ s.bytes (layoutOf minMinor) ++ after ∧
      Bait (b = .checked) (layoutOf minMinor) s.kind s.data := by
  rw [readTmf_slice] at h
  have hp : (importTmf fo fb b).runSlice bytes = .panic := by
    cases hx : (importTmf fo fb b).runSlice bytes with
    | panic => rfl
    | ok v => rw [hx] at h; simp at h
    | err e => rw [hx] at h; simp at h
  obtain ⟨ver, minMinor, n, ms, rest, _, h2, _, hf, rfl, _, hd⟩ := importTmf_inv fo fb b hp (by simp)
  rcases hd with ⟨_, _, _, e⟩ | ⟨init, last, rfl, _, hlast, _⟩
  · simp at e
  obtain ⟨s, hs, hb⟩ := bait_of_panic fo fb b hlast
  obtain ⟨s₁, s₂, e⟩ := List.append_of_mem hs
  refine ⟨minMinor, s, [84, 77, 70] ++ ver ++ leBytes 2 0 ++ leBytes 2 minMinor ++ leBytes 4 n ++
    init.flatMap (RawMesh.bytes (layoutOf minMinor)) ++ meshHead last.name last.segs.length ++
    s₁.flatMap (RawSeg.bytes (layoutOf minMinor)), s₂.flatMap (RawSeg.bytes (layoutOf minMinor)) ++ rest, h2,
    (hf last (by simp)).segs s hs, ?_, hb⟩
  simp only [List.flatMap_append, List.flatMap_cons, List.flatMap_nil, List.append_nil, RawMesh.bytes]
  conv_lhs => rw [show last.segs.flatMap (RawSeg.bytes (layoutOf minMinor)) =
    (s₁ ++ s :: s₂).flatMap (RawSeg.bytes (layoutOf minMinor)) by rw [← e]]
  simp

/-- C18 (part), old files. Without overflow checks and without colour data nothing panics: in a
file of the old layout loaded without overflow checks the only bait is a colour array announcing
2^59 or more entries. -/
theorem C18_wrapping_only_colors_partial {bytes : List UInt8} {sched : List Nat}
    (h : readTmf fo fb .wrapping ⟨bytes, sched, false⟩ = .panic) :
    ∃ (minMinor : Nat) (s : RawSeg) (before after name rest : List UInt8) (len p : Nat),
      bytes = before ++ s.bytes (layoutOf minMinor) ++ after ∧ s.kind = 23 ∧ 2 ^ 59 ≤ len ∧ len < 2 ^ 64 ∧
      s.data = leBytes 1 name.length ++ name ++ leBytes 8 len ++ leBytes 1 p ++ rest := by
  obtain ⟨minMinor, ⟨kind, comp, data⟩, before, after, _, _, e, hb⟩ := C18_panic_only_bait_partial fo fb .wrapping h
  dsimp only at hb
  cases hb with
  | color name rest len p hn hl hp h =>
    rcases h with h | h
    · exact ⟨minMinor, _, before, after, name, rest, len, p, e, rfl, h, hl, rfl⟩
    · simp at h
  | index kind width len min before rest hc => simp at hc

/-- C18 is false: a colour array announcing 2^59 entries (capacity overflow). -/
theorem C18_violated_capacity : ∃ bytes : List UInt8, ∀ b,
    readTmf fo fb b ⟨bytes, [], false⟩ = .panic :=
  ⟨fileBytes 2 [⟨[], [⟨23, 0, [0] ++ leBytes 8 (2 ^ 59) ++ [8]⟩]⟩], fun b => by cases b <;> rfl⟩

/-- C18 is false with overflow checks: a colour array of 64-bit channels (shift overflow). -/
theorem C18_violated_shift : ∃ bytes : List UInt8,
    readTmf fo fb .checked ⟨bytes, [], false⟩ = .panic :=
  ⟨fileBytes 2 [⟨[], [⟨23, 0, [0] ++ leBytes 8 1 ++ [64]⟩]⟩], by rfl⟩

/-- C18 is false with overflow checks: an index array with minimum 2^64 - 1 (addition
overflow). -/
theorem C18_violated_min : ∃ bytes : List UInt8,
    readTmf fo fb .checked ⟨bytes, [], false⟩ = .panic :=
  ⟨fileBytes 2 [⟨[], [⟨2, 0, [1] ++ leBytes 8 1 ++ leBytes 8 (2 ^ 64 - 1) ++ [128]⟩]⟩], by rfl⟩

/-- C19, foreign files: `NotTMFFile` is reported for exactly the files of at least three bytes that
do not begin with "TMF". -/
theorem C19_foreign (bytes : List UInt8) (sched : List Nat) :
    readTmf fo fb b ⟨bytes, sched, false⟩ = .err .notTMFFile ↔ 3 ≤ bytes.length ∧ bytes.take 3 ≠ [84, 77, 70] :=
  readTmf_notTMF_iff fo fb b bytes sched

/-- C19, newer files: `NewerVersionRequired` is reported for exactly the files whose required
version is above 0.2. -/
theorem C19_newer (bytes : List UInt8) (sched : List Nat) :
    readTmf fo fb b ⟨bytes, sched, false⟩ = .err .newerVersionRequired ↔
      ∃ (ver : List UInt8) (minMajor minMinor : Nat) (rest : List UInt8), ver.length = 4 ∧ minMajor < 2 ^ 16 ∧
        minMinor < 2 ^ 16 ∧ (minMajor > 0 ∨ minMinor > 2) ∧
        bytes = [84, 77, 70] ++ ver ++ leBytes 2 minMajor ++ leBytes 2 minMinor ++ rest :=
  readTmf_newer_iff fo fb b bytes sched

example : readTmf fo fb b ⟨[84, 77, 71, 1, 2], [1], false⟩ = .err .notTMFFile := by rfl
example : readTmf fo fb b ⟨fileHead 0 3 7 ++ [1, 2], [], false⟩ = .err .newerVersionRequired := by rfl

/-- C19, written files: whatever was saved, the header is accepted. -/
theorem C19_written {b' : Build} {prec : PrecisionInfo fo.F} {meshes : List (Mesh fo.F × List UInt8)}
    {bytes : List UInt8} (h : tmfBytes fo fb b' prec meshes = .ok bytes) (sched : List Nat) :
    readTmf fo fb b ⟨bytes, sched, false⟩ ≠ .err .notTMFFile ∧
    readTmf fo fb b ⟨bytes, sched, false⟩ ≠ .err .newerVersionRequired := by
  obtain ⟨enc, _, rfl⟩ := tmfBytes_ok _ _ _ _ h
  constructor
  · intro h
    obtain ⟨_, h⟩ := (readTmf_notTMF_iff fo fb b _ _).mp h
    exact h rfl
  · intro h
    obtain ⟨ver, maj, min, rest, hv, h1, h2, h3, e⟩ := (readTmf_newer_iff fo fb b _ _).mp h
    have e := congrArg (fun l => (leNat ((l.drop 7).take 2), leNat ((l.drop 9).take 2))) e
    have hd : ∀ (l : List UInt8), ([84, 77, 70] ++ ver ++ leBytes 2 maj ++ leBytes 2 min ++ l).drop 7 =
        leBytes 2 maj ++ (leBytes 2 min ++ l) := by
      intro l
      simp only [List.append_assoc]
      rw [← List.append_assoc]
      exact List.drop_left' (by simp [hv])
    have hd' : ∀ (l : List UInt8), ([84, 77, 70] ++ ver ++ leBytes 2 maj ++ leBytes 2 min ++ l).drop 9 =
        leBytes 2 min ++ l := by
      intro l
      rw [show (9 : Nat) = 7 + 2 from rfl, ← List.drop_drop, hd]
      exact List.drop_left' (by simp)
    rw [hd, hd', List.take_left' (by simp), List.take_left' (by simp), leNat_leBytes_of_lt (by omega),
      leNat_leBytes_of_lt (by omega)] at e
    simp only [Prod.mk.injEq] at e
    have e1 : 0 = maj := e.1
    have e2 : 2 = min := e.2
    omega

/-- C20, segments: a segment announcing more than 2^31 bytes, after any loadable meshes and framed
segments and in front of anything. -/
theorem C20_segment_length {minMinor : Nat} (hv : minMinor ≤ 2) {pre : List RawMesh} {name : List UInt8}
    {s₁ : List RawSeg} {n k kind len comp : Nat} {tail : List UInt8} {sched₀ : List Nat}
    {vs : List (Mesh fo.F × List UInt8)}
    (hf : ∀ m ∈ pre, RawMesh.Framed (layoutOf minMinor) m) (hc : pre.length + (n + 1) < 2 ^ 32)
    (hpre : readTmf fo fb b ⟨fileBytes minMinor pre, sched₀, false⟩ = .ok vs)
    (hn : NameOk name) (hk : s₁.length + (k + 1) < 2 ^ 16) (h₁ : ∀ r ∈ s₁, r.Framed (layoutOf minMinor))
    (hkind : KindFits (layoutOf minMinor) kind) (hlen : LenFits (layoutOf minMinor) len) (h31 : 2 ^ 31 < len)
    (sched : List Nat) :
    readTmf fo fb b ⟨fileHead 0 minMinor (pre.length + (n + 1)) ++ pre.flatMap (RawMesh.bytes (layoutOf minMinor)) ++
      meshHead name (s₁.length + (k + 1)) ++ s₁.flatMap (RawSeg.bytes (layoutOf minMinor)) ++
      (segHead (layoutOf minMinor) kind len comp ++ tail), sched, false⟩ = .err .segmentTooLong :=
  readTmf_frame_err fo fb b hv hf hc
    (rawMesh_ok_of_loads fo fb b hv hf (by omega) hpre) hn hk h₁
    (readSegment_too_long hkind hlen h31 comp tail) sched

example : readTmf fo fb b ⟨fileHead 0 2 2 ++ RawMesh.bytes .new ⟨[65], [triSeg]⟩ ++ meshHead [66] 3 ++
    triSeg.bytes .new ++ (segHead .new 77 (2 ^ 31 + 1) 9 ++ [1, 2, 3]), [4], false⟩ = .err .segmentTooLong := by rfl

/-- C20, arrays: a segment whose header announces more than 2^31 elements, after loadable meshes
and loadable segments; the segments behind it must not panic. -/
theorem C20_array_length {minMinor : Nat} (hv : minMinor ≤ 2) {pre post : List RawMesh} {name : List UInt8}
    {s₁ s₂ : List RawSeg} {kind len : Nat} {data : List UInt8} {sched₁ sched₂ : List Nat}
    {vs : List (Mesh fo.F × List UInt8)}
    (hf : ∀ m ∈ pre ++ ⟨name, s₁ ++ ⟨kind, 0, data⟩ :: s₂⟩ :: post, RawMesh.Framed (layoutOf minMinor) m)
    (hc : (pre ++ ⟨name, s₁ ++ ⟨kind, 0, data⟩ :: s₂⟩ :: post).length < 2 ^ 32)
    (hpre : readTmf fo fb b ⟨fileBytes minMinor (pre ++ [⟨name, s₁⟩]), sched₁, false⟩ = .ok vs)
    (hpost : readTmf fo fb b ⟨fileBytes minMinor [⟨name, s₂⟩], sched₂, false⟩ ≠ .panic)
    (hd : Declares (layoutOf minMinor) len kind data) (hlen : len < 2 ^ 64) (h31 : 2 ^ 31 < len)
    (junk : List UInt8) (sched : List Nat) :
    readTmf fo fb b ⟨fileBytes minMinor (pre ++ ⟨name, s₁ ++ ⟨kind, 0, data⟩ :: s₂⟩ :: post) ++ junk, sched, false⟩ =
      .err .segmentTooLong := by
  have hm : RawMesh.Framed (layoutOf minMinor) ⟨name, s₁ ++ ⟨kind, 0, data⟩ :: s₂⟩ := hf _ (by simp)
  have f₁ : RawMesh.Framed (layoutOf minMinor) ⟨name, s₁⟩ :=
    ⟨hm.name, by have := hm.count; simp at this ⊢; omega, fun s hs => hm.segs s (by simp at hs ⊢; exact Or.inl hs)⟩
  have f₂ : RawMesh.Framed (layoutOf minMinor) ⟨name, s₂⟩ :=
    ⟨hm.name, by have := hm.count; simp at this ⊢; omega, fun s hs => hm.segs s (by simp at hs ⊢; exact Or.inr (Or.inr hs))⟩
  have hf' : ∀ m ∈ pre ++ [⟨name, s₁⟩], RawMesh.Framed (layoutOf minMinor) m := by
    intro m hm
    rcases List.mem_append.mp hm with hm | hm
    · exact hf m (by simp [hm])
    · rcases List.mem_singleton.mp hm with rfl
      exact f₁
  have hc' : (pre ++ [⟨name, s₁⟩] : List RawMesh).length < 2 ^ 32 := by
    rw [List.length_append] at hc ⊢
    simp only [List.length_cons, List.length_nil] at hc ⊢
    omega
  have hall := rawMesh_ok_of_loads fo fb b hv hf' hc' hpre
  refine readTmf_first_err fo fb b hv hf hc (fun m hm => hall m (by simp [hm])) ?_
    (decode_too_long fo fb b hd hlen h31) (decode_no_panic_of_file fo fb b hv f₂ hpost) junk sched
  obtain ⟨v, hv⟩ := hall ⟨name, s₁⟩ (by simp)
  exact decode_ok_of_rawMesh fo fb b hv

example : Declares .new (2 ^ 31 + 1) 2 (indexHead .new 3 (2 ^ 31 + 1) 5 ++ [1, 2]) :=
  .index 2 3 5 [1, 2] (by decide) (by decide) (by decide)
example : readTmf fo fb b ⟨fileBytes 2 [⟨[65], [triSeg, ⟨5, 0, leBytes 1 3 ++ leBytes 8 (2 ^ 31 + 1) ++ [7]⟩, triSeg]⟩] ++ [9],
    [], false⟩ = .err .segmentTooLong := by rfl

/-- C21. A framed segment of unknown type anywhere in a file does not change the result of loading
it. -/
theorem C21_unknown_segment {minMinor : Nat} (hv : minMinor ≤ 2) {pre post : List RawMesh} {name : List UInt8}
    {s₁ s₂ : List RawSeg} {kind comp : Nat} {data : List UInt8}
    (hf : ∀ m ∈ pre ++ ⟨name, s₁ ++ ⟨kind, comp, data⟩ :: s₂⟩ :: post, RawMesh.Framed (layoutOf minMinor) m)
    (hc : (pre ++ ⟨name, s₁ ++ ⟨kind, comp, data⟩ :: s₂⟩ :: post).length < 2 ^ 32)
    (hk : kind ∉ knownKinds) (junk junk' : List UInt8) (sched sched' : List Nat) :
    readTmf fo fb b ⟨fileBytes minMinor (pre ++ ⟨name, s₁ ++ ⟨kind, comp, data⟩ :: s₂⟩ :: post) ++ junk, sched, false⟩ =
    readTmf fo fb b ⟨fileBytes minMinor (pre ++ ⟨name, s₁ ++ s₂⟩ :: post) ++ junk', sched', false⟩ := by
  have hm : RawMesh.Framed (layoutOf minMinor) ⟨name, s₁ ++ ⟨kind, comp, data⟩ :: s₂⟩ := hf _ (by simp)
  rw [readTmf_file fo fb b hv hf hc, readTmf_file fo fb b hv _ (by simpa using hc)]
  · rw [mapAll_append, mapAll_append]
    congr 1
    funext x
    simp only [Outcome.mapAll]
    have : rawMesh fo fb b (layoutOf minMinor) ⟨name, s₁ ++ ⟨kind, comp, data⟩ :: s₂⟩ =
        rawMesh fo fb b (layoutOf minMinor) ⟨name, s₁ ++ s₂⟩ := by
      unfold rawMesh
      dsimp only
      rw [List.map_append, List.map_cons, assembleMesh_skip, ← List.map_append]
      simp [encodedOf, fromU16_unknown hk, EncodedSegment.decode]
    rw [this]
  · intro m hm'
    rcases List.mem_append.mp hm' with h | h
    · exact hf m (by simp [h])
    · rcases List.mem_cons.mp h with rfl | h
      · exact ⟨hm.name, by have := hm.count; simp at this ⊢; omega, fun s hs => hm.segs s (by
          simp only [List.mem_append, List.mem_cons] at hs ⊢
          rcases hs with h | h
          · exact Or.inl h
          · exact Or.inr (Or.inr h))⟩
      · exact hf m (by simp [h])

example : readTmf fo fb b ⟨fileBytes 2 [⟨[65], [⟨7, 255, [1, 2, 3]⟩, triSeg]⟩], [], false⟩ =
    .ok [({ (Mesh.empty : Mesh fo.F) with vertexTriangles := some [0, 1, 2] }, [65])] := by rfl
example : 7 ∉ knownKinds ∧ 300 ∉ knownKinds := by decide

/-- C22, unknown codes: after any loadable meshes and framed segments, in front of anything, on a
segment of any type. -/
theorem C22_unknown_compression {minMinor : Nat} (hv : minMinor ≤ 2) {pre : List RawMesh} {name : List UInt8}
    {s₁ : List RawSeg} {n k kind len comp : Nat} {tail : List UInt8} {sched₀ : List Nat}
    {vs : List (Mesh fo.F × List UInt8)}
    (hf : ∀ m ∈ pre, RawMesh.Framed (layoutOf minMinor) m) (hc : pre.length + (n + 1) < 2 ^ 32)
    (hpre : readTmf fo fb b ⟨fileBytes minMinor pre, sched₀, false⟩ = .ok vs)
    (hn : NameOk name) (hk : s₁.length + (k + 1) < 2 ^ 16) (h₁ : ∀ r ∈ s₁, r.Framed (layoutOf minMinor))
    (hkind : KindFits (layoutOf minMinor) kind) (hlen : len ≤ 2 ^ 31) (hcomp : comp < 256)
    (hunknown : comp ≠ 0 ∧ comp ≠ 1 ∧ comp ≠ 2 ∧ comp ≠ 255) (sched : List Nat) :
    readTmf fo fb b ⟨fileHead 0 minMinor (pre.length + (n + 1)) ++ pre.flatMap (RawMesh.bytes (layoutOf minMinor)) ++
      meshHead name (s₁.length + (k + 1)) ++ s₁.flatMap (RawSeg.bytes (layoutOf minMinor)) ++
      (segHead (layoutOf minMinor) kind len comp ++ tail), sched, false⟩ = .err (.compressionTypeUnknown comp) := by
  refine readTmf_frame_err fo fb b hv hf hc
    (rawMesh_ok_of_loads fo fb b hv hf (by omega) hpre) hn hk h₁ ?_ sched
  rw [readSegment_comp hkind hlen hcomp]
  have : CompressionType.fromU8 comp = .err (.compressionTypeUnknown comp) := by
    unfold CompressionType.fromU8
    split <;> first | omega | rfl
  rw [this]
  rfl

example : readTmf fo fb b ⟨fileHead 0 2 1 ++ meshHead [66] 3 ++
    triSeg.bytes .new ++ (segHead .new 77 3 9 ++ [1, 2, 3]), [4], false⟩ = .err (.compressionTypeUnknown 9) := by rfl

/-- C22 (part), unsupported codes on triangle segments: codes 1 and 2, and any of 1, 2, 255 on a
shared segment. Missing: code 255 on the other triangle segments, which is reported as 1, see
below. -/
theorem C22_unsupported_compression_partial {minMinor : Nat} (hv : minMinor ≤ 2) {pre post : List RawMesh}
    {name : List UInt8} {s₁ s₂ : List RawSeg} {kind comp : Nat} {data : List UInt8} {sched₁ sched₂ : List Nat}
    {vs : List (Mesh fo.F × List UInt8)}
    (hf : ∀ m ∈ pre ++ ⟨name, s₁ ++ ⟨kind, comp, data⟩ :: s₂⟩ :: post, RawMesh.Framed (layoutOf minMinor) m)
    (hc : (pre ++ ⟨name, s₁ ++ ⟨kind, comp, data⟩ :: s₂⟩ :: post).length < 2 ^ 32)
    (hpre : readTmf fo fb b ⟨fileBytes minMinor (pre ++ [⟨name, s₁⟩]), sched₁, false⟩ = .ok vs)
    (hpost : readTmf fo fb b ⟨fileBytes minMinor [⟨name, s₂⟩], sched₂, false⟩ ≠ .panic)
    (hk : (kind = 2 ∨ kind = 4 ∨ kind = 6 ∨ kind = 10) ∧ (comp = 1 ∨ comp = 2) ∨
      kind = 25 ∧ data ≠ [] ∧ (comp = 1 ∨ comp = 2 ∨ comp = 255))
    (junk : List UInt8) (sched : List Nat) :
    readTmf fo fb b ⟨fileBytes minMinor (pre ++ ⟨name, s₁ ++ ⟨kind, comp, data⟩ :: s₂⟩ :: post) ++ junk, sched, false⟩ =
      .err (.unsuportedCompressionType comp) := by
  have hm : RawMesh.Framed (layoutOf minMinor) ⟨name, s₁ ++ ⟨kind, comp, data⟩ :: s₂⟩ := hf _ (by simp)
  have f₁ : RawMesh.Framed (layoutOf minMinor) ⟨name, s₁⟩ :=
    ⟨hm.name, by have := hm.count; simp at this ⊢; omega, fun s hs => hm.segs s (by simp at hs ⊢; exact Or.inl hs)⟩
  have f₂ : RawMesh.Framed (layoutOf minMinor) ⟨name, s₂⟩ :=
    ⟨hm.name, by have := hm.count; simp at this ⊢; omega, fun s hs => hm.segs s (by simp at hs ⊢; exact Or.inr (Or.inr hs))⟩
  have hf' : ∀ m ∈ pre ++ [⟨name, s₁⟩], RawMesh.Framed (layoutOf minMinor) m := by
    intro m hm
    rcases List.mem_append.mp hm with hm | hm
    · exact hf m (by simp [hm])
    · rcases List.mem_singleton.mp hm with rfl
      exact f₁
  have hc' : (pre ++ [⟨name, s₁⟩] : List RawMesh).length < 2 ^ 32 := by
    rw [List.length_append] at hc ⊢
    simp only [List.length_cons, List.length_nil] at hc ⊢
    omega
  have hall := rawMesh_ok_of_loads fo fb b hv hf' hc' hpre
  refine readTmf_first_err fo fb b hv hf hc (fun m hm => hall m (by simp [hm])) ?_
    ?_ (decode_no_panic_of_file fo fb b hv f₂ hpost) junk sched
  · obtain ⟨v, hv⟩ := hall ⟨name, s₁⟩ (by simp)
    exact decode_ok_of_rawMesh fo fb b hv
  · rcases hk with ⟨hk, hcm⟩ | ⟨rfl, hd, hcm⟩
    · rcases hk with rfl | rfl | rfl | rfl <;> rcases hcm with rfl | rfl <;> rfl
    · cases data with
      | nil => exact absurd rfl hd
      | cons x data => rcases hcm with rfl | rfl | rfl <;> rfl

example : readTmf fo fb b ⟨fileBytes 2 [⟨[65], [triSeg, ⟨6, 2, [1, 2, 3]⟩, triSeg]⟩], [], false⟩ =
    .err (.unsuportedCompressionType 2) := by rfl

/-- C22 is false for code 255 (`Sequence`): the error carries code 1. -/
theorem C22_sequence_violated : ∃ bytes : List UInt8,
    bytes = fileBytes 2 [⟨[65], [⟨2, 255, [1, 2, 3]⟩]⟩] ∧
    readTmf fo fb b ⟨bytes, [], false⟩ = .err (.unsuportedCompressionType 1) :=
  ⟨_, rfl, rfl⟩

/-- C23 for every stored width: the index arrays load as `OldArray.loaded` says, several arrays of one kind are
appended. -/
theorem C23_old_layout {minMinor : Nat} (hv : minMinor ≤ 1) {meshes : List (List UInt8 × List OldArray)}
    (hc : meshes.length < 2 ^ 32) (hn : ∀ m ∈ meshes, NameOk m.1 ∧ m.2.length < 2 ^ 16)
    (ha : ∀ m ∈ meshes, ∀ a ∈ m.2, a.Packed) (junk : List UInt8) (sched : List Nat) :
    readTmf fo fb b ⟨fileBytes minMinor (meshes.map (fun m => ⟨m.1, m.2.map OldArray.seg⟩)) ++ junk, sched, false⟩ =
      .ok (meshes.map (fun m => ({ (Mesh.empty : Mesh fo.F) with
        vertexTriangles := joined (piecesOf 2 (m.2.map OldArray.loaded)), normalTriangles := joined (piecesOf 4 (m.2.map OldArray.loaded)),
        uvTriangles := joined (piecesOf 6 (m.2.map OldArray.loaded)), tangentTriangles := joined (piecesOf 10 (m.2.map OldArray.loaded)) }, m.1))) := by
  have hL : layoutOf minMinor = .old := by unfold layoutOf; rw [if_pos hv]
  rw [readTmf_file fo fb b (by omega) _ (by simpa using hc), mapAll_map, hL]
  · have key : ∀ (l : List (List UInt8 × List OldArray)), (∀ m ∈ l, ∀ a ∈ m.2, a.Packed) →
        Outcome.mapAll (fun m : List UInt8 × List OldArray => rawMesh fo fb b .old ⟨m.1, m.2.map OldArray.seg⟩) l =
        .ok (l.map (fun m => ({ (Mesh.empty : Mesh fo.F) with
        vertexTriangles := joined (piecesOf 2 (m.2.map OldArray.loaded)), normalTriangles := joined (piecesOf 4 (m.2.map OldArray.loaded)),
        uvTriangles := joined (piecesOf 6 (m.2.map OldArray.loaded)), tangentTriangles := joined (piecesOf 10 (m.2.map OldArray.loaded)) }, m.1))) := by
      intro l hl
      induction l with
      | nil => rfl
      | cons m l ih =>
        rw [Outcome.mapAll, ih (fun x hx => hl x (List.mem_cons_of_mem _ hx))]
        unfold rawMesh
        dsimp only
        rw [assembleMesh_old fo fb b (hl m List.mem_cons_self)]
        rfl
    exact key meshes ha
  · rw [hL]
    intro m hm
    obtain ⟨x, hx, rfl⟩ := List.mem_map.mp hm
    refine ⟨(hn x hx).1, by simpa using (hn x hx).2, fun s hs => ?_⟩
    obtain ⟨a, haa, rfl⟩ := List.mem_map.mp hs
    have hok := ha x hx a haa
    refine ⟨?_, Or.inl rfl, ?_⟩
    · rcases hok.kind with h | h | h | h <;> (simp only [OldArray.seg, KindFits, h]; omega)
    · have := hok.size
      simp only [OldArray.seg, List.length_append, length_leBytes]
      omega

/-- C23 (part: stored width below 64 and not 32). Index arrays of the old layout load exactly; several
arrays of one kind are appended. Missing: width 32 and widths from 64, where they do not, see below. -/
theorem C23_old_layout_partial {minMinor : Nat} (hv : minMinor ≤ 1) {meshes : List (List UInt8 × List OldArray)}
    (hc : meshes.length < 2 ^ 32) (hn : ∀ m ∈ meshes, NameOk m.1 ∧ m.2.length < 2 ^ 16)
    (ha : ∀ m ∈ meshes, ∀ a ∈ m.2, a.Ok ∧ a.width ≠ 32) (junk : List UInt8) (sched : List Nat) :
    readTmf fo fb b ⟨fileBytes minMinor (meshes.map (fun m => ⟨m.1, m.2.map OldArray.seg⟩)) ++ junk, sched, false⟩ =
      .ok (meshes.map (fun m => ({ (Mesh.empty : Mesh fo.F) with
        vertexTriangles := joined (piecesOf 2 m.2), normalTriangles := joined (piecesOf 4 m.2),
        uvTriangles := joined (piecesOf 6 m.2), tangentTriangles := joined (piecesOf 10 m.2) }, m.1))) := by
  have key : ∀ m ∈ meshes, m.2.map OldArray.loaded = m.2 := fun m hm => by
    conv_rhs => rw [← List.map_id m.2]
    refine List.map_congr_left fun a h => ?_
    obtain ⟨hok, h32⟩ := ha m hm a h
    rw [OldArray.loaded, if_neg h32, if_neg (by have := hok.width; omega)]
    rfl
  rw [C23_old_layout fo fb b hv hc hn (fun m hm a h => by
    obtain ⟨hok, _⟩ := ha m hm a h
    exact ⟨hok.kind, by have := hok.width; omega, hok.fits, hok.length, hok.packed, hok.size⟩)]
  refine congrArg Outcome.ok (List.map_congr_left fun m hm => ?_)
  rw [key m hm]

/-- The array 0, 1, 2, 1, 0 in two bits. -/
def oldTri : OldArray := ⟨4, 2, [0, 1, 2, 1, 0], [0x19, 0x00], [false, false, false, false, false, false]⟩

example : oldTri.Ok ∧ oldTri.width ≠ 32 :=
  ⟨⟨by decide, by decide, by decide, by decide, by decide, by decide⟩, by decide⟩
example : readTmf fo fb b ⟨fileBytes 1 [⟨[65], [oldTri.seg, oldTri.seg]⟩], [], false⟩ =
    .ok [({ (Mesh.empty : Mesh fo.F) with normalTriangles := some [0, 1, 2, 1, 0, 0, 1, 2, 1, 0] }, [65])] := by rfl

/-- C23 is false at width 32: two indices come back as other numbers. -/
theorem C23_width32_violated : ∃ a : OldArray, a.Ok ∧
    readTmf fo fb b ⟨fileBytes 1 [⟨[65], [a.seg]⟩], [], false⟩ ≠
      .ok [({ (Mesh.empty : Mesh fo.F) with vertexTriangles := some a.indices }, [65])] := by
  refine ⟨⟨2, 32, [1, 2 ^ 31], [0, 0, 0, 1, 0x80, 0, 0, 0], []⟩,
    ⟨by decide, by decide, by decide, by decide, by decide, by decide⟩, ?_⟩
  have : readTmf fo fb b ⟨fileBytes 1 [⟨[65], [OldArray.seg ⟨2, 32, [1, 2 ^ 31], [0, 0, 0, 1, 0x80, 0, 0, 0], []⟩]⟩], [], false⟩ =
      .ok [({ (Mesh.empty : Mesh fo.F) with vertexTriangles := some [0, 0] }, [65])] := by cases b <;> rfl
  rw [this]
  simp

/-- C23 is false from 64 bits on: whatever the indices are, they come back as zeros. -/
theorem C23_wide_violated {a : OldArray} (h : a.Packed) (hk : a.kind = 2) (hw : 64 ≤ a.width) (hi : ∃ i ∈ a.indices, i ≠ 0) :
    readTmf fo fb b ⟨fileBytes 1 [⟨[65], [a.seg]⟩], [], false⟩ =
        .ok [({ (Mesh.empty : Mesh fo.F) with vertexTriangles := some (List.replicate a.indices.length 0) }, [65])] ∧
      readTmf fo fb b ⟨fileBytes 1 [⟨[65], [a.seg]⟩], [], false⟩ ≠
        .ok [({ (Mesh.empty : Mesh fo.F) with vertexTriangles := some a.indices }, [65])] := by
  have hn : NameOk [65] := ⟨by decide, ['A'], by decide⟩
  have e := C23_old_layout fo fb b (minMinor := 1) (by decide) (meshes := [([65], [a])]) (by norm_num)
    (fun m hm => by rcases List.mem_singleton.mp hm with rfl; exact ⟨hn, by norm_num⟩)
    (fun m hm x hx => by rcases List.mem_singleton.mp hm with rfl; rcases List.mem_singleton.mp hx with rfl; exact h) [] []
  rw [List.append_nil] at e
  have el : a.loaded = { a with indices := List.replicate a.indices.length 0 } := by
    rw [OldArray.loaded, if_neg (by omega), if_pos hw]
  simp only [List.map_cons, List.map_nil, el, piecesOf, List.filter_cons, List.filter_nil, hk] at e
  have e : readTmf fo fb b ⟨fileBytes 1 [⟨[65], [a.seg]⟩], [], false⟩ =
      .ok [({ (Mesh.empty : Mesh fo.F) with vertexTriangles := some (List.replicate a.indices.length 0 ++ []) }, [65])] := e
  rw [List.append_nil] at e
  refine ⟨e, ?_⟩
  rw [e]
  intro h
  simp only [Outcome.ok.injEq, List.cons.injEq, and_true, Prod.mk.injEq, Mesh.mk.injEq, Option.some.injEq, true_and] at h
  obtain ⟨i, hi, h0⟩ := hi
  rw [← h] at hi
  exact h0 (List.eq_of_mem_replicate hi)

/-- One index in 72 bits, and three in 32 bits: the last one comes back as the first one stored. -/
example : OldArray.Packed ⟨2, 72, [5], [0, 0, 0, 0, 0, 0, 0, 0, 5], []⟩ :=
  ⟨by decide, by decide, by decide, by decide, by decide, by decide⟩
example : readTmf fo fb b ⟨fileBytes 1 [⟨[65], [OldArray.seg ⟨2, 32, [1, 2, 3], [0, 0, 0, 1, 0, 0, 0, 2, 0, 0, 0, 3], []⟩]⟩],
    [], false⟩ = .ok [({ (Mesh.empty : Mesh fo.F) with vertexTriangles := some [0, 0, 1] }, [65])] := by cases b <;> rfl

/-- C24. If no segment panics, the outcome is that of decoding and applying one segment after the
other, for every order in which the tasks finish (in particular the first failing segment of the
file decides the error). -/
theorem C24_schedule (ctx : DecodeCtx) (order : List Nat) (segs : List EncodedSegment)
    (hall : ∀ i < segs.length, i ∈ order) (hp : ∀ s ∈ segs, s.decode fo fb b ctx ≠ .panic) :
    assembleInOrder fo fb b ctx order segs =
      some (inOrder (EncodedSegment.decode fo fb b ctx) DecodedSegment.apply .empty segs) := by
  unfold assembleInOrder
  rw [joinAll_eq _ _ (by simpa using hall)]
  simp only [Option.bind_eq_bind, Option.bind_some]
  rw [← collect_inOrder _ _ _ hp]

/-- C24, panics: if some segment panics, the whole does, for every order. -/
theorem C24_panic (ctx : DecodeCtx) (order : List Nat) (segs : List EncodedSegment)
    (hall : ∀ i < segs.length, i ∈ order) (hp : ∃ s ∈ segs, s.decode fo fb b ctx = .panic) :
    assembleInOrder fo fb b ctx order segs = some .panic := by
  obtain ⟨s, hs, hd⟩ := hp
  unfold assembleInOrder
  rw [joinAll_eq _ _ (by simpa using hall)]
  simp only [Option.bind_eq_bind, Option.bind_some]
  rw [collect_panic (List.mem_map.mpr ⟨s, hs, hd⟩)]
  rfl

example : assembleInOrder fo fb b ⟨true⟩ [2, 0, 1] [encodedOf triSeg, encodedOf ⟨2, 1, []⟩, encodedOf ⟨2, 2, []⟩] =
    some (.err (.unsuportedCompressionType 1)) := by rfl
example : assembleInOrder fo fb b ⟨true⟩ [1, 0] [encodedOf triSeg, encodedOf ⟨4, 0, triSeg.data⟩] =
    some (.ok { (Mesh.empty : Mesh fo.F) with vertexTriangles := some [0, 1, 2], normalTriangles := some [0, 1, 2] }) := by rfl

/-- `read_tmf` itself never reports the two errors of `read_tmf_one`. -/
theorem readTmf_err_not_one {bytes : List UInt8} {sched : List Nat} {e : ImportError}
    (h : readTmf fo fb b ⟨bytes, sched, false⟩ = .err e) : e ≠ .noMeshes ∧ e ≠ .tooManyMeshes := by
  rw [readTmf_slice] at h
  have := sat_importTmf fo fb b bytes
  cases hx : (importTmf fo fb b).runSlice bytes with
  | ok v => rw [hx] at h; simp at h
  | panic => rw [hx] at h; simp at h
  | err e' =>
    rw [hx] at h this
    simp only [Outcome.bind_err, Outcome.err.injEq] at h
    subst h
    rcases this with h | rfl | rfl
    · constructor <;> (rintro rfl; exact h)
    · simp
    · simp

/-- C25. `read_tmf_one` accepts exactly the files with one mesh, reports their absence or surplus,
and otherwise does what `read_tmf` does. -/
theorem C25_read_one (bytes : List UInt8) (sched : List Nat) :
    (∀ m, readTmfOne fo fb b ⟨bytes, sched, false⟩ = .ok m ↔ readTmf fo fb b ⟨bytes, sched, false⟩ = .ok [m]) ∧
    (readTmfOne fo fb b ⟨bytes, sched, false⟩ = .err .noMeshes ↔ readTmf fo fb b ⟨bytes, sched, false⟩ = .ok []) ∧
    (readTmfOne fo fb b ⟨bytes, sched, false⟩ = .err .tooManyMeshes ↔
      ∃ ms, readTmf fo fb b ⟨bytes, sched, false⟩ = .ok ms ∧ 2 ≤ ms.length) ∧
    (∀ e, e ≠ .noMeshes → e ≠ .tooManyMeshes → (readTmfOne fo fb b ⟨bytes, sched, false⟩ = .err e ↔
      readTmf fo fb b ⟨bytes, sched, false⟩ = .err e)) ∧
    (readTmfOne fo fb b ⟨bytes, sched, false⟩ = .panic ↔ readTmf fo fb b ⟨bytes, sched, false⟩ = .panic) := by
  unfold readTmfOne
  cases h : readTmf fo fb b ⟨bytes, sched, false⟩ with
  | panic => simp
  | err e =>
    have := readTmf_err_not_one fo fb b h
    simp [this.1, this.2]
  | ok ms =>
    simp only [Outcome.bind_ok]
    match ms with
    | [] => simp; exact fun e h1 _ h2 => h1 h2.symm
    | [m] => simp
    | m :: m' :: ms => simp; exact fun e _ h1 h2 => h1 h2.symm

example : readTmfOne fo fb b ⟨fileBytes 2 [⟨[65], [triSeg]⟩, ⟨[66], []⟩], [], false⟩ = .err .tooManyMeshes := by rfl
example : readTmfOne fo fb b ⟨fileBytes 2 [], [], false⟩ = .err .noMeshes := by rfl

/-- C50. The accepted files are exactly the framed ones (any four version bytes, anything behind
them) whose meshes all decode; the result holds each mesh under its name, in file order. -/
theorem C50_accepted_iff (bytes : List UInt8) (sched : List Nat) (vs : List (Mesh fo.F × List UInt8)) :
    readTmf fo fb b ⟨bytes, sched, false⟩ = .ok vs ↔
      ∃ (ver : List UInt8) (minMinor : Nat) (ms : List RawMesh) (junk : List UInt8),
        ver.length = 4 ∧ minMinor ≤ 2 ∧ ms.length < 2 ^ 32 ∧ (∀ m ∈ ms, m.Framed (layoutOf minMinor)) ∧
        bytes = fileBytesV ver minMinor ms ++ junk ∧
        Outcome.mapAll (rawMesh fo fb b (layoutOf minMinor)) ms = .ok vs :=
  readTmf_iff fo fb b bytes sched vs

example : Outcome.mapAll (rawMesh fo fb b .new) [⟨[65], [triSeg]⟩] =
    .ok [({ (Mesh.empty : Mesh fo.F) with vertexTriangles := some [0, 1, 2] }, [65])] := by rfl

end Tmf.Props
