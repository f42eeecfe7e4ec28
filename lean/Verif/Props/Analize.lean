import Verif.Lemmas.Analize
import Verif.Props.Layout
/-
C74: the size report of a file.
-/

namespace Tmf.Props
open Spec

/-- A report that says what it should is the only one that does. -/
theorem Reports.unique {m : RawMesh} {r r' : MeshReport} (h : Reports m r) (h' : Reports m r') : r = r' := by
  have hlt : ∀ {x : MeshReport}, Reports m x → x.rows.Nodup := fun h => h.sorted.imp fun {a b} hab e => by
    subst e
    omega
  have hrows : r.rows = r'.rows := by
    refine List.Perm.eq_of_pairwise (le := fun x y => x.2 < y.2 ∨ x.2 = y.2 ∧ x.1.toU8 < y.1.toU8) ?_ h.sorted h'.sorted
      ((List.perm_ext_iff_of_nodup (hlt h) (hlt h')).mpr ?_)
    · intro a b _ _ h1 h2
      omega
    · rintro ⟨t, n⟩
      rw [h.rows, h'.rows]
  obtain ⟨name, rows, total⟩ := r
  obtain ⟨name', rows', total'⟩ := r'
  have h1 : name = name' := h.name.trans h'.name.symm
  have h2 : total = total' := h.total.trans h'.total.symm
  have h3 : rows = rows' := hrows
  rw [h1, h2, h3]

theorem reports_list {ms : List RawMesh} {rs : List MeshReport} :
    List.Forall₂ Reports ms rs ↔ rs = ms.map fun m => reportOf m.name (m.segs.map encodedOf) := by
  constructor
  · intro h
    induction h with
    | nil => rfl
    | cons h _ ih => rw [List.map_cons, ← ih, Reports.unique h (reports_of _)]
  · rintro rfl
    rw [List.forall₂_map_right_iff]
    exact List.forall₂_same.mpr fun m _ => reports_of m

/-- C74: no input makes the report panic, whatever the build, however the reader delivers it and wherever it breaks. -/
theorem C74_no_panic (b : Build) (s : Source) : analize b s ≠ .panic := analize_not_panic b s

/-- C74: exactly the files made of a header and framed meshes have a report, and it says for each mesh its name, the size
of all payloads, and the size of the payloads of each type. -/
theorem C74_report (b : Build) (bytes : List UInt8) (sched : List Nat) (rs : List MeshReport) :
    analize b ⟨bytes, sched, false⟩ = .ok rs ↔
      ∃ (ver : List UInt8) (minMinor : Nat) (ms : List RawMesh) (junk : List UInt8),
        ver.length = 4 ∧ minMinor ≤ 2 ∧ ms.length < 2 ^ 32 ∧ (∀ m ∈ ms, m.Framed (layoutOf minMinor)) ∧
        bytes = fileBytesV ver minMinor ms ++ junk ∧ List.Forall₂ Reports ms rs := by
  simp only [reports_list]
  exact analize_iff b bytes sched rs

/-- C74: what can be loaded has a report, with the same names. -/
theorem C74_loadable {fo : FloatOps} {fb : F64Bytes fo} {b b' : Build} {bytes : List UInt8} {sched sched' : List Nat}
    {out : List (Mesh fo.F × List UInt8)} (h : readTmf fo fb b ⟨bytes, sched, false⟩ = .ok out) :
    ∃ rs, analize b' ⟨bytes, sched', false⟩ = .ok rs ∧ rs.map MeshReport.name = out.map Prod.snd := by
  obtain ⟨ver, minMinor, ms, junk, h1, h2, h3, h4, h5, h6⟩ := (readTmf_iff fo fb b bytes sched out).mp h
  refine ⟨_, (analize_iff b' bytes sched' _).mpr ⟨ver, minMinor, ms, junk, h1, h2, h3, h4, h5, rfl⟩, ?_⟩
  rw [List.map_map]
  clear h3 h4 h5 h
  induction ms generalizing out with
  | nil => cases h6; rfl
  | cons m ms ih =>
    rw [Outcome.mapAll, Outcome.bind_eq_ok] at h6
    obtain ⟨v, hv, h6⟩ := h6
    rw [Outcome.bind_eq_ok] at h6
    obtain ⟨vs, hvs, e⟩ := h6
    cases e
    rw [rawMesh, Outcome.bind_eq_ok] at hv
    obtain ⟨mesh, _, e⟩ := hv
    cases e
    rw [List.map_cons, List.map_cons, ih hvs]
    rfl

theorem segs_length (L : Layout) (segs : List RawSeg) : (segs.flatMap (RawSeg.bytes L)).length =
    segOverhead L * segs.length + (segs.map fun s => s.data.length).sum := by
  induction segs with
  | nil => rfl
  | cons s segs ih =>
    rw [List.flatMap_cons, List.length_append, ih, List.map_cons, List.sum_cons, List.length_cons, RawSeg.bytes, List.length_append]
    cases L
    · simp only [segHead, segOverhead, List.length_append, length_leBytes]; omega
    · simp only [segHead, segOverhead, List.length_append, length_leBytes]; omega

/-- C74: the sizes add up: a file is as long as its payloads, its names, 4 bytes per mesh, 6 (before version 0.2: 11) bytes
per segment, and 15 bytes. -/
theorem C74_size {ver : List UInt8} (hv : ver.length = 4) (minMinor : Nat) {ms : List RawMesh} {rs : List MeshReport}
    (h : List.Forall₂ Reports ms rs) : (fileBytesV ver minMinor ms).length = 15 + (rs.map MeshReport.total).sum +
      (rs.map fun r => r.name.length + 4).sum + segOverhead (layoutOf minMinor) * (ms.map fun m => m.segs.length).sum := by
  have e : (fileBytesV ver minMinor ms).length = 15 + (ms.flatMap (RawMesh.bytes (layoutOf minMinor))).length := by
    simp only [fileBytesV, List.length_append, length_leBytes, hv]
    rfl
  rw [e]
  clear e
  induction h with
  | nil => rfl
  | cons h _ ih =>
    rw [List.flatMap_cons, List.length_append, RawMesh.bytes, List.length_append, segs_length, meshHead]
    simp only [List.map_cons, List.sum_cons, List.length_append, length_leBytes, h.name, h.total, payloadSize, Nat.mul_add]
    omega

/-- C74: a saved file has a report, in every build and with anything after it: per mesh its name and, under the code of each
type, the bytes of the segments that hold its arrays. -/
theorem C74_saved {fo : FloatOps} {fb : F64Bytes fo} {b b' : Build} {prec : PrecisionInfo fo.F}
    {meshes : List (Mesh fo.F × List UInt8)} {bytes : List UInt8} (h : tmfBytes fo fb b prec meshes = .ok bytes)
    (hl : LimitsLow fo fb b prec meshes) (hlen : bytes.length ≤ 2 ^ 31) (junk : List UInt8) (sched : List Nat) :
    ∃ raws rs, bytes = fileBytes 2 raws ∧ FileHolds (.none fo.F) prec meshes raws ∧
      analize b' ⟨bytes ++ junk, sched, false⟩ = .ok rs ∧ List.Forall₂ Reports raws rs ∧
      rs.map MeshReport.name = meshes.map Prod.snd ∧
      bytes.length = 15 + (rs.map MeshReport.total).sum + (meshes.map fun mn => mn.2.length + 4).sum +
        6 * (raws.map fun m => m.segs.length).sum := by
  obtain ⟨raws, e, hh, hs⟩ := tmfBytes_holds h hl.fits hl.low (μ := .none fo.F) fun mn _ edge _ =>
    exact_none (fb := fb) (prec := prec) (edge := edge) (b := b) mn.1
  have hfr := raws_framed hl.names hl.segments hh hs (by rw [← e]; exact hlen)
  have hcount : raws.length < 2 ^ 32 := by rw [← hs.length_eq]; exact hl.count
  have hrep : List.Forall₂ Reports raws (raws.map fun m => reportOf m.name (m.segs.map encodedOf)) := reports_list.mpr rfl
  have hV : fileBytes 2 raws = fileBytesV (leBytes 2 0 ++ leBytes 2 2) 2 raws := by simp [fileBytes, fileHead, fileBytesV]
  have hnames : (raws.map fun m => reportOf m.name (m.segs.map encodedOf)).map MeshReport.name = meshes.map Prod.snd := by
    rw [List.map_map]
    clear hrep hV hcount hfr hs e hlen hl h
    rw [FileHolds] at hh
    induction hh with
    | nil => rfl
    | cons h _ ih => rw [List.map_cons, List.map_cons, ih, ← h.1]; rfl
  refine ⟨raws, _, e, hh, (analize_iff b' _ sched _).mpr ⟨leBytes 2 0 ++ leBytes 2 2, 2, raws, junk, by simp, le_refl _, hcount, hfr, by rw [e, hV], rfl⟩, hrep,
    hnames, ?_⟩
  rw [e, hV, C74_size (by simp) 2 hrep]
  have h1 : ((raws.map fun m => reportOf m.name (m.segs.map encodedOf)).map fun r => r.name.length + 4) =
      meshes.map fun mn => mn.2.length + 4 := by
    have := congrArg (List.map fun n : List UInt8 => n.length + 4) hnames
    simp only [List.map_map] at this ⊢
    exact this
  rw [h1]
  rfl

/-! ### Examples -/

/-- A file without meshes has an empty report. -/
example (b : Build) (sched : List Nat) : analize b ⟨fileBytes 2 [] ++ [1], sched, false⟩ = .ok [] :=
  (C74_report b _ sched []).mpr ⟨leBytes 2 0 ++ leBytes 2 2, 2, [], [1], by simp, by decide, by decide, by simp,
    by simp [fileBytes, fileHead, fileBytesV], .nil⟩

/-- Two index arrays: 18 bytes for vertices, 19 for normals. -/
example (b : Build) (sched : List Nat) : analize b ⟨indexMeshBytes ++ [7], sched, false⟩ =
    .ok [⟨[65, 66], [(.vertexTriangle, 18), (.normalTriangle, 19)], 37⟩] := by
  refine (C74_report b _ sched _).mpr ⟨leBytes 2 0 ++ leBytes 2 2, 2, [⟨[65, 66], [⟨4, 0, [2] ++ leBytes 8 5 ++ leBytes 8 0 ++ [0xd9, 0]⟩,
    ⟨2, 0, [2] ++ leBytes 8 3 ++ leBytes 8 0 ++ [0x18]⟩]⟩], [7], by simp, by decide, by decide, ?_, by decide, ?_⟩
  · intro m hm
    cases List.mem_singleton.mp hm
    refine ⟨⟨by decide, isText_of_validUtf8 2 _ (by decide) (by decide)⟩, by decide, fun s hs => ?_⟩
    simp only [List.mem_cons, List.not_mem_nil, or_false] at hs
    rcases hs with rfl | rfl
    · exact ⟨show _ < 256 by decide, .inl rfl, by decide⟩
    · exact ⟨show _ < 256 by decide, .inl rfl, by decide⟩
  · refine .cons ⟨rfl, rfl, fun t n => ?_, by decide⟩ .nil
    constructor
    · intro h
      simp only [List.mem_cons, List.not_mem_nil, or_false, Prod.mk.injEq] at h
      rcases h with ⟨rfl, rfl⟩ | ⟨rfl, rfl⟩
      · exact ⟨by decide, rfl⟩
      · exact ⟨by decide, rfl⟩
    · rintro ⟨hn, rfl⟩
      revert hn
      cases t <;> decide

/-- An unknown type is shown as code 0. -/
example (b : Build) : analize b (.slice (fileBytes 2 [⟨[65], [⟨7, 0, [1, 2, 3]⟩]⟩])) = .ok [⟨[65], [(.invalid, 3)], 3⟩] := by
  refine (C74_report b _ [] _).mpr ⟨leBytes 2 0 ++ leBytes 2 2, 2, [⟨[65], [⟨7, 0, [1, 2, 3]⟩]⟩], [], by simp, by decide, by decide, ?_, by decide, ?_⟩
  · intro m hm
    cases List.mem_singleton.mp hm
    refine ⟨⟨by decide, isText_of_validUtf8 1 _ (by decide) (by decide)⟩, by decide, fun s hs => ?_⟩
    cases List.mem_singleton.mp hs
    exact ⟨show _ < 256 by decide, .inl rfl, by decide⟩
  · refine .cons ⟨rfl, rfl, fun t n => ?_, by decide⟩ .nil
    constructor
    · intro h
      cases List.mem_singleton.mp h
      exact ⟨by decide, rfl⟩
    · rintro ⟨hn, rfl⟩
      revert hn
      cases t <;> decide

end Tmf.Props
