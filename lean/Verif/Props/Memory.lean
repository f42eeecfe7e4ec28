import Verif.Lemmas.Memory
import Verif.Lemmas.FileRoundTrip
import Verif.Lemmas.Headers
/-
C98: the memory asked for while a file is loaded.
-/

namespace Tmf.Props
open Spec

variable (fo : FloatOps) (fb : F64Bytes fo)

/-- C98, one segment: a segment that decodes asked for exactly what its array takes. -/
theorem C98_exact {b : Build} {ctx : DecodeCtx} {seg : EncodedSegment} {d : DecodedSegment fo.F}
    (e : seg.decode fo fb b ctx = .ok d) (h : seg.segType ≠ .invalid) :
    seg.arrayBytes fo fb ctx = some (seg.segType.elementBytes * d.elements) :=
  decode_asks e h

/-- Three indices of two bits each ask for twelve bytes. -/
example : (⟨.vertexTriangle, .none, [2] ++ leBytes 8 3 ++ leBytes 8 0 ++ [0x18]⟩ : EncodedSegment).arrayBytes
    fo fb ⟨true⟩ = some 12 := rfl

/-- C98 (part: files that load, elements that take bits). All requests together are at most 129
times the size of the file. Missing: files that do not load, and widths for which the bit reader
takes nothing from the stream, where the claim is false, see below. -/
theorem C98_loaded_partial {b : Build} {bytes : List UInt8} {sched : List Nat} {l : List (Mesh fo.F × List UInt8)}
    (e : readTmf fo fb b ⟨bytes, sched, false⟩ = .ok l)
    (h : ∀ seg n, .array seg n ∈ fileRequests fo fb b bytes → TakesBits seg.segType seg.data) :
    totalBytes (fileRequests fo fb b bytes) ≤ 129 * bytes.length := by
  rw [readTmf, Outcome.bind_eq_ok] at e
  obtain ⟨⟨l', s'⟩, e, _⟩ := e
  have hr := (importTmf fo fb b).run_eq ⟨bytes, sched, false⟩ rfl
  cases hs : (importTmf fo fb b).runSlice bytes with
  | err x => simp only [hs] at hr; rw [hr] at e; cases e
  | panic => simp only [hs] at hr; rw [hr] at e; cases e
  | ok x =>
    obtain ⟨l'', rest⟩ := x
    simp only [importTmf, Prog.runSlice_bind, Outcome.bind_eq_ok] at hs
    obtain ⟨⟨ctx, r0⟩, e0, ⟨count, r1⟩, e1, e2⟩ := hs
    have hf : fileRequests fo fb b bytes = meshesRequests fo fb b ctx count r1 := by
      unfold fileRequests
      simp only [Prog.runSlice_bind, e0, e1, Outcome.bind_ok]
      rfl
    rw [hf] at h ⊢
    have := meshesRequests_total e2 h
    have := rest_le e0
    have := rest_le e1
    dsimp only at *
    omega

/-- C98 (part: everything but colours). Whatever the bytes, whether they load or not, no request
exceeds a fixed size, and none exceeds what can be addressed. -/
theorem C98_bounded_partial {b : Build} {bytes : List UInt8} {r : Request} (h : r ∈ fileRequests fo fb b bytes) :
    r.bytes < 2 ^ 63 ∧ ((∀ seg n, r = .array seg n → seg.segType ≠ .customColor) → r.Modest) := by
  have hk := known_file r h
  cases r with
  | name n =>
    have : n < 2 ^ 16 := hk
    exact ⟨by simp only [Request.bytes]; omega, fun _ => this⟩
  | data n =>
    have : n ≤ 2 ^ 31 := hk
    exact ⟨by simp only [Request.bytes]; omega, fun _ => this⟩
  | array s n =>
    obtain ⟨ctx, hk⟩ := hk
    refine ⟨arrayBytes_le_isize hk, fun hc => ?_⟩
    have h1 := arrayBytes_le hk (hc s n rfl)
    have h2 := Nat.mul_le_mul_right (2 ^ 31) (elementBytes_le s.segType)
    simp only [Request.Modest]
    omega

/-! ### A file that loads -/

/-- A file with one mesh `A` of one segment, said to hold `len` bytes. -/
def soleSegment (kind len : Nat) (data : List UInt8) : List UInt8 :=
  fileHead 0 2 1 ++ (meshHead [65] 1 ++ (segHead .new kind len 0 ++ data))

/-- Three indices in a file of 44 bytes: 1 byte for the name, 18 for the data, 12 for the array. -/
example (b : Build) : (soleSegment 2 18 ([2] ++ leBytes 8 3 ++ leBytes 8 0 ++ [0x18])).length = 44 ∧
    fileRequests fo fb b (soleSegment 2 18 ([2] ++ leBytes 8 3 ++ leBytes 8 0 ++ [0x18])) =
      [.name 1, .data 18, .array ⟨.vertexTriangle, .none, [2] ++ leBytes 8 3 ++ leBytes 8 0 ++ [0x18]⟩ 12] ∧
    (∃ m : Mesh fo.F, (importTmf fo fb b).runSlice (soleSegment 2 18 ([2] ++ leBytes 8 3 ++ leBytes 8 0 ++ [0x18])) =
      .ok ([(m, [65])], []) ∧ m.vertexTriangles = some [0, 1, 2]) ∧
    TakesBits .vertexTriangle ([2] ++ leBytes 8 3 ++ leBytes 8 0 ++ [0x18]) := by
  refine ⟨rfl, by cases b <;> rfl, ⟨_, by cases b <;> rfl, rfl⟩, by simp [TakesBits, PairWidth, byteAt]⟩

/-! ### Where the claim is false -/

theorem soleSegment_asks (b : Build) {kind len : Nat} (hk : kind < 256) (hl : len ≤ 2 ^ 31) (data : List UInt8) :
    fileRequests fo fb b (soleSegment kind len data) = [.name 1, .data len] ++
      (if len ≤ data.length then arrayRequests fo fb ⟨true⟩ [⟨SectionType.fromU16 kind, .none, data.take len⟩] else []) := by
  have hh : (do let ctx ← readHeader; let count ← Prog.readU32; pure (ctx, count) : Prog (ImportCtx × Nat)).runSlice
      (soleSegment kind len data) = .ok ((ctxOf .new, 1), meshHead [65] 1 ++ (segHead .new kind len 0 ++ data)) := by
    rw [soleSegment, Prog.runSlice_bind, fileHead, List.append_assoc _ (leBytes 4 _),
      readHeader_eq (by omega) (by omega) _ _ (by simp) (by simp), if_neg (by omega)]
    simp only [Outcome.bind_ok]
    rw [Prog.runSlice_bind, Prog.runSlice_readU32 _ (by omega)]
    rfl
  have hs : (readSegmentHead (ctxOf .new)).runSlice (segHead .new kind len 0 ++ data) =
      .ok ((SectionType.fromU16 kind, .none, len), data) := by
    rw [segHead_eq, List.append_assoc, List.append_assoc, readSegmentHead, Prog.runSlice_bind,
      readType_ok (L := .new) (show kind < 256 from hk)]
    simp only [Outcome.bind_ok]
    rw [Prog.runSlice_bind, readLength_ok (L := .new) (show len < 2 ^ 32 by omega)]
    simp only [Outcome.bind_ok]
    rw [if_neg (by unfold MAX_SEG_SIZE; omega), Prog.runSlice_bind, Prog.runSlice_readU8 _ (by omega)]
    rfl
  have h1 : Prog.readU16.runSlice (meshHead [65] 1 ++ (segHead .new kind len 0 ++ data)) =
      .ok (1, [65] ++ (leBytes 2 1 ++ (segHead .new kind len 0 ++ data))) := by
    rw [meshHead, List.append_assoc, List.append_assoc]
    exact Prog.runSlice_readU16 1 (by decide) _
  have h2 : Prog.readU16.runSlice (leBytes 2 1 ++ (segHead .new kind len 0 ++ data)) =
      .ok (1, segHead .new kind len 0 ++ data) := Prog.runSlice_readU16 1 (by decide) _
  have hd : ([65] ++ (leBytes 2 1 ++ (segHead .new kind len 0 ++ data))).drop 1 =
    leBytes 2 1 ++ (segHead .new kind len 0 ++ data) := rfl
  have hr : segmentRequests (ctxOf .new) 1 (segHead .new kind len 0 ++ data) = if len ≤ data.length then
      ([.data len], some ([⟨SectionType.fromU16 kind, .none, data.take len⟩], data.drop len)) else ([.data len], none) := by
    rw [segmentRequests, hs]
    rfl
  have hm : (meshRequests fo fb b (ctxOf .new) (meshHead [65] 1 ++ (segHead .new kind len 0 ++ data))).1 =
      [.name 1, .data len] ++ (if len ≤ data.length then
        arrayRequests fo fb ⟨true⟩ [⟨SectionType.fromU16 kind, .none, data.take len⟩] else []) := by
    simp only [meshRequests, h1]
    rw [if_pos ⟨by simp, rfl⟩, hd, h2]
    dsimp only
    rw [hr]
    by_cases h : len ≤ data.length
    · simp only [if_pos h]
      rfl
    · simp only [if_neg h]
      rfl
  unfold fileRequests
  rw [hh]
  dsimp only
  simp only [meshesRequests, hm]
  cases (meshRequests fo fb b (ctxOf .new) (meshHead [65] 1 ++ (segHead .new kind len 0 ++ data))).2 <;>
    exact List.append_nil _

theorem soleSegment_load (b : Build) {kind len : Nat} (hk : kind < 256) (hl : len ≤ 2 ^ 31) (data : List UInt8)
    (sched : List Nat) : readTmf fo fb b ⟨soleSegment kind len data, sched, false⟩ =
      if len ≤ data.length then
        assembleMesh fo fb b ⟨true⟩ [⟨SectionType.fromU16 kind, .none, data.take len⟩] >>= fun m => .ok [(m, [65])]
      else .err eof := by
  have h := importTmf_partial fo fb b (minMinor := 2) (le_refl 2) (meshes := []) (by simp) (n := 1) (by simp)
    (meshHead [65] 1 ++ (segHead .new kind len 0 ++ data))
  rw [readTmf_slice]
  change (importTmf fo fb b).runSlice (soleSegment kind len data) = _ at h
  rw [h]
  simp only [Outcome.mapAll, Outcome.bind_ok, Prog.replicate]
  rw [Prog.runSlice_bind]
  have hm := importMesh_head fo fb b (L := .new) (name := [65]) ⟨show 1 < 2 ^ 16 by decide, ⟨['A'], rfl⟩⟩
    (count := 1) (by decide) (segHead .new kind len 0 ++ data)
  rw [show ctxOf (layoutOf 2) = ctxOf .new from rfl, hm]
  simp only [Prog.replicate]
  rw [Prog.runSlice_bind, readSegment_comp (L := .new) (show kind < 256 from hk) hl (by omega)]
  rw [show CompressionType.fromU8 0 = .ok .none from rfl, Outcome.bind_ok, Prog.readBytes, Prog.runSlice_readExact]
  split
  · simp only [Prog.runSlice_ret, Outcome.bind_ok, Prog.pure_eq, Prog.ret_bind]
    rw [show (ctxOf .new).decode = ⟨true⟩ from rfl]
    cases assembleMesh fo fb b ⟨true⟩ [⟨SectionType.fromU16 kind, .none, data.take len⟩] <;> rfl
  · rfl

/-- C98 is false for colours, whose number is not checked: a file of 36 bytes asks for any multiple
of 16 bytes up to what can be addressed. (In the model loading goes on and fails for want of data;
on a real machine asking for that much ends the program.) -/
theorem C98_colors_violated {n : Nat} (hn : 16 * n < 2 ^ 63) : ∃ bytes : List UInt8, bytes.length = 36 ∧ ∀ b, ∃ seg,
    .array seg (16 * n) ∈ fileRequests fo fb b bytes := by
  let d : List UInt8 := leBytes 1 0 ++ (leBytes 8 n ++ (leBytes 1 8 ++ []))
  have hd : d.length = 10 := by simp [d]
  refine ⟨soleSegment 23 10 d, by simp [soleSegment, fileHead, meshHead, segHead, hd],
    fun b => ⟨⟨.customColor, .none, d⟩, ?_⟩⟩
  have hn' : readCustomName.runSlice d = .ok ([], leBytes 8 n ++ (leBytes 1 8 ++ [])) := by
    rw [readCustomName, Prog.runSlice_bind, Prog.runSlice_readU8 0 (by decide)]
    rfl
  have hc : (⟨.customColor, .none, d⟩ : EncodedSegment).arrayBytes fo fb ⟨true⟩ = some (16 * n) := by
    simp only [EncodedSegment.arrayBytes, hn', colorRequest]
    rw [Prog.runSlice_bind, Prog.runSlice_readU64 n (by omega)]
    simp only [Outcome.bind_ok]
    rw [Prog.runSlice_bind, Prog.runSlice_readU8 8 (by decide)]
    simp only [Outcome.bind_ok, Prog.pure_eq, Prog.runSlice_ret, sized]
    rw [if_neg (by omega)]
  rw [soleSegment_asks fo fb b (by decide) (by decide), if_pos (by omega),
    show d.take 10 = d from List.take_of_length_le (by omega), arrayRequests_cons,
    show SectionType.fromU16 23 = .customColor from rfl, hc]
  simp

/-- 2^62 bytes. -/
example : ∃ bytes : List UInt8, bytes.length = 36 ∧ ∀ b, ∃ seg, .array seg (2 ^ 62) ∈ fileRequests fo fb b bytes :=
  C98_colors_violated fo fb (n := 2 ^ 58) (by decide)

/-- C98 is false for files that break off: 26 bytes ask for 2 GiB. -/
theorem C98_data_violated : ∃ bytes : List UInt8, bytes.length = 26 ∧ ∀ b,
    .data (2 ^ 31) ∈ fileRequests fo fb b bytes ∧ ∀ sched, readTmf fo fb b ⟨bytes, sched, false⟩ = .err eof := by
  refine ⟨soleSegment 1 (2 ^ 31) [], by simp [soleSegment, fileHead, meshHead, segHead], fun b => ⟨?_, fun sched => ?_⟩⟩
  · rw [soleSegment_asks fo fb b (by decide) (le_refl _)]
    simp
  · rw [soleSegment_load fo fb b (by decide) (le_refl _), if_neg (by simp)]

/-- C98 is false for arrays that break off: a file of 35 bytes asks for up to 24 GiB of normals and
does not load. -/
theorem C98_normals_violated {n : Nat} (h0 : 0 < n) (hn : n ≤ 2 ^ 31) : ∃ bytes : List UInt8, bytes.length = 35 ∧
    ∀ b, (∃ seg, .array seg (12 * n) ∈ fileRequests fo fb b bytes) ∧
      ∀ sched, readTmf fo fb b ⟨bytes, sched, false⟩ = .err eof := by
  let d : List UInt8 := leBytes 8 n ++ (leBytes 1 8 ++ [])
  have hd : d.length = 9 := by simp [d]
  have hh : readNormalsHeader.runSlice d = .ok ((n, 8), []) := by
    rw [readNormalsHeader, Prog.runSlice_bind, Prog.runSlice_readU64 n (by omega)]
    simp only [Outcome.bind_ok]
    rw [if_neg (by unfold MAX_SEG_SIZE; omega), Prog.runSlice_bind, readPrec, Prog.runSlice_bind,
      Prog.runSlice_readU8 8 (by decide)]
    rfl
  refine ⟨soleSegment 3 9 d, by simp [soleSegment, fileHead, meshHead, segHead, hd],
    fun b => ⟨⟨⟨.normal, .none, d⟩, ?_⟩, fun sched => ?_⟩⟩
  · have hc : (⟨.normal, .none, d⟩ : EncodedSegment).arrayBytes fo fb ⟨true⟩ = some (12 * n) := by
      simp only [EncodedSegment.arrayBytes, hh, sized]
    rw [soleSegment_asks fo fb b (by decide) (by decide), if_pos (by omega),
      show d.take 9 = d from List.take_of_length_le (by omega), arrayRequests_cons,
      show SectionType.fromU16 3 = .normal from rfl, hc]
    simp
  · rw [soleSegment_load fo fb b (by decide) (by decide), if_pos (by omega),
      show d.take 9 = d from List.take_of_length_le (by omega), show SectionType.fromU16 3 = .normal from rfl]
    have hr : readNormals fo d = .err eof := by
      rw [readNormals, hh]
      obtain ⟨k, rfl⟩ := Nat.exists_eq_succ_of_ne_zero (Nat.pos_iff_ne_zero.mp h0)
      rfl
    simp only [assembleMesh, List.map_cons, List.map_nil, EncodedSegment.decode, hr]
    rfl

/-- 24 GiB. -/
example : ∃ bytes : List UInt8, bytes.length = 35 ∧ ∀ b,
    (∃ seg, .array seg (24 * 2 ^ 30) ∈ fileRequests fo fb b bytes) ∧
      ∀ sched, readTmf fo fb b ⟨bytes, sched, false⟩ = .err eof :=
  C98_normals_violated fo fb (n := 2 ^ 31) (by decide) (by decide)

/-- C98 is false even for a file that loads as a mesh without any content: 44 bytes ask for up to
8 GiB of shared indices that belong to nothing. -/
theorem C98_empty_violated {n : Nat} (hn : n ≤ 2 ^ 31) : ∃ bytes : List UInt8, bytes.length = 44 ∧ ∀ b,
    (∃ seg, .array seg (4 * n) ∈ fileRequests fo fb b bytes) ∧
      ∀ sched, readTmf fo fb b ⟨bytes, sched, false⟩ = .ok [(.empty, [65])] := by
  let a : List UInt8 := leBytes 1 0 ++ leBytes 8 n ++ leBytes 8 0
  let d : List UInt8 := 0 :: a
  have hd : d.length = 18 := by simp [d, a]
  have hh : (readTrianglesHeader ⟨true⟩).runSlice a = .ok ((0, n, 0), []) := by
    have := readTrianglesHeader_declares (L := .new) (width := 0) (len := n) (min := 0) (by decide) (by omega)
      (by decide) []
    rw [if_neg (by simp [MAX_SEG_SIZE]; omega)] at this
    rw [List.append_nil] at this
    exact this
  refine ⟨soleSegment 25 18 d, by simp [soleSegment, fileHead, meshHead, segHead, hd],
    fun b => ⟨⟨⟨.sharedTriangle, .none, d⟩, ?_⟩, fun sched => ?_⟩⟩
  · have hc : (⟨.sharedTriangle, .none, d⟩ : EncodedSegment).arrayBytes fo fb ⟨true⟩ = some (4 * n) := by
      simp only [EncodedSegment.arrayBytes, d, indexRequest, hh, sized, if_true]
    rw [soleSegment_asks fo fb b (by decide) (by decide), if_pos (by omega),
      show d.take 18 = d from List.take_of_length_le (by omega), arrayRequests_cons,
      show SectionType.fromU16 25 = .sharedTriangle from rfl, hc]
    simp
  · rw [soleSegment_load fo fb b (by decide) (by decide), if_pos (by omega),
      show d.take 18 = d from List.take_of_length_le (by omega), show SectionType.fromU16 25 = .sharedTriangle from rfl]
    have hr : (⟨.sharedTriangle, .none, d⟩ : EncodedSegment).decode fo fb b ⟨true⟩ =
        .ok (.shared 0 (List.replicate n 0)) := by
      simp only [EncodedSegment.decode, decodeShared, d, readDefaultTriangles, hh, Outcome.bind_ok, if_true]
      rfl
    simp only [assembleMesh, List.map_cons, List.map_nil, hr]
    rfl

end Tmf.Props
