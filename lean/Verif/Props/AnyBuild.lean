import Verif.Lemmas.AnyBuild
import Verif.Props.RoundTrip
import Verif.Props.SaveOk
/-
C10, C11, C12, C39, C48, C49 for files written by either build and at any precision.
-/

namespace Tmf.Props
open Spec DecodedSegment

variable (fo : FloatOps) (fb : F64Bytes fo) (prec : PrecisionInfo fo.F)

/-- C49, exactly: of the files written inside the limits (by the build `b`), a reader (of the build
`b'`) accepts those in which no array asks for 64 bits or more. -/
theorem C49_accepted_iff {b b' : Build} {meshes : List (Mesh fo.F × List UInt8)} {bytes : List UInt8}
    (hS : ByteSettings prec) (h : tmfBytes fo fb b prec meshes = .ok bytes) (hl : LimitsAny fo fb b prec meshes)
    (hb : bytes.length ≤ 2 ^ 31) (junk : List UInt8) (sched : List Nat) :
    (∃ out, readTmf fo fb b' ⟨bytes ++ junk, sched, false⟩ = .ok out) ↔ ∀ mn ∈ meshes, Narrow fo b b' prec mn.1 := by
  have := loads_file (b' := b') (W := ∀ mn ∈ meshes, Narrow fo b b' prec mn.1) hS h hl id hb junk sched
  cases hx : readTmf fo fb b' ⟨bytes ++ junk, sched, false⟩ with
  | ok out =>
    rw [hx] at this
    cases this with
    | ok hf =>
      refine ⟨fun _ mn hmn => ?_, fun _ => ⟨out, rfl⟩⟩
      obtain ⟨_, _, h⟩ := forall₂_mem hf mn hmn
      exact h.2
  | err e =>
    rw [hx] at this
    cases this with
    | err _ _ hW => exact ⟨fun ⟨_, h⟩ => (nomatch h), fun h => absurd h hW⟩
  | panic =>
    rw [hx] at this
    cases this with
    | panic _ hW => exact ⟨fun ⟨_, h⟩ => (nomatch h), fun h => absurd h hW⟩

/-- C49: what else can happen to such a file is the error about a width of 64 bits or more, or with
overflow checks a panic. -/
theorem C49_rejected {b b' : Build} {meshes : List (Mesh fo.F × List UInt8)} {bytes : List UInt8}
    (hS : ByteSettings prec) (h : tmfBytes fo fb b prec meshes = .ok bytes) (hl : LimitsAny fo fb b prec meshes)
    (hb : bytes.length ≤ 2 ^ 31) (junk : List UInt8) (sched : List Nat) :
    (∃ out, readTmf fo fb b' ⟨bytes ++ junk, sched, false⟩ = .ok out) ∨
      (∃ p, 64 ≤ p ∧ p < 256 ∧ readTmf fo fb b' ⟨bytes ++ junk, sched, false⟩ = .err (.invalidPrecision p)) ∨
      (b' = .checked ∧ readTmf fo fb b' ⟨bytes ++ junk, sched, false⟩ = .panic) := by
  have := loads_file (b' := b') (W := ∀ mn ∈ meshes, Narrow fo b b' prec mn.1) hS h hl id hb junk sched
  cases hx : readTmf fo fb b' ⟨bytes ++ junk, sched, false⟩ with
  | ok out => exact .inl ⟨out, rfl⟩
  | err e =>
    rw [hx] at this
    cases this with
    | err h1 h2 _ => exact .inr (.inl ⟨_, h1, h2, rfl⟩)
  | panic =>
    rw [hx] at this
    cases this with
    | panic h1 _ => exact .inr (.inr ⟨h1, rfl⟩)

theorem cameBack {b b' : Build} {meshes out : List (Mesh fo.F × List UInt8)} {bytes : List UInt8}
    (hS : ByteSettings prec) (h : tmfBytes fo fb b prec meshes = .ok bytes) (hl : LimitsAny fo fb b prec meshes)
    (hb : bytes.length ≤ 2 ^ 31) {junk : List UInt8} {sched : List Nat}
    (hr : readTmf fo fb b' ⟨bytes ++ junk, sched, false⟩ = .ok out) : List.Forall₂ (CameBack fo) meshes out := by
  have := loads_file (b' := b') (W := ∀ mn ∈ meshes, Narrow fo b b' prec mn.1) hS h hl id hb junk sched
  rw [hr] at this
  cases this with
  | ok hf => exact hf.imp fun _ _ h => h.1

/-- C10 for either build of the writer and of the reader, and any precision: if the file is accepted,
the index arrays of every mesh are the same. -/
theorem C10_any_build {b b' : Build} {meshes out : List (Mesh fo.F × List UInt8)} {bytes : List UInt8}
    (hS : ByteSettings prec) (h : tmfBytes fo fb b prec meshes = .ok bytes) (hl : LimitsAny fo fb b prec meshes)
    (hb : bytes.length ≤ 2 ^ 31) {junk : List UInt8} {sched : List Nat}
    (hr : readTmf fo fb b' ⟨bytes ++ junk, sched, false⟩ = .ok out) :
    List.Forall₂ (fun mn mn' => SameIndices mn.1 mn'.1) meshes out :=
  (cameBack fo fb prec hS h hl hb hr).imp fun _ _ h => h.indices

/-- C11 (part: widths below 64 bits) for either build of the writer and of the reader. Missing: widths
of 64 bits and more, which a writer without overflow checks accepts, see below. -/
theorem C11_any_build_partial {b b' : Build} {meshes : List (Mesh fo.F × List UInt8)} {bytes : List UInt8}
    (hS : ByteSettings prec) (h : tmfBytes fo fb b prec meshes = .ok bytes) (hl : LimitsAny fo fb b prec meshes)
    (hN : ∀ mn ∈ meshes, Narrow fo b b' prec mn.1)
    (hb : bytes.length ≤ 2 ^ 31) (junk : List UInt8) (sched : List Nat) :
    ∃ out, readTmf fo fb b' ⟨bytes ++ junk, sched, false⟩ = .ok out ∧ out.map Prod.snd = meshes.map Prod.snd ∧
      List.Forall₂ (fun mn mn' => SameSizes mn.1 mn'.1) meshes out := by
  obtain ⟨out, hr⟩ := (C49_accepted_iff fo fb prec hS h hl hb junk sched).mpr hN
  have hf := cameBack fo fb prec hS h hl hb hr
  refine ⟨out, hr, ?_, hf.imp fun _ _ h => h.sizes⟩
  clear h hl hr hN
  induction hf with
  | nil => rfl
  | cons h _ ih => rw [List.map_cons, List.map_cons, ih, h.name]

/-- The lookup of a name among entries with the same names and kinds. -/
theorem lookup_same {l l' : List (CustomSeg fo.F)}
    (h : List.Forall₂ (fun c c' => c'.name = c.name ∧ SameCustom c.data c'.data) l l') (hnd : (l.map CustomSeg.name).Nodup)
    {c : CustomSeg fo.F} (hc : c ∈ l) : ∃ d, Mesh.lookupLoop c.name l' = some d ∧ SameCustom c.data d := by
  induction h with
  | nil => simp at hc
  | @cons x x' l l' hx hl ih =>
    rw [List.map_cons, List.nodup_cons] at hnd
    rw [Mesh.lookupLoop]
    rcases List.mem_cons.mp hc with rfl | hc
    · rw [if_pos ⟨by rw [hx.1], hx.1.symm⟩]
      exact ⟨_, rfl, hx.2⟩
    · rw [if_neg]
      · exact ih hnd.2 hc
      · rintro ⟨_, e⟩
        exact hnd.1 (List.mem_map.mpr ⟨c, hc, by rw [← hx.1]; exact e⟩)

/-- C12 (part: distinct names for `lookup_custom_data`) for either build of the writer and of the
reader, and any precision. Missing: looking up a name that is stored twice, see
`C12_violated_duplicate_names`. -/
theorem C12_any_build_partial {b b' : Build} {meshes out : List (Mesh fo.F × List UInt8)} {bytes : List UInt8}
    (hS : ByteSettings prec) (h : tmfBytes fo fb b prec meshes = .ok bytes) (hl : LimitsAny fo fb b prec meshes)
    (hb : bytes.length ≤ 2 ^ 31) {junk : List UInt8} {sched : List Nat}
    (hr : readTmf fo fb b' ⟨bytes ++ junk, sched, false⟩ = .ok out) :
    List.Forall₂ (fun mn mn' =>
      List.Forall₂ (fun c c' => c'.name = c.name ∧ SameCustom c.data c'.data) mn.1.customData.reverse mn'.1.customData ∧
      ((mn.1.customData.map CustomSeg.name).Nodup → ∀ c ∈ mn.1.customData,
        ∃ d, mn'.1.lookupCustomData c.name = some d ∧ SameCustom c.data d)) meshes out := by
  refine forall₂_imp (cameBack fo fb prec hS h hl hb hr) fun mn hmn mn' hcb => ⟨hcb.custom, fun hnd c hc => ?_⟩
  have hlen : c.name.length < 256 := by
    have := (hl.holds mn hmn).custom c hc
    cases this <;> assumption
  rw [Mesh.lookupCustomData, if_neg (by omega)]
  refine lookup_same fo hcb.custom ?_ (List.mem_reverse.mpr hc)
  rw [List.map_reverse]
  exact List.nodup_reverse.mpr hnd

/-- C39 for files from either build. -/
theorem C39_any_build {b b' : Build} {meshes out : List (Mesh fo.F × List UInt8)} {bytes : List UInt8}
    (hS : ByteSettings prec) (h : tmfBytes fo fb b prec meshes = .ok bytes) (hl : LimitsAny fo fb b prec meshes)
    (hb : bytes.length ≤ 2 ^ 31) {junk : List UInt8} {sched : List Nat}
    (hr : readTmf fo fb b' ⟨bytes ++ junk, sched, false⟩ = .ok out) :
    List.Forall₂ (fun mn mn' => mn'.1.tangents.map (List.map Prod.snd) = mn.1.tangents.map (List.map (fun t =>
        if fo.isSignNegative t.2 then fo.negOne else fo.one))) meshes out :=
  (cameBack fo fb prec hS h hl hb hr).imp fun _ _ h => h.hands

/-- C48 (part: inside the limits) for either build of the writer and of the reader, and any
precision. Missing: names of 2^16 bytes and 2^16 segments or more, see `C48_violated_name` and
`C48_violated_segments`. -/
theorem C48_any_build_partial {b b' : Build} {meshes out : List (Mesh fo.F × List UInt8)} {bytes : List UInt8}
    (hS : ByteSettings prec) (h : tmfBytes fo fb b prec meshes = .ok bytes) (hl : LimitsAny fo fb b prec meshes)
    (hb : bytes.length ≤ 2 ^ 31) {junk : List UInt8} {sched : List Nat}
    (hr : readTmf fo fb b' ⟨bytes ++ junk, sched, false⟩ = .ok out) :
    out.map Prod.snd = meshes.map Prod.snd ∧
      out.map (fun x => x.1.customData.map CustomSeg.name) =
        meshes.map (fun x => (x.1.customData.map CustomSeg.name).reverse) := by
  have hf := cameBack fo fb prec hS h hl hb hr
  clear h hl hr
  induction hf with
  | nil => exact ⟨rfl, rfl⟩
  | @cons mn mn' _ _ h _ ih =>
    refine ⟨by rw [List.map_cons, List.map_cons, ih.1, h.name], ?_⟩
    rw [List.map_cons, List.map_cons, ih.2, ← List.map_reverse]
    congr 1
    have := h.custom
    generalize mn.1.customData.reverse = l, mn'.1.customData = l' at this
    induction this with
    | nil => rfl
    | cons h _ ih => rw [List.map_cons, List.map_cons, ih, h.1]

/-! ### Examples -/

theorem indexMesh_limitsAny (b : Build) : LimitsAny fo fb b prec [indexMesh fo] where
  count := show 1 < 2 ^ 32 by decide
  names := (indexMesh_limits fo fb prec).names
  holds := by
    intro mn h
    have := (indexMesh_limits fo fb prec).fits mn h
    exact ⟨this.vertices, this.normals, this.uvs, this.tangents, this.vertexTriangles, this.normalTriangles,
      this.uvTriangles, this.tangentTriangles, this.custom⟩
  segments := by
    intro mn h segs hs
    rcases List.mem_singleton.mp h with rfl
    have e : encodeMesh fo fb b prec (indexMesh fo).1 =
      .ok [⟨.normalTriangle, .none, [2] ++ leBytes 8 5 ++ leBytes 8 0 ++ [0xd9, 0]⟩,
        ⟨.vertexTriangle, .none, [2] ++ leBytes 8 3 ++ leBytes 8 0 ++ [0x18]⟩] := by cases b <;> rfl
    rw [e] at hs
    cases hs
    decide

/-- Index arrays are accepted whatever the settings. -/
theorem indexMesh_narrow (b b' : Build) : Narrow fo b b' prec (indexMesh fo).1 := by
  constructor <;> simp [indexMesh, Mesh.empty]

example (b b' : Build) (hS : ByteSettings prec) : ∃ out, readTmf fo fb b' ⟨indexMeshBytes ++ [1, 2], [3], false⟩ = .ok out ∧
    List.Forall₂ (fun mn mn' => SameIndices mn.1 mn'.1) [indexMesh fo] out := by
  obtain ⟨out, hr⟩ := (C49_accepted_iff fo fb prec (b' := b') hS (indexMesh_saved fo fb b prec) (indexMesh_limitsAny fo fb prec b)
    (by decide) [1, 2] [3]).mpr (by
      intro mn hmn
      rcases List.mem_singleton.mp hmn with rfl
      exact indexMesh_narrow fo prec b b')
  exact ⟨out, hr, C10_any_build fo fb prec hS (indexMesh_saved fo fb b prec) (indexMesh_limitsAny fo fb prec b) (by decide) hr⟩

/-! ### Widths of 64 bits and more -/

theorem writeAll_wrapping (fields : List (Nat × Nat)) (w : BitWriter) : ∃ w', BitWriter.writeAll .wrapping fields w = .ok w' := by
  induction fields generalizing w with
  | nil => exact ⟨w, rfl⟩
  | cons f l ih =>
    obtain ⟨k, v⟩ := f
    have : ∃ w1, w.write .wrapping k v = .ok w1 := by
      unfold BitWriter.write
      split
      · exact ⟨_, rfl⟩
      split
      · exact ⟨_, rfl⟩
      · exact ⟨_, rfl⟩
    obtain ⟨w1, e1⟩ := this
    obtain ⟨w2, e2⟩ := ih w1
    exact ⟨w2, by rw [BitWriter.writeAll, e1, Outcome.bind_ok, e2]⟩

/-- A mesh with texture coordinates. -/
def uvMesh (x y : fo.F) : Mesh fo.F × List UInt8 :=
  ({ (Mesh.empty : Mesh fo.F) with uvs := some [(x, y)], vertexTriangles := some [0, 1, 2] }, [65])

theorem uvMesh_encoded (x y : fo.F) : ∃ d, saveUvs fo .wrapping [(x, y)] prec.uv = .ok d ∧
    encodeMesh fo fb .wrapping prec (uvMesh fo x y).1 =
      .ok [⟨.vertexTriangle, .none, [2] ++ leBytes 8 3 ++ leBytes 8 0 ++ [0x18]⟩, ⟨.uv, .none, d⟩] := by
  obtain ⟨d, hd⟩ : ∃ d, saveUvs fo .wrapping [(x, y)] prec.uv = .ok d := by
    unfold saveUvs
    obtain ⟨w, hw⟩ := writeAll_wrapping ([(x, y)].flatMap (uvFields fo prec.uv (2 ^ (prec.uv % 32) - 1))) .new
    exact ⟨_, by rw [show mulI32 .wrapping prec.uv = .ok (2 ^ (prec.uv % 32) - 1) from rfl, Outcome.bind_ok, hw]; rfl⟩
  refine ⟨d, hd, ?_⟩
  unfold encodeMesh
  have h1 : calcShortestEdge fo (uvMesh fo x y).1.getVertexTriangles (uvMesh fo x y).1.getVertices = .ok (fo.lit 1 1) := rfl
  have h2 : mergeSegments (meshSegs (uvMesh fo x y).1) = .ok [triVertex [0, 1, 2], uv [(x, y)]] := rfl
  have h3 : Outcome.mapAll (optimize fo .wrapping) [triVertex [0, 1, 2], uv [(x, y)]] =
    .ok [[triVertex [0, 1, 2]], [uv [(x, y)]]] := rfl
  rw [h1, Outcome.bind_ok, h2, Outcome.bind_ok, h3, Outcome.bind_ok]
  show Outcome.mapAll _ [triVertex [0, 1, 2], uv [(x, y)]] = _
  have h4 : encode fo fb .wrapping prec (fo.lit 1 1) (triVertex [0, 1, 2]) =
    .ok ⟨.vertexTriangle, .none, [2] ++ leBytes 8 3 ++ leBytes 8 0 ++ [0x18]⟩ := rfl
  have h5 : encode fo fb .wrapping prec (fo.lit 1 1) (uv [(x, y)]) = .ok ⟨.uv, .none, d⟩ := by
    rw [encode, hd]; rfl
  rw [Outcome.mapAll, h4, Outcome.bind_ok, Outcome.mapAll, h5]
  rfl

theorem uvMesh_limits (x y : fo.F) : LimitsAny fo fb .wrapping prec [uvMesh fo x y] where
  count := show 1 < 2 ^ 32 by decide
  names := by
    intro mn h
    rcases List.mem_singleton.mp h with rfl
    exact ⟨show 1 < 2 ^ 16 by decide, ⟨['A'], rfl⟩⟩
  holds := by
    intro mn h
    rcases List.mem_singleton.mp h with rfl
    refine ⟨?_, ?_, ?_, ?_, ?_, ?_, ?_, ?_, ?_⟩ <;>
      simp [LengthFits, IndicesFit, uvMesh, Mesh.empty]
  segments := by
    intro mn h segs hs
    rcases List.mem_singleton.mp h with rfl
    obtain ⟨d, _, e⟩ := uvMesh_encoded fo fb prec x y
    rw [e] at hs
    cases hs
    show 2 < 2 ^ 16
    decide

theorem writeLoop_length : ∀ (fuel total data : Nat) (w : BitWriter),
    (BitWriter.writeLoop fuel total data w).out.length ≤ w.out.length + fuel := by
  intro fuel
  induction fuel with
  | zero => intro total data w; exact le_refl _
  | succ fuel ih =>
    intro total data w
    rw [BitWriter.writeLoop]
    split
    · omega
    · refine le_trans (ih _ _ _) ?_
      split
      · simp; omega
      · simp

theorem write_length {b : Build} {k v : Nat} {w w' : BitWriter} (h : w.write b k v = .ok w') :
    w'.out.length ≤ w.out.length + k := by
  unfold BitWriter.write at h
  split at h
  · cases h; omega
  split at h
  · cases h; exact writeLoop_length _ _ _ _
  · cases b with
    | checked => cases h
    | wrapping => cases h; exact writeLoop_length _ _ _ _

theorem writeAll_length {b : Build} : ∀ {fields : List (Nat × Nat)} {w w' : BitWriter},
    BitWriter.writeAll b fields w = .ok w' → w'.out.length ≤ w.out.length + (fields.map Prod.fst).sum
  | [], w, w', h => by cases h; simp
  | (k, v) :: l, w, w', h => by
    rw [BitWriter.writeAll, Outcome.bind_eq_ok] at h
    obtain ⟨w1, h1, h⟩ := h
    have := write_length h1
    have := writeAll_length h
    simp only [List.map_cons, List.sum_cons]
    omega

theorem finish_length (w : BitWriter) : w.finish.length ≤ w.out.length + 1 := by
  unfold BitWriter.finish
  split <;> simp

theorem uvMesh_saved (x y : fo.F) (hS : ByteSettings prec) :
    ∃ bytes, tmfBytes fo fb .wrapping prec [uvMesh fo x y] = .ok bytes ∧ bytes.length ≤ 2 ^ 31 := by
  obtain ⟨d, hd, e⟩ := uvMesh_encoded fo fb prec x y
  refine ⟨_, tmfBytes_of fo fb .wrapping prec (enc := [[⟨.vertexTriangle, .none, [2] ++ leBytes 8 3 ++ leBytes 8 0 ++ [0x18]⟩,
    ⟨.uv, .none, d⟩]]) (by simp [Outcome.mapAll, e]), ?_⟩
  have hl : d.length ≤ 600 := by
    simp only [saveUvs, Outcome.bind_eq_ok] at hd
    obtain ⟨m, _, w, hw, hd⟩ := hd
    cases hd
    have h1 := writeAll_length hw
    have h2 := finish_length w
    simp only [List.flatMap_cons, List.flatMap_nil, uvFields, List.append_nil, List.map_cons, List.map_nil, List.sum_cons,
      List.sum_nil, BitWriter.new, List.length_nil] at h1
    have := hS.uv
    simp only [List.length_append, length_leBytes]
    omega
  have he : (EncodedSegment.bytes ⟨.uv, .none, d⟩).length = 6 + d.length := by
    simp only [EncodedSegment.bytes, List.length_append, length_leBytes]
  have he' : (EncodedSegment.bytes ⟨.vertexTriangle, .none, [2] ++ leBytes 8 3 ++ leBytes 8 0 ++ [0x18]⟩).length = 24 := rfl
  simp only [uvMesh, List.zip_cons_cons, List.zip_nil_right, List.flatMap_cons, List.flatMap_nil, meshBytes,
    List.length_append, length_leBytes, List.length_cons, List.length_nil, he, he']
  omega

/-- C11 and C49 are false without overflow checks: with a uv precision of 64 bits or more, texture
coordinates are written, but the file is not accepted. -/
theorem C11_wide_violated (hS : ByteSettings prec) (h64 : 64 ≤ prec.uv) (x y : fo.F) :
    ∃ bytes, tmfBytes fo fb .wrapping prec [uvMesh fo x y] = .ok bytes ∧
      ∀ b' sched, ¬ ∃ out, readTmf fo fb b' ⟨bytes, sched, false⟩ = .ok out := by
  obtain ⟨bytes, h, hb⟩ := uvMesh_saved fo fb prec x y hS
  refine ⟨bytes, h, fun b' sched hr => ?_⟩
  have := (C49_accepted_iff fo fb prec (b' := b') hS h (uvMesh_limits fo fb prec x y) hb [] sched).mp (by simpa using hr)
  have := (this _ List.mem_cons_self).uvs rfl
  omega

/-! ### Degenerate triangles -/

section
variable (lib : Ieee.Libm) (fbl : F64Bytes (Ieee.ops lib))

theorem default_bytes (fo : FloatOps) : ByteSettings (PrecisionInfo.default fo) where
  normal := max_lt (fo.log2CeilU8_lt _) (show 1 < 256 by decide)
  uv := fo.log2CeilU8_lt (fo.div (fo.lit 1024 0) (fo.lit 1 1))
  tangent := max_lt (fo.log2CeilU8_lt _) (show 1 < 256 by decide)

theorem precs_lt (s : VBox (Ieee.ops lib).F) (p e : (Ieee.ops lib).F) : (s.precs (Ieee.ops lib) p e).1 < 256 ∧
    (s.precs (Ieee.ops lib) p e).2.1 < 256 ∧ (s.precs (Ieee.ops lib) p e).2.2 < 256 := by
  refine ⟨?_, ?_, ?_⟩ <;> exact max_lt ((Ieee.ops lib).log2CeilU8_lt _) (by decide)

theorem pointTriangle_encoded {segs : List EncodedSegment} (h : encodeMesh (Ieee.ops lib) fbl .wrapping
    (PrecisionInfo.default (Ieee.ops lib)) (pointTriangle lib) = .ok segs) :
    optVertices (Ieee.ops lib) .wrapping [(zero32, zero32, zero32)] = .ok [[(zero32, zero32, zero32)]] ∧
    ∃ d, d.length ≤ 900 ∧ segs = [⟨.vertexTriangle, .none, leBytes 1 0 ++ leBytes 8 3 ++ leBytes 8 0⟩, ⟨.vertex, .none, d⟩] := by
  unfold encodeMesh at h
  rw [pointTriangle_edge, Outcome.bind_ok] at h
  have h2 : mergeSegments (meshSegs (pointTriangle lib)) =
      .ok [triVertex [0, 0, 0], (vertex [(zero32, zero32, zero32)] : DecodedSegment (Ieee.ops lib).F)] := rfl
  have h3 : optimize (Ieee.ops lib) .wrapping (triVertex [0, 0, 0]) = .ok [(triVertex [0, 0, 0] : DecodedSegment (Ieee.ops lib).F)] := rfl
  have h5 : encode (Ieee.ops lib) fbl .wrapping (PrecisionInfo.default (Ieee.ops lib)) zero32 (triVertex [0, 0, 0]) =
      .ok ⟨.vertexTriangle, .none, leBytes 1 0 ++ leBytes 8 3 ++ leBytes 8 0⟩ := rfl
  rw [h2, Outcome.bind_ok] at h
  rcases optVertices_short (Ieee.orderLaws lib) .wrapping (l := [(zero32, zero32, zero32)]) (by simp) with ho | ho
  · have h6 : optimize (Ieee.ops lib) .wrapping (vertex [(zero32, zero32, zero32)]) = .panic := by rw [optimize, ho]; rfl
    rw [Outcome.mapAll, h3, Outcome.bind_ok, Outcome.mapAll, h6] at h
    cases h
  · refine ⟨ho, ?_⟩
    have h6 : optimize (Ieee.ops lib) .wrapping (vertex [(zero32, zero32, zero32)]) =
        .ok [(vertex [(zero32, zero32, zero32)] : DecodedSegment (Ieee.ops lib).F)] := by rw [optimize, ho]; rfl
    rw [Outcome.mapAll, h3, Outcome.bind_ok, Outcome.mapAll, h6] at h
    change Outcome.mapAll (encode (Ieee.ops lib) fbl .wrapping (PrecisionInfo.default (Ieee.ops lib)) zero32)
      [triVertex [0, 0, 0], vertex [(zero32, zero32, zero32)]] = .ok segs at h
    rw [Outcome.mapAll, h5, Outcome.bind_ok] at h
    simp only [Outcome.mapAll, encode, Outcome.bind_eq_ok] at h
    obtain ⟨_, ⟨_, ⟨d, hd, he⟩, _, h1, h2⟩, h'⟩ := h
    cases he; cases h1; cases h2; cases h'
    refine ⟨d, ?_, rfl⟩
    simp only [saveVertices, Outcome.bind_eq_ok] at hd
    obtain ⟨s, _, mx, _, my, _, mz, _, w, hw, hd⟩ := hd
    cases hd
    have h1 := writeAll_length hw
    have h2 := finish_length w
    have h3 := precs_lt lib s (PrecisionInfo.default (Ieee.ops lib)).vertex zero32
    simp only [List.flatMap_cons, List.flatMap_nil, vertexFields, List.append_nil, List.map_cons, List.map_nil, List.sum_cons,
      List.sum_nil, BitWriter.new, List.length_nil] at h1
    simp only [List.length_append, length_leBytes, f64Bytes, fbl.enc_length]
    omega

theorem pointTriangle_limits : LimitsAny (Ieee.ops lib) fbl .wrapping (PrecisionInfo.default (Ieee.ops lib))
    [(pointTriangle lib, [65])] where
  count := show 1 < 2 ^ 32 by decide
  names := by
    intro mn h
    rcases List.mem_singleton.mp h with rfl
    exact ⟨show 1 < 2 ^ 16 by decide, ⟨['A'], rfl⟩⟩
  holds := by
    intro mn h
    rcases List.mem_singleton.mp h with rfl
    refine ⟨?_, ?_, ?_, ?_, ?_, ?_, ?_, ?_, ?_⟩ <;>
      simp [LengthFits, IndicesFit, pointTriangle, Mesh.empty]
  segments := by
    intro mn h segs hs
    rcases List.mem_singleton.mp h with rfl
    obtain ⟨_, d, _, rfl⟩ := pointTriangle_encoded lib fbl hs
    show 2 < 2 ^ 16
    decide

theorem pointTriangle_saved : ∃ bytes, tmfBytes (Ieee.ops lib) fbl .wrapping (PrecisionInfo.default (Ieee.ops lib))
    [(pointTriangle lib, [65])] = .ok bytes := by
  refine C29_saved_partial (Ieee.orderLaws lib) .wrapping _ _ ?_ ?_ ?_ ?_ ?_
  · intro mn hm
    cases List.mem_singleton.mp hm
    refine ⟨rfl, ⟨?_, ?_, ?_⟩, ?_, ?_, ?_, ?_, ?_⟩
    · intro l hl; cases hl; show 1 < 2 ^ 32; decide
    · intro l hl; cases hl
    · intro l hl; cases hl
    · intro t ht; cases ht; decide
    · intro t ht; cases ht
    · intro t ht; cases ht
    · intro t ht; cases ht
    · intro c hc; cases hc
  · intro mn hm; cases List.mem_singleton.mp hm; simp [pointTriangle]
  · intro mn hm vs t hv ht
    cases List.mem_singleton.mp hm
    cases hv; cases ht
    show 1 ∉ [0, 0, 0]
    decide
  · intro mn hm
    cases List.mem_singleton.mp hm
    refine ⟨show Ieee.isFinite (Ieee.lit 1 1 : Ieee.Val Ieee.b32) = true by decide +kernel, fun vs t hv ht _ => ?_⟩
    cases hv; cases ht
    have h := pointTriangle_edge lib
    change (do
      let e ← shortestEdgeLoop (Ieee.ops lib) [(zero32, zero32, zero32)] [0, 0, 0] (Ieee.ops lib).infinity
      assertFinite (Ieee.ops lib) e) = _ at h
    rw [shortestEdgeLoop_ok _ _ _ _ (by simp), Outcome.bind_ok] at h
    unfold assertFinite at h
    split at h
    · assumption
    · cases h
  · intro h; cases h

/-- C49 is false without overflow checks, with the default settings and a mesh that `verify`
accepts: a triangle with an edge of length 0 asks for 255 bits per coordinate. This is written, but
the file is not accepted. -/
theorem C49_violated_degenerate (hlog : AccurateLog2 lib) : ∃ (m : Mesh (Ieee.ops lib).F) (bytes : List UInt8), m.verify (Ieee.ops lib) = .ok () ∧
    tmfBytes (Ieee.ops lib) fbl .wrapping (PrecisionInfo.default (Ieee.ops lib)) [(m, [65])] = .ok bytes ∧
    ∀ b' sched, ¬ ∃ out, readTmf (Ieee.ops lib) fbl b' ⟨bytes, sched, false⟩ = .ok out := by
  obtain ⟨bytes, h⟩ := pointTriangle_saved lib fbl
  refine ⟨pointTriangle lib, bytes, rfl, h, fun b' sched hr => ?_⟩
  obtain ⟨enc, hE, hbs⟩ := tmfBytes_ok (Ieee.ops lib) fbl .wrapping _ h
  simp only [Outcome.mapAll, Outcome.bind_eq_ok] at hE
  obtain ⟨segs, hs, _, h1, h2⟩ := hE
  cases h1; cases h2
  obtain ⟨ho, d, hd, rfl⟩ := pointTriangle_encoded lib fbl hs
  have hb : bytes.length ≤ 2 ^ 31 := by
    have he : (EncodedSegment.bytes ⟨.vertex, .none, d⟩).length = 6 + d.length := by
      simp only [EncodedSegment.bytes, List.length_append, length_leBytes]
    have he' : (EncodedSegment.bytes ⟨.vertexTriangle, .none, leBytes 1 0 ++ leBytes 8 3 ++ leBytes 8 0⟩).length = 23 := rfl
    rw [hbs]
    simp only [List.zip_cons_cons, List.zip_nil_right, List.flatMap_cons, List.flatMap_nil, meshBytes,
      List.length_append, length_leBytes, List.length_cons, List.length_nil, he, he']
    omega
  have := (C49_accepted_iff (Ieee.ops lib) fbl _ (b' := b') (default_bytes (Ieee.ops lib)) h (pointTriangle_limits lib fbl) hb []
    sched).mp (by simpa using hr)
  have hmin : Ieee.min zero32 zero32 = zero32 := by decide +kernel
  have hmax : Ieee.max zero32 zero32 = zero32 := by decide +kernel
  have hv := (this _ List.mem_cons_self).vertices _ _ _ _ ⟨zero32, zero32, zero32, zero32, zero32, zero32⟩ rfl
    (pointTriangle_edge lib) ho List.mem_cons_self (by simp [vertexBox, VBox.step, hmin, hmax])
  have hp : max (Ieee.bitsFor lib (Ieee.div (Ieee.lit 1 0) (Ieee.mul (Ieee.div zero32
      (Ieee.max (Ieee.sub zero32 zero32) (Ieee.lit 1 6))) (Ieee.lit 1 1)))) 1 = 255 := by
    rw [Ieee.bits_clear hlog] <;> decide +kernel
  have hp' : (VBox.precs (Ieee.ops lib) ⟨zero32, zero32, zero32, zero32, zero32, zero32⟩
      (PrecisionInfo.default (Ieee.ops lib)).vertex zero32).1 = 255 := hp
  omega

end

end Tmf.Props
