import Verif.Lemmas.ObjMore
import Verif.Model.Import
import Verif.Model.Lz77
/-
A build with overflow checks does the same as one without them, or panics: function by function.
-/

namespace Tmf

variable {fo : FloatOps}

theorem Sub.mapAll {ε α β : Type} {f g : α → Outcome ε β} (h : ∀ a, Sub (f a) (g a)) : ∀ (l : List α),
    Sub (Outcome.mapAll f l) (Outcome.mapAll g l)
  | [] => .refl _
  | a :: l => by
    rw [Outcome.mapAll, Outcome.mapAll]
    exact (h a).bind fun _ => (Sub.mapAll h l).bind fun _ => .refl _

/-! ### Writing -/

theorem write_sub (mode data : Nat) (w : BitWriter) : Sub (w.write .checked mode data) (w.write .wrapping mode data) := by
  rw [BitWriter.write, BitWriter.write]
  split_ifs
  · exact .refl _
  · exact .refl _
  · exact .inl rfl

theorem writeAll_sub : ∀ (l : List (Nat × Nat)) (w : BitWriter),
    Sub (BitWriter.writeAll .checked l w) (BitWriter.writeAll .wrapping l w)
  | [], _ => .refl _
  | (mode, v) :: rest, w => by
    rw [BitWriter.writeAll, BitWriter.writeAll]
    exact (write_sub mode v w).bind fun w => writeAll_sub rest w

theorem mulI32_sub (bits : Nat) : Sub (mulI32 .checked bits) (mulI32 .wrapping bits) := by
  rw [mulI32, mulI32]
  split_ifs with h
  · rw [Nat.mod_eq_of_lt (by omega)]
    exact .refl _
  · exact .inl rfl

theorem saveTriangles_sub (l : List Nat) (m : Nat) : Sub (saveTriangles .checked l m) (saveTriangles .wrapping l m) :=
  (writeAll_sub _ _).bind fun _ => .refl _

theorem saveVertices_sub (fb : F64Bytes fo) (vs : List (Vec3 fo.F)) (p e : fo.F) :
    Sub (saveVertices fo fb .checked vs p e) (saveVertices fo fb .wrapping vs p e) :=
  (Sub.refl _).bind fun _ => (mulI32_sub _).bind fun _ => (mulI32_sub _).bind fun _ => (mulI32_sub _).bind fun _ =>
    (writeAll_sub _ _).bind fun _ => .refl _

theorem saveUvs_sub (l : List (Vec2 fo.F)) (p : Nat) : Sub (saveUvs fo .checked l p) (saveUvs fo .wrapping l p) :=
  (mulI32_sub _).bind fun _ => (writeAll_sub _ _).bind fun _ => .refl _

theorem normalToEncoding_sub (p : Nat) (n : Vec3 fo.F) :
    Sub (normalToEncoding fo .checked p n) (normalToEncoding fo .wrapping p n) :=
  (mulI32_sub _).bind fun _ => .refl _

theorem saveNormals_sub (l : List (Vec3 fo.F)) (p : Nat) : Sub (saveNormals fo .checked l p) (saveNormals fo .wrapping l p) :=
  (Sub.mapAll (fun n => (normalToEncoding_sub p n).bind fun _ => .refl _) l).bind fun _ =>
    (writeAll_sub _ _).bind fun _ => .refl _

theorem tangentFields_sub (p : Nat) (t : Tangent fo.F) :
    Sub (tangentFields fo .checked p t) (tangentFields fo .wrapping p t) :=
  (normalToEncoding_sub p t.1).bind fun _ => .refl _

theorem saveTangents_sub (l : List (Tangent fo.F)) (p : Nat) :
    Sub (saveTangents fo .checked l p) (saveTangents fo .wrapping l p) :=
  (Sub.mapAll (tangentFields_sub p) l).bind fun _ => (writeAll_sub _ _).bind fun _ => .refl _

theorem custom_sub (fb : F64Bytes fo) (seg : CustomSeg fo.F) :
    Sub (seg.encode fo fb .checked) (seg.encode fo fb .wrapping) := by
  refine Sub.bind ?_ fun _ => .refl _
  cases seg.data with
  | index l m => exact saveTriangles_sub l m
  | integer l m => exact saveTriangles_sub l m
  | float l p => exact (mulI32_sub _).bind fun _ => (writeAll_sub _ _).bind fun _ => .refl _
  | color l p => exact (mulI32_sub _).bind fun _ => (writeAll_sub _ _).bind fun _ => .refl _

theorem encode_sub (fb : F64Bytes fo) (prec : PrecisionInfo fo.F) (e : fo.F) (seg : DecodedSegment fo.F) :
    Sub (seg.encode fo fb .checked prec e) (seg.encode fo fb .wrapping prec e) := by
  cases seg with
  | vertex l => exact (saveVertices_sub fb l _ _).bind fun _ => .refl _
  | normal l => exact (saveNormals_sub l _).bind fun _ => .refl _
  | uv l => exact (saveUvs_sub l _).bind fun _ => .refl _
  | tangent l => exact (saveTangents_sub l _).bind fun _ => .refl _
  | triVertex l => exact (saveTriangles_sub l _).bind fun _ => .refl _
  | triNormal l => exact (saveTriangles_sub l _).bind fun _ => .refl _
  | triUv l => exact (saveTriangles_sub l _).bind fun _ => .refl _
  | triTangent l => exact (saveTriangles_sub l _).bind fun _ => .refl _
  | custom seg => exact (custom_sub fb seg).bind fun _ => .refl _
  | shared m l => exact (saveTriangles_sub l _).bind fun _ => .refl _
  | nothing => exact .refl _

/-! ### Splitting -/

theorem splitScore_sub (len : Nat) (d : Nat × Nat) : Sub (calcSpiltScore .checked len d) (calcSpiltScore .wrapping len d) := by
  rw [calcSpiltScore, calcSpiltScore]
  split_ifs
  · exact .inl rfl
  · exact .refl _

theorem scanMax_sub (t : Nat) : ∀ (l : List Nat) (i m : Nat) (best : Best),
    Sub (scanMax .checked t i m l best) (scanMax .wrapping t i m l best)
  | [], _, _, _ => .refl _
  | x :: l, i, m, best => by
    rw [scanMax, scanMax]
    exact (splitScore_sub _ _).bind fun _ => scanMax_sub t l _ _ _

theorem scanMin_sub (t : Nat) : ∀ (l : List Nat) (i m : Nat) (best : Best),
    Sub (scanMin .checked t i m l best) (scanMin .wrapping t i m l best)
  | [], _, _, _ => .refl _
  | x :: l, i, m, best => by
    rw [scanMin, scanMin]
    exact (splitScore_sub _ _).bind fun _ => scanMin_sub t l _ _ _

theorem trisSplit_sub (l : List Nat) : Sub (trisSplit .checked l) (trisSplit .wrapping l) := by
  refine (scanMax_sub _ _ _ _ _).bind fun best => ?_
  cases best.split with
  | some i => exact .refl _
  | none => exact (scanMin_sub _ _ _ _ _).bind fun _ => .refl _

theorem optTrisFuel_sub : ∀ (n : Nat) (l : List Nat), Sub (optTrisFuel .checked n l) (optTrisFuel .wrapping n l)
  | 0, _ => .refl _
  | n + 1, l => by
    rw [optTrisFuel, optTrisFuel]
    refine (trisSplit_sub l).bind fun s => ?_
    cases s with
    | none => exact .refl _
    | some i => exact (optTrisFuel_sub n _).bind fun _ => (optTrisFuel_sub n _).bind fun _ => .refl _

theorem addU8_sub (x y : Nat) : Sub (addU8 .checked x y) (addU8 .wrapping x y) := by
  rw [addU8.eq_def, addU8.eq_def]
  split_ifs
  · exact .refl _
  · exact .inl rfl

theorem subU8_sub (x y : Nat) : Sub (subU8 .checked x y) (subU8 .wrapping x y) := by
  rw [subU8.eq_def, subU8.eq_def]
  split_ifs
  · exact .refl _
  · exact .inl rfl

theorem bitCount_sub (s : Span fo.F) (e : fo.F) :
    Sub (rangeToVertexBitCount fo .checked s e) (rangeToVertexBitCount fo .wrapping s e) :=
  (addU8_sub _ _).bind fun _ => addU8_sub _ _

theorem vertexScan_sub (e : fo.F) (t : Nat) : ∀ (l : List (Vec3 fo.F)) (i : Nat) (s : Span fo.F) (bits : Nat) (best : Best),
    Sub (vertexScan fo .checked e t i s bits l best) (vertexScan fo .wrapping e t i s bits l best)
  | [], _, _, _, _ => .refl _
  | v :: l, i, s, bits, best => by
    rw [vertexScan, vertexScan]
    split_ifs
    · exact (subU8_sub _ _).bind fun _ => vertexScan_sub e t l _ _ _ _
    · exact (bitCount_sub _ _).bind fun _ => vertexScan_sub e t l _ _ _ _

theorem vertexSplit_sub (vs : List (Vec3 fo.F)) (e : fo.F) :
    Sub (findBestVertexSplit fo .checked vs e) (findBestVertexSplit fo .wrapping vs e) :=
  (bitCount_sub _ _).bind fun _ => (vertexScan_sub _ _ _ _ _ _ _).bind fun _ => .refl _

theorem optVerticesFuel_sub : ∀ (n : Nat) (vs : List (Vec3 fo.F)),
    Sub (optVerticesFuel fo .checked n vs) (optVerticesFuel fo .wrapping n vs)
  | 0, _ => .refl _
  | n + 1, l => by
    rw [optVerticesFuel, optVerticesFuel]
    refine (vertexSplit_sub l _).bind fun s => ?_
    cases s with
    | none => exact .refl _
    | some i => exact (optVerticesFuel_sub n _).bind fun _ => (optVerticesFuel_sub n _).bind fun _ => .refl _

theorem optimize_sub (seg : DecodedSegment fo.F) : Sub (seg.optimize fo .checked) (seg.optimize fo .wrapping) := by
  cases seg with
  | triVertex l => exact (optTrisFuel_sub _ _).bind fun _ => .refl _
  | triUv l => exact (optTrisFuel_sub _ _).bind fun _ => .refl _
  | triNormal l => exact (optTrisFuel_sub _ _).bind fun _ => .refl _
  | triTangent l => exact (optTrisFuel_sub _ _).bind fun _ => .refl _
  | vertex l => exact (optVerticesFuel_sub _ _).bind fun _ => .refl _
  | shared k l => exact (optTrisFuel_sub _ _).bind fun _ => .refl _
  | _ => exact .refl _

theorem encodeMesh_sub (fb : F64Bytes fo) (prec : PrecisionInfo fo.F) (m : Mesh fo.F) :
    Sub (encodeMesh fo fb .checked prec m) (encodeMesh fo fb .wrapping prec m) :=
  (Sub.refl _).bind fun _ => (Sub.refl _).bind fun _ => (Sub.mapAll (fun s => optimize_sub s) _).bind fun _ =>
    Sub.mapAll (fun s => encode_sub fb prec _ s) _

/-! ### Targets -/

/-- The same calls and result, or fewer of the calls and then a panic. -/
def WSub {α : Type} (x y : Writes α) : Prop := (x.result = .panic ∧ x.chunks <+: y.chunks) ∨ x = y

theorem WSub.refl {α : Type} (x : Writes α) : WSub x x := .inr rfl

theorem WSub.bind {α β : Type} {x y : Writes α} {f g : α → Writes β} (h : WSub x y) (hf : ∀ a, WSub (f a) (g a)) :
    WSub (x >>= f) (y >>= g) := by
  show WSub (x.bind f) (y.bind g)
  rcases h with ⟨h, hp⟩ | rfl
  · refine .inl ?_
    rw [Writes.bind, h]
    refine ⟨rfl, ?_⟩
    dsimp only
    rw [Writes.bind]
    cases y.result with
    | ok a => exact hp.trans (List.prefix_append _ _)
    | err e => exact hp
    | panic => exact hp
  · rw [Writes.bind, Writes.bind]
    cases x.result with
    | ok a =>
      dsimp only
      rcases hf a with ⟨h, hp⟩ | e
      · exact .inl ⟨h, (List.prefix_append_right_inj _).2 hp⟩
      · rw [e]
        exact .inr rfl
    | err e => exact .inr rfl
    | panic => exact .inr rfl

theorem WSub.compute {α : Type} {x y : Outcome ExportError α} (h : Sub x y) : WSub (Writes.compute x) (Writes.compute y) := by
  rcases h with rfl | rfl
  · exact .inl ⟨rfl, List.nil_prefix⟩
  · exact .refl _

theorem WSub.forEach {α : Type} {f g : α → Writes Unit} (h : ∀ a, WSub (f a) (g a)) : ∀ (l : List α),
    WSub (Writes.forEach f l) (Writes.forEach g l)
  | [] => .refl _
  | a :: l => by
    rw [Writes.forEach, Writes.forEach]
    exact (h a).bind fun _ => WSub.forEach h l

theorem writeTmf_sub (fb : F64Bytes fo) (prec : PrecisionInfo fo.F) (meshes : List (Mesh fo.F × List UInt8)) :
    WSub (writeTmf fo fb .checked prec meshes) (writeTmf fo fb .wrapping prec meshes) := by
  refine (WSub.refl _).bind fun _ => WSub.forEach (fun m => ?_) _
  exact (WSub.refl _).bind fun _ => (WSub.refl _).bind fun _ => (WSub.compute (encodeMesh_sub fb prec m.1)).bind fun _ => .refl _

theorem writeChunks_split (c d : List (List UInt8)) : ∀ (s : Sink),
    s.writeChunks (c ++ d) = match s.writeChunks c with
      | (.ok (), s) => s.writeChunks d
      | (.err e, s) => (.err e, s)
      | (.panic, s) => (.panic, s) := by
  induction c with
  | nil => intro s; rfl
  | cons x c ih =>
    intro s
    rw [List.cons_append, Sink.writeChunks, Sink.writeChunks]
    cases s.writeAll x with
    | mk r s =>
      cases r with
      | ok u => exact ih s
      | err e => rfl
      | panic => rfl

/-- Against any target. -/
theorem WSub.run {α : Type} {x y : Writes α} (h : WSub x y) (s : Sink) : (x.run s).1 = .panic ∨ x.run s = y.run s := by
  rcases h with ⟨h, t, ht⟩ | rfl
  · rw [Writes.run, Writes.run, ← ht, writeChunks_split, h]
    cases s.writeChunks x.chunks with
    | mk r s =>
      cases r with
      | ok u => exact .inl rfl
      | err e => exact .inr rfl
      | panic => exact .inl rfl
  · exact .inr rfl

/-! ### Reading -/

theorem addMin_sub (i m : Nat) : Sub (addMin .checked i m) (addMin .wrapping i m) := by
  rw [addMin, addMin]
  split_ifs <;> simp_all [Sub]

theorem readIndexPairs_sub (p m : Nat) : ∀ (n : Nat) (r : BitReader),
    Sub (readIndexPairs .checked p m n r) (readIndexPairs .wrapping p m n r)
  | 0, _ => .refl _
  | n + 1, r => by
    rw [readIndexPairs, readIndexPairs]
    exact (Sub.refl _).bind fun ⟨⟨_, _⟩, _⟩ => (addMin_sub _ _).bind fun _ => (addMin_sub _ _).bind fun _ =>
      (readIndexPairs_sub p m n _).bind fun _ => .refl _

theorem readIndices_sub (p m n : Nat) (r : BitReader) : Sub (readIndices .checked p m n r) (readIndices .wrapping p m n r) := by
  refine (readIndexPairs_sub p m _ r).bind fun ⟨l, r⟩ => ?_
  dsimp only
  split_ifs
  · exact (Sub.refl _).bind fun ⟨_, _⟩ => (addMin_sub _ _).bind fun _ => .refl _
  · exact .refl _

theorem readTriangles_sub (ctx : DecodeCtx) (bytes : List UInt8) :
    Sub (readTriangles .checked ctx bytes) (readTriangles .wrapping ctx bytes) :=
  (Sub.refl _).bind fun ⟨⟨_, _, _⟩, _⟩ => readIndices_sub _ _ _ _

theorem readDefaultTriangles_sub (ctx : DecodeCtx) (bytes : List UInt8) :
    Sub (readDefaultTriangles .checked ctx bytes) (readDefaultTriangles .wrapping ctx bytes) := by
  refine (Sub.refl _).bind fun ⟨⟨_, _, _⟩, _⟩ => ?_
  dsimp only
  split_ifs
  · exact .refl _
  · exact readIndices_sub _ _ _ _

theorem shiftU64_sub (p : Nat) : Sub (shiftU64 .checked p) (shiftU64 .wrapping p) := by
  rw [shiftU64.eq_def, shiftU64.eq_def]
  split_ifs
  · exact .refl _
  · exact .inl rfl

theorem readColors_sub (bytes : List UInt8) : Sub (readColors fo .checked bytes) (readColors fo .wrapping bytes) := by
  refine (Sub.refl _).bind fun ⟨⟨_, _⟩, _⟩ => ?_
  dsimp only
  split_ifs
  · exact .refl _
  · exact (shiftU64_sub _).bind fun _ => .refl _

theorem customRead_sub (fb : F64Bytes fo) (ctx : DecodeCtx) (kind : SectionType) (bytes : List UInt8) :
    Sub (CustomSeg.read fo fb .checked ctx kind bytes) (CustomSeg.read fo fb .wrapping ctx kind bytes) := by
  refine (Sub.refl _).bind fun ⟨_, _⟩ => ?_
  cases kind with
  | customIndex => exact (readTriangles_sub _ _).bind fun _ => .refl _
  | customInteger => exact (readTriangles_sub _ _).bind fun _ => .refl _
  | customColor => exact (readColors_sub _).bind fun _ => .refl _
  | _ => exact .refl _

theorem decodeIndices_sub (ctx : DecodeCtx) (seg : EncodedSegment) :
    Sub (decodeIndices .checked ctx seg) (decodeIndices .wrapping ctx seg) := by
  rw [decodeIndices, decodeIndices]
  cases seg.compression with
  | none => exact readDefaultTriangles_sub _ _
  | _ => exact .refl _

theorem decodeShared_sub {F : Type} (ctx : DecodeCtx) (seg : EncodedSegment) :
    Sub (decodeShared (F := F) .checked ctx seg) (decodeShared .wrapping ctx seg) := by
  rw [decodeShared.eq_def, decodeShared.eq_def]
  cases seg.data with
  | nil => exact .refl _
  | cons x l =>
    cases seg.compression with
    | none => exact (readDefaultTriangles_sub _ _).bind fun _ => .refl _
    | _ => exact .refl _

theorem decode_sub (fb : F64Bytes fo) (ctx : DecodeCtx) (seg : EncodedSegment) :
    Sub (seg.decode fo fb .checked ctx) (seg.decode fo fb .wrapping ctx) := by
  rw [EncodedSegment.decode.eq_def, EncodedSegment.decode.eq_def]
  cases seg.segType with
  | vertexTriangle => exact (decodeIndices_sub _ _).bind fun _ => .refl _
  | normalTriangle => exact (decodeIndices_sub _ _).bind fun _ => .refl _
  | uvTriangle => exact (decodeIndices_sub _ _).bind fun _ => .refl _
  | tangentTriangle => exact (decodeIndices_sub _ _).bind fun _ => .refl _
  | customIndex => exact (customRead_sub _ _ _ _).bind fun _ => .refl _
  | customInteger => exact (customRead_sub _ _ _ _).bind fun _ => .refl _
  | customFloat => exact (customRead_sub _ _ _ _).bind fun _ => .refl _
  | customColor => exact (customRead_sub _ _ _ _).bind fun _ => .refl _
  | sharedTriangle => exact decodeShared_sub _ _
  | _ => exact .refl _

theorem collect_sub {ε α β : Type} {f g : α → Outcome ε β} (h : ∀ a, Sub (f a) (g a)) (l : List α) :
    Sub (collect (l.map f)) (collect (l.map g)) := by
  by_cases hp : ∃ a ∈ l, f a = .panic
  · obtain ⟨a, ha, e⟩ := hp
    refine .inl ?_
    rw [collect, if_pos]
    rw [List.any_eq_true]
    exact ⟨f a, List.mem_map_of_mem ha, by rw [e]⟩
  · refine .inr ?_
    rw [List.map_congr_left fun a ha => (h a).resolve_left fun e => hp ⟨a, ha, e⟩]

theorem assembleMesh_sub (fb : F64Bytes fo) (ctx : DecodeCtx) (segs : List EncodedSegment) :
    Sub (assembleMesh fo fb .checked ctx segs) (assembleMesh fo fb .wrapping ctx segs) :=
  (collect_sub (fun s => decode_sub fb ctx s) segs).bind fun _ => .refl _

/-- On any reader: the same, or a panic. -/
def PSub {α : Type} (p q : Prog α) : Prop := ∀ s, Sub (p.run s) (q.run s)

theorem PSub.refl {α : Type} (p : Prog α) : PSub p p := fun _ => .refl _

theorem run_bind {α β : Type} (f : α → Prog β) : ∀ (p : Prog α) (s : Source),
    (p >>= f).run s = (p.run s >>= fun x => (f x.1).run x.2)
  | .ret _, _ => rfl
  | .fail _, _ => rfl
  | .panic, _ => rfl
  | .readExact n k, s => by
    show (Prog.readExact n (fun bs => k bs >>= f)).run s = _
    rw [Prog.run, Prog.run]
    cases s.readExact n with
    | ok x => exact run_bind f (k x.1) x.2
    | err e => rfl
    | panic => rfl

theorem PSub.bind {α β : Type} {p q : Prog α} {f g : α → Prog β} (h : PSub p q) (hf : ∀ a, PSub (f a) (g a)) :
    PSub (p >>= f) (q >>= g) := by
  intro s
  rw [run_bind, run_bind]
  exact (h s).bind fun x => hf x.1 x.2

theorem PSub.ofOutcome {α : Type} {x y : Outcome ImportError α} (h : Sub x y) :
    PSub (Prog.ofOutcome x) (Prog.ofOutcome y) := by
  intro s
  rcases h with rfl | rfl
  · exact .inl rfl
  · exact .refl _

theorem PSub.replicate {α : Type} {p q : Prog α} (h : PSub p q) : ∀ (n : Nat), PSub (Prog.replicate n p) (Prog.replicate n q)
  | 0 => .refl _
  | n + 1 => by
    rw [Prog.replicate, Prog.replicate]
    exact h.bind fun _ => (PSub.replicate h n).bind fun _ => .refl _

theorem importMesh_sub (fb : F64Bytes fo) (ctx : ImportCtx) :
    PSub (importMesh fo fb .checked ctx) (importMesh fo fb .wrapping ctx) :=
  (PSub.refl _).bind fun _ => (PSub.refl _).bind fun _ => (PSub.refl _).bind fun _ =>
    (PSub.ofOutcome (assembleMesh_sub fb _ _)).bind fun _ => .refl _

theorem importTmf_sub (fb : F64Bytes fo) : PSub (importTmf fo fb .checked) (importTmf fo fb .wrapping) :=
  (PSub.refl _).bind fun _ => (PSub.refl _).bind fun _ => (importMesh_sub fb _).replicate _

theorem readTmf_sub (fb : F64Bytes fo) (s : Source) : Sub (readTmf fo fb .checked s) (readTmf fo fb .wrapping s) :=
  (importTmf_sub fb s).bind fun _ => .refl _

theorem readTmfOne_sub (fb : F64Bytes fo) (s : Source) :
    Sub (readTmfOne fo fb .checked s) (readTmfOne fo fb .wrapping s) :=
  (readTmf_sub fb s).bind fun _ => .refl _

/-! ### .obj text -/

theorem subU32_sub (x y : Nat) : Sub (subU32 .checked x y) (subU32 .wrapping x y) := by
  rw [subU32.eq_def, subU32.eq_def]
  split_ifs
  · exact .refl _
  · exact .inl rfl

theorem fastPrune_sub {α : Type} (data : List α) (is : List Nat) :
    Sub (fastPrune .checked data is) (fastPrune .wrapping data is) := by
  rw [fastPrune.eq_def, fastPrune.eq_def]
  cases pruneMin is _ with
  | none => exact .refl _
  | some m =>
    dsimp only
    split_ifs
    · exact (Sub.mapAll (fun _ => subU32_sub _ _) _).bind fun _ => .refl _
    · exact .refl _

theorem importerBuild_sub {F : Type} (oi : Importer F) : Sub (oi.build .checked) (oi.build .wrapping) :=
  (fastPrune_sub _ _).bind fun _ => (fastPrune_sub _ _).bind fun _ => (fastPrune_sub _ _).bind fun _ => .refl _

theorem Sub.widen {ε α : Type} {x y : Outcome Empty α} (h : Sub x y) : Sub (x.widen (ε := ε)) y.widen := by
  rcases h with rfl | rfl
  · exact .inl rfl
  · exact .refl _

theorem nextMesh_sub {F : Type} (name : List UInt8) (oi : Importer F) :
    Sub (oi.nextMesh .checked name) (oi.nextMesh .wrapping name) := by
  rw [Importer.nextMesh, Importer.nextMesh]
  split_ifs
  · exact .refl _
  · exact (importerBuild_sub oi).bind fun _ => .refl _

theorem parseLine_sub (ft : FloatText fo) (face : PushFace fo.F) (line : List UInt8) (oi : Importer fo.F) :
    Sub (parseLine ft face .checked line oi) (parseLine ft face .wrapping line oi) := by
  rw [parseLine, parseLine]
  split_ifs
  · refine (Sub.refl _).bind fun ⟨beg, ws⟩ => ?_
    dsimp only
    rw [parseWords, parseWords]
    split_ifs
    · exact .refl _
    · exact .refl _
    · exact .refl _
    · exact .refl _
    · exact (Sub.refl _).bind fun ⟨_, _⟩ => (nextMesh_sub _ oi).widen
    · exact .refl _
  · exact .refl _

theorem readObjLoop_sub (ft : FloatText fo) (face : PushFace fo.F) : ∀ (lines : List (List UInt8)) (oi : Importer fo.F),
    Sub (readObjLoop ft face .checked lines oi) (readObjLoop ft face .wrapping lines oi)
  | [], oi => by
    rw [readObjLoop, readObjLoop]
    exact (((importerBuild_sub oi).bind fun _ => .refl _).widen).bind fun _ => .refl _
  | line :: rest, oi => by
    rw [readObjLoop, readObjLoop]
    exact (parseLine_sub ft face line oi).bind fun ⟨_, _⟩ => (readObjLoop_sub ft face rest _).bind fun _ => .refl _

/-! ### The LZ77 stage -/

theorem saveCompressedLoop_sub (p : Nat) (data : List Nat) : ∀ (n pos : Nat) (w : BitWriter),
    Sub (saveCompressedLoop .checked p data n pos w) (saveCompressedLoop .wrapping p data n pos w)
  | 0, _, _ => .refl _
  | n + 1, pos, w => by
    rw [saveCompressedLoop, saveCompressedLoop]
    dsimp only
    split_ifs
    · exact (write_sub _ _ _).bind fun _ => (write_sub _ _ _).bind fun _ => saveCompressedLoop_sub p data n _ _
    · exact (write_sub _ _ _).bind fun _ => (write_sub _ _ _).bind fun _ => (write_sub _ _ _).bind fun _ =>
        saveCompressedLoop_sub p data n _ _
    · exact .refl _

theorem copyToken_sub (len o : Nat) (out : List Nat) : Sub (copyToken .checked len o out) (copyToken .wrapping len o out) := by
  rw [copyToken.eq_def, copyToken.eq_def]
  split_ifs
  · exact .refl _
  all_goals exact .inl rfl

theorem readCompressedLoop_sub (p len : Nat) : ∀ (n : Nat) (r : BitReader) (out : List Nat),
    Sub (readCompressedLoop .checked p len n r out) (readCompressedLoop .wrapping p len n r out)
  | 0, _, _ => .refl _
  | n + 1, r, out => by
    rw [readCompressedLoop, readCompressedLoop]
    split_ifs
    · refine (Sub.refl _).bind fun ⟨raw, r⟩ => (Sub.refl _).bind fun ⟨v, r⟩ => ?_
      dsimp only
      split_ifs
      · exact readCompressedLoop_sub p len n _ _
      · exact (Sub.refl _).bind fun ⟨_, _⟩ => (copyToken_sub _ _ _).bind fun _ => readCompressedLoop_sub p len n _ _
    · exact .refl _

/-! ### The bit reader -/

theorem read3_sub (mode : Nat) (r : BitReader) : Sub (r.read3 .checked mode) (r.read3 .wrapping mode) := by
  rw [BitReader.read3.eq_def, BitReader.read3.eq_def]
  split_ifs
  · exact .refl _
  · exact (Sub.refl _).bind fun ⟨_, _⟩ => .inl rfl
  · exact .refl _

theorem readPair_sub (m n : Nat) (r : BitReader) : Sub (r.readPair .checked m n) (r.readPair .wrapping m n) := by
  rw [BitReader.readPair.eq_def, BitReader.readPair.eq_def]
  by_cases h : m + n ≥ 256
  · rw [if_pos ⟨h, rfl⟩]
    exact .inl rfl
  · simp only [h, false_and, if_false]
    split_ifs
    · exact .refl _
    · exact (Sub.refl _).bind fun ⟨_, _⟩ => .inl rfl
    · exact .refl _

end Tmf
