import Verif.Model.Export
/-
Writing to a target that may refuse: what arrives and what is reported.
-/

namespace Tmf

/-- The target after accepting `buf` as far as it has room. -/
structure Sink.After (s s' : Sink) (buf : List UInt8) : Prop where
  data : s'.data = s.data ++ (match s.room with | none => buf | some k => buf.take k)
  room : s'.room = s.room.map (· - buf.length)

/-- Whether `n` bytes fit. -/
def Sink.fits (s : Sink) (n : Nat) : Prop := ∀ k, s.room = some k → n ≤ k

theorem Sink.writeAllLoop_spec : ∀ (fuel : Nat) (buf : List UInt8) (s : Sink), buf.length ≤ fuel →
    ∃ s', s.After s' buf ∧
      (s.fits buf.length → Sink.writeAllLoop fuel buf s = (.ok (), s')) ∧
      (¬ s.fits buf.length → Sink.writeAllLoop fuel buf s = (.err .io, s')) := by
  intro fuel
  induction fuel with
  | zero =>
    intro buf s h
    obtain rfl : buf = [] := List.length_eq_zero_iff.mp (by omega)
    refine ⟨s, ⟨?_, ?_⟩, fun _ => rfl, fun h => absurd (by intro k _; simp) h⟩
    · cases s.room <;> simp
    · cases s.room <;> simp
  | succ fuel ih =>
    intro buf s h
    cases buf with
    | nil =>
      refine ⟨s, ⟨?_, ?_⟩, fun _ => rfl, fun h => absurd (by intro k _; simp) h⟩
      · cases s.room <;> simp
      · cases s.room <;> simp
    | cons x xs =>
      by_cases h0 : s.room = some 0
      · refine ⟨s, ⟨?_, ?_⟩, fun hf => ?_, fun _ => ?_⟩
        · simp [h0]
        · simp [h0]
        · have := hf 0 h0; simp at this
        · simp [writeAllLoop, Sink.write, h0]
      · have hpos : 0 < s.chunk (x :: xs).length := by
          unfold Sink.chunk
          cases hr : s.room with
          | none => dsimp only; split <;> (simp only [List.length_cons]; omega)
          | some k =>
            have : 0 < k := by
              rcases Nat.eq_zero_or_pos k with rfl | h
              · exact absurd hr h0
              · exact h
            dsimp only; split <;> (simp only [List.length_cons]; omega)
        have hle : s.chunk (x :: xs).length ≤ (x :: xs).length := by
          unfold Sink.chunk
          cases s.room <;> dsimp only <;> split <;> omega
        have hroom : ∀ k, s.room = some k → s.chunk (x :: xs).length ≤ k := by
          intro k hk
          unfold Sink.chunk
          rw [hk]; dsimp only; omega
        generalize hn : s.chunk (x :: xs).length = n at *
        have hw : s.write (x :: xs) = .ok (n, ⟨s.data ++ (x :: xs).take n, s.room.map (· - n), s.sched.tail⟩) := by
          simp [Sink.write, h0, ← hn]
        obtain ⟨s', ha, h1, h2⟩ := ih ((x :: xs).drop n) ⟨s.data ++ (x :: xs).take n, s.room.map (· - n), s.sched.tail⟩
          (by rw [List.length_drop]; omega)
        have hf : Sink.fits ⟨s.data ++ (x :: xs).take n, s.room.map (· - n), s.sched.tail⟩ ((x :: xs).drop n).length ↔
            s.fits (x :: xs).length := by
          unfold Sink.fits
          rw [List.length_drop]
          cases hr : s.room with
          | none => simp
          | some k => have := hroom k hr; simp only [Option.map_some, Option.some.injEq, forall_eq']; omega
        refine ⟨s', ⟨?_, ?_⟩, fun h => ?_, fun h => ?_⟩
        · rw [ha.data]
          cases hr : s.room with
          | none => simp
          | some k =>
            have hk := hroom k hr
            simp only [Option.map_some, List.append_assoc, List.append_cancel_left_eq]
            rw [← List.take_add, show n + (k - n) = k by omega]
        · rw [ha.room]
          cases hr : s.room with
          | none => rfl
          | some k => simp only [Option.map_some, List.length_drop, Option.some.injEq]; omega
        · rw [writeAllLoop, hw]; exact h1 (hf.mpr h)
        · rw [writeAllLoop, hw]; exact h2 (fun hc => h (hf.mp hc))

theorem Sink.writeChunks_spec : ∀ (chunks : List (List UInt8)) (s : Sink),
    ∃ s', s.After s' chunks.flatten ∧
      (s.fits chunks.flatten.length → s.writeChunks chunks = (.ok (), s')) ∧
      (¬ s.fits chunks.flatten.length → s.writeChunks chunks = (.err .io, s')) := by
  intro chunks
  induction chunks with
  | nil =>
    intro s
    refine ⟨s, ⟨?_, ?_⟩, fun _ => rfl, fun h => absurd (by intro k _; simp) h⟩
    · cases s.room <;> simp
    · cases s.room <;> simp
  | cons c cs ih =>
    intro s
    obtain ⟨s1, ha, h1, h2⟩ := Sink.writeAllLoop_spec c.length c s (Nat.le_refl _)
    obtain ⟨s2, ha2, h3, h4⟩ := ih s1
    have hr1 := ha.room
    by_cases hc : s.fits c.length
    · refine ⟨s2, ⟨?_, ?_⟩, fun h => ?_, fun h => ?_⟩
      · rw [ha2.data, ha.data, hr1]
        cases hr : s.room with
        | none => simp
        | some k =>
          have := hc k hr
          simp only [Option.map_some, List.flatten_cons, List.append_assoc, List.append_cancel_left_eq]
          rw [List.take_append, List.take_of_length_le this]
      · rw [ha2.room, hr1]
        cases hr : s.room with
        | none => rfl
        | some k => simp only [Option.map_some, List.flatten_cons, List.length_append, Option.some.injEq]; omega
      · rw [writeChunks, Sink.writeAll, h1 hc]
        apply h3
        intro k hk
        rw [hr1] at hk
        cases hr : s.room with
        | none => rw [hr] at hk; simp at hk
        | some j =>
          rw [hr] at hk
          simp only [Option.map_some, Option.some.injEq] at hk
          have := h j hr
          simp only [List.flatten_cons, List.length_append] at this
          omega
      · rw [writeChunks, Sink.writeAll, h1 hc]
        apply h4
        intro hf
        apply h
        intro k hk
        have := hf (k - c.length) (by rw [hr1, hk]; rfl)
        have := hc k hk
        simp only [List.flatten_cons, List.length_append]
        omega
    · refine ⟨s1, ⟨?_, ?_⟩, fun h => ?_, fun h => ?_⟩
      · rw [ha.data]
        unfold Sink.fits at hc
        cases hr : s.room with
        | none => simp [hr] at hc
        | some k =>
          have : k < c.length := by simpa [hr] using hc
          simp only [List.flatten_cons, List.append_cancel_left_eq]
          rw [List.take_append_of_le_length (by omega)]
      · rw [ha.room]
        unfold Sink.fits at hc
        cases hr : s.room with
        | none => rfl
        | some k =>
          have : k < c.length := by simpa [hr] using hc
          simp only [Option.map_some, List.flatten_cons, List.length_append, Option.some.injEq]; omega
      · exfalso
        apply hc
        intro k hk
        have := h k hk
        simp only [List.flatten_cons, List.length_append] at this
        omega
      · rw [writeChunks, Sink.writeAll, h2 hc]

/-- Running against a target that takes everything. -/
theorem Writes.run_unlimited {α : Type} (w : Writes α) (sched : List Nat) :
    ∃ s', w.run ⟨[], none, sched⟩ = (w.result, s') ∧ s'.data = w.chunks.flatten := by
  obtain ⟨s', ha, h1, _⟩ := Sink.writeChunks_spec w.chunks ⟨[], none, sched⟩
  refine ⟨s', ?_, ?_⟩
  · rw [Writes.run, h1 (by intro k hk; simp at hk)]
  · simpa using ha.data

theorem tmfBytes_eq (fo : FloatOps) (fb : F64Bytes fo) (b : Build) (prec : PrecisionInfo fo.F)
    (meshes : List (Mesh fo.F × List UInt8)) :
    tmfBytes fo fb b prec meshes = (writeTmf fo fb b prec meshes).result >>= fun _ =>
      .ok (writeTmf fo fb b prec meshes).chunks.flatten := by
  obtain ⟨s', e, hd⟩ := (writeTmf fo fb b prec meshes).run_unlimited []
  rw [tmfBytes, e]
  cases (writeTmf fo fb b prec meshes).result <;> simp [hd]

/-! ### What is written -/

theorem Writes.bind_chunks {α β : Type} (w : Writes α) (f : α → Writes β) :
    (w >>= f) = match w.result with
      | .ok a => ⟨w.chunks ++ (f a).chunks, (f a).result⟩
      | .err e => ⟨w.chunks, .err e⟩
      | .panic => ⟨w.chunks, .panic⟩ := rfl

@[simp] theorem Writes.pure_chunks {α : Type} (a : α) : (pure a : Writes α) = ⟨[], .ok a⟩ := rfl

/-- The bytes of one segment. -/
def EncodedSegment.bytes (seg : EncodedSegment) : List UInt8 :=
  leBytes 1 seg.segType.toU8 ++ leBytes 4 seg.data.length ++ leBytes 1 seg.compression.toU8 ++ seg.data

theorem EncodedSegment.write_eq (seg : EncodedSegment) :
    seg.write.result = .ok () ∧ seg.write.chunks.flatten = seg.bytes := by
  simp [EncodedSegment.write, Writes.bind_chunks, Writes.writeAll, EncodedSegment.bytes]

theorem Writes.forEach_eq {α : Type} (f : α → Writes Unit) (g : α → List UInt8) :
    ∀ (l : List α), (∀ a ∈ l, (f a).result = .ok () ∧ (f a).chunks.flatten = g a) →
      (Writes.forEach f l).result = .ok () ∧ (Writes.forEach f l).chunks.flatten = l.flatMap g := by
  intro l
  induction l with
  | nil => intro _; exact ⟨rfl, rfl⟩
  | cons a l ih =>
    intro h
    obtain ⟨h1, h2⟩ := h a List.mem_cons_self
    obtain ⟨h3, h4⟩ := ih (fun x hx => h x (List.mem_cons_of_mem _ hx))
    simp only [Writes.forEach, Writes.bind_chunks, h1]
    exact ⟨h3, by simp [h2, h4]⟩

/-- If the whole succeeds, every part did. -/
theorem Writes.forEach_ok {α : Type} (f : α → Writes Unit) :
    ∀ (l : List α), (Writes.forEach f l).result = .ok () → ∀ a ∈ l, (f a).result = .ok () := by
  intro l
  induction l with
  | nil => intro _ a ha; simp at ha
  | cons a l ih =>
    intro h x hx
    simp only [Writes.forEach, Writes.bind_chunks] at h
    cases hr : (f a).result with
    | err e => rw [hr] at h; simp at h
    | panic => rw [hr] at h; simp at h
    | ok u =>
      rw [hr] at h
      rcases List.mem_cons.mp hx with rfl | hx
      · exact hr
      · exact ih h x hx

variable (fo : FloatOps) (fb : F64Bytes fo) (b : Build) (prec : PrecisionInfo fo.F)

/-- The bytes of one mesh, given its encoded segments. -/
def meshBytes (name : List UInt8) (segs : List EncodedSegment) : List UInt8 :=
  leBytes 2 name.length ++ name ++ leBytes 2 segs.length ++ segs.flatMap EncodedSegment.bytes

theorem writeMesh_ok {mn : Mesh fo.F × List UInt8} {segs : List EncodedSegment}
    (h : encodeMesh fo fb b prec mn.1 = .ok segs) :
    (writeMesh fo fb b prec mn).result = .ok () ∧
      (writeMesh fo fb b prec mn).chunks.flatten = meshBytes mn.2 segs := by
  obtain ⟨h1, h2⟩ := Writes.forEach_eq EncodedSegment.write EncodedSegment.bytes segs
    (fun s _ => s.write_eq)
  simp only [writeMesh, Writes.bind_chunks, Writes.writeAll, Writes.compute, h]
  exact ⟨h1, by simp [h2, meshBytes]⟩

theorem encodeMesh_of_write {mn : Mesh fo.F × List UInt8} (h : (writeMesh fo fb b prec mn).result = .ok ()) :
    ∃ segs, encodeMesh fo fb b prec mn.1 = .ok segs := by
  cases he : encodeMesh fo fb b prec mn.1 with
  | ok segs => exact ⟨segs, rfl⟩
  | err e => simp [writeMesh, Writes.bind_chunks, Writes.writeAll, Writes.compute, he] at h
  | panic => simp [writeMesh, Writes.bind_chunks, Writes.writeAll, Writes.compute, he] at h

theorem mapAll_exists {ε α β : Type} {f : α → Outcome ε β} {l : List α} (h : ∀ a ∈ l, ∃ c, f a = .ok c) :
    ∃ cs, Outcome.mapAll f l = .ok cs := by
  induction l with
  | nil => exact ⟨[], rfl⟩
  | cons a l ih =>
    obtain ⟨c, hc⟩ := h a List.mem_cons_self
    obtain ⟨cs, hcs⟩ := ih (fun x hx => h x (List.mem_cons_of_mem _ hx))
    exact ⟨c :: cs, by simp [Outcome.mapAll, hc, hcs]⟩

theorem forEach_writeMesh : ∀ (ms : List (Mesh fo.F × List UInt8)) (enc : List (List EncodedSegment)),
    Outcome.mapAll (fun mn => encodeMesh fo fb b prec mn.1) ms = .ok enc →
    (Writes.forEach (writeMesh fo fb b prec) ms).result = .ok () ∧
    (Writes.forEach (writeMesh fo fb b prec) ms).chunks.flatten =
      (ms.zip enc).flatMap (fun p => meshBytes p.1.2 p.2) := by
  intro ms
  induction ms with
  | nil => intro enc h; simp [Writes.forEach]
  | cons mn ms ih =>
    intro enc h
    rw [Outcome.mapAll, Outcome.bind_eq_ok] at h
    obtain ⟨segs, hs, h⟩ := h
    rw [Outcome.bind_eq_ok] at h
    obtain ⟨enc', hs', h⟩ := h
    simp only [Outcome.ok.injEq] at h
    subst h
    obtain ⟨h1, h2⟩ := writeMesh_ok fo fb b prec hs
    simp only [Writes.forEach, Writes.bind_chunks, h1]
    simp [h2, ih enc' hs']

/-- If every mesh encodes, saving succeeds. -/
theorem tmfBytes_of {meshes : List (Mesh fo.F × List UInt8)} {enc : List (List EncodedSegment)}
    (h : Outcome.mapAll (fun mn => encodeMesh fo fb b prec mn.1) meshes = .ok enc) :
    tmfBytes fo fb b prec meshes = .ok ([84, 77, 70] ++ leBytes 2 0 ++ leBytes 2 2 ++ leBytes 2 0 ++ leBytes 2 2 ++
        leBytes 4 meshes.length ++ (meshes.zip enc).flatMap (fun p => meshBytes p.1.2 p.2)) := by
  obtain ⟨h1, h2⟩ := forEach_writeMesh fo fb b prec meshes enc h
  rw [tmfBytes_eq, ← h2]
  simp [writeTmf, writeHeader, Writes.bind_chunks, Writes.writeAll, magic, h1]

/-- A save that succeeds encodes every mesh and writes header and meshes. -/
theorem tmfBytes_ok {meshes : List (Mesh fo.F × List UInt8)} {bytes : List UInt8}
    (h : tmfBytes fo fb b prec meshes = .ok bytes) :
    ∃ enc : List (List EncodedSegment),
      Outcome.mapAll (fun mn => encodeMesh fo fb b prec mn.1) meshes = .ok enc ∧
      bytes = [84, 77, 70] ++ leBytes 2 0 ++ leBytes 2 2 ++ leBytes 2 0 ++ leBytes 2 2 ++
        leBytes 4 meshes.length ++ (meshes.zip enc).flatMap (fun p => meshBytes p.1.2 p.2) := by
  rw [tmfBytes_eq] at h
  have hr : (writeTmf fo fb b prec meshes).result = .ok () := by
    cases hr : (writeTmf fo fb b prec meshes).result with
    | ok u => rfl
    | err e => rw [hr] at h; simp at h
    | panic => rw [hr] at h; simp at h
  rw [hr] at h
  simp only [Outcome.bind_ok, Outcome.ok.injEq] at h
  have hr2 : (Writes.forEach (writeMesh fo fb b prec) meshes).result = .ok () := by
    simpa [writeTmf, writeHeader, Writes.bind_chunks, Writes.writeAll] using hr
  have hall := Writes.forEach_ok _ _ hr2
  obtain ⟨enc, henc⟩ := mapAll_exists (f := fun mn => encodeMesh fo fb b prec mn.1) (l := meshes)
    (fun mn hmn => encodeMesh_of_write fo fb b prec (hall mn hmn))
  refine ⟨enc, henc, ?_⟩
  rw [← h, ← (forEach_writeMesh fo fb b prec meshes enc henc).2]
  simp [writeTmf, writeHeader, Writes.bind_chunks, Writes.writeAll, magic]

end Tmf
