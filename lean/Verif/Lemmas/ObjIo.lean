import Verif.Model.ObjIo
import Verif.Lemmas.Saving
/-
Buffered text output and input.
-/

namespace Tmf

/-! ### Targets -/

theorem Sink.After.refl (s : Sink) : s.After s [] := by
  refine ⟨?_, ?_⟩ <;> cases s.room <;> simp

theorem Sink.After.append {s s1 s2 : Sink} {p q : List UInt8} (h1 : s.After s1 p) (hf : s.fits p.length) (h2 : s1.After s2 q) :
    s.After s2 (p ++ q) := by
  obtain ⟨d1, r1⟩ := h1
  obtain ⟨d2, r2⟩ := h2
  refine ⟨?_, ?_⟩
  · rw [d2, d1, r1]
    cases hr : s.room with
    | none => simp
    | some k =>
      have := hf k hr
      simp only [Option.map_some, List.append_assoc]
      rw [List.take_of_length_le this, List.take_append, List.take_of_length_le this]
  · rw [r2, r1]
    cases hr : s.room with
    | none => rfl
    | some k => simp only [Option.map_some, List.length_append, Option.some.injEq]; omega

theorem Sink.After.more {s s1 : Sink} {p : List UInt8} (h1 : s.After s1 p) (hf : ¬ s.fits p.length) (q : List UInt8) :
    s.After s1 (p ++ q) := by
  obtain ⟨d1, r1⟩ := h1
  cases hr : s.room with
  | none => exact absurd (fun k hk => by rw [hr] at hk; cases hk) hf
  | some k =>
    have hk : k < p.length := Nat.lt_of_not_le fun hc =>
      hf fun k' hk' => by rw [hr] at hk'; cases hk'; omega
    refine ⟨?_, ?_⟩
    · rw [d1, hr]
      simp only
      rw [List.take_append_of_le_length (by omega)]
    · rw [r1, hr]
      simp only [Option.map_some, List.length_append, Option.some.injEq]
      omega

theorem Sink.fits_append {s s1 : Sink} {p q : List UInt8} (h1 : s.After s1 p) (hf : s.fits p.length) :
    s.fits (p ++ q).length ↔ s1.fits q.length := by
  unfold Sink.fits
  rw [h1.room, List.length_append]
  cases hr : s.room with
  | none => simp
  | some k => have := hf k hr; simp only [Option.map_some, Option.some.injEq, forall_eq']; omega

theorem Sink.not_fits_append {s : Sink} {n m : Nat} (h : ¬ s.fits n) : ¬ s.fits (n + m) :=
  fun hc => h fun k hk => by have := hc k hk; omega

/-- A target that refused something refuses everything. -/
theorem Sink.After.full {s s1 : Sink} {p : List UInt8} (h1 : s.After s1 p) (hf : ¬ s.fits p.length) : s1.room = some 0 := by
  rw [h1.room]
  cases hr : s.room with
  | none => exact absurd (fun k hk => by rw [hr] at hk; cases hk) hf
  | some k =>
    have hk : k < p.length := Nat.lt_of_not_le fun hc =>
      hf fun k' hk' => by rw [hr] at hk'; cases hk'; omega
    simp only [Option.map_some, Option.some.injEq]
    omega

theorem Sink.After.of_full {s s1 : Sink} {p : List UInt8} (h : s.room = some 0) (h1 : s.After s1 p) :
    s1.data = s.data ∧ s1.room = some 0 := by
  refine ⟨?_, ?_⟩
  · rw [h1.data, h]; simp
  · rw [h1.room, h]; simp

namespace BufWriter

theorem flushLoop_eq : ∀ (fuel : Nat) (buf : List UInt8) (s : Sink),
    ((Sink.writeAllLoop fuel buf s).1 = .ok () → flushLoop fuel buf s = (.ok (), ⟨[], (Sink.writeAllLoop fuel buf s).2⟩)) ∧
    ((Sink.writeAllLoop fuel buf s).1 = .err .io → ∃ rest, flushLoop fuel buf s = (.err .device, ⟨rest, (Sink.writeAllLoop fuel buf s).2⟩))
  | 0, [], s => ⟨fun _ => rfl, fun h => (by cases h)⟩
  | _ + 1, [], s => ⟨fun _ => rfl, fun h => (by cases h)⟩
  | 0, x :: xs, s => ⟨fun h => (by cases h), fun _ => ⟨_, rfl⟩⟩
  | fuel + 1, x :: xs, s => by
    rw [Sink.writeAllLoop, flushLoop]
    cases s.write (x :: xs) with
    | ok v => exact flushLoop_eq fuel _ _
    | err e => exact ⟨fun h => (by cases h), fun _ => ⟨_, rfl⟩⟩
    | panic => exact ⟨fun h => (by cases h), fun h => (by cases h)⟩

/-- Emptying the buffer. -/
theorem flushBuf_spec (w : BufWriter) : ∃ w', w.sink.After w'.sink w.buf ∧
    (w.sink.fits w.buf.length → w.flushBuf = (.ok (), w') ∧ w'.buf = []) ∧
    (¬ w.sink.fits w.buf.length → w.flushBuf = (.err .device, w')) := by
  obtain ⟨s', ha, h1, h2⟩ := Sink.writeAllLoop_spec w.buf.length w.buf w.sink (Nat.le_refl _)
  obtain ⟨e1, e2⟩ := flushLoop_eq w.buf.length w.buf w.sink
  by_cases hf : w.sink.fits w.buf.length
  · have := e1 (by rw [h1 hf])
    rw [h1 hf] at this
    exact ⟨⟨[], s'⟩, ha, fun _ => ⟨this, rfl⟩, fun h => absurd hf h⟩
  · obtain ⟨rest, this⟩ := e2 (by rw [h2 hf])
    rw [h2 hf] at this
    exact ⟨⟨rest, s'⟩, ha, fun h => absurd h hf, fun _ => this⟩

theorem drop_spec (w : BufWriter) : w.sink.After w.drop w.buf := by
  obtain ⟨w', ha, h1, h2⟩ := w.flushBuf_spec
  rw [drop]
  by_cases hf : w.sink.fits w.buf.length
  · rw [(h1 hf).1]; exact ha
  · rw [h2 hf]; exact ha

/-- What the buffer and the target are after taking `text`. -/
structure Took (w w' : BufWriter) (text : List UInt8) : Prop where
  exists_pre : ∃ pre, w.buf ++ text = pre ++ w'.buf ∧ w.sink.fits pre.length ∧ w.sink.After w'.sink pre

/-- A call that succeeded or found the target full. -/
def Wrote (w : BufWriter) (text : List UInt8) (o : Outcome IoError Unit × BufWriter) : Prop :=
  (o.1 = .ok () ∧ Took w o.2 text) ∨
    (o.1 = .err .device ∧ ¬ w.sink.fits (w.buf ++ text).length ∧ w.sink.After o.2.sink (w.buf ++ text))

theorem put_spec (w : BufWriter) (text : List UInt8) (h : w.buf = [] ∨ text.length < 8192) : Wrote w text (w.put text) := by
  rw [put]
  split
  · next hl =>
    obtain hb | hb := h
    · rw [Sink.writeAll]
      obtain ⟨s', ha, h1, h2⟩ := Sink.writeAllLoop_spec text.length text w.sink (Nat.le_refl _)
      by_cases hf : w.sink.fits text.length
      · rw [h1 hf]
        refine .inl ⟨rfl, ⟨text, ?_, hf, ha⟩⟩
        simp [hb]
      · rw [h2 hf]
        refine .inr ⟨rfl, ?_, ?_⟩
        · rw [hb]; exact hf
        · rw [hb]; exact ha
    · omega
  · exact .inl ⟨rfl, ⟨[], rfl, fun _ _ => Nat.zero_le _, Sink.After.refl _⟩⟩

theorem writeAll_spec (w : BufWriter) (text : List UInt8) : Wrote w text (w.writeAll text) := by
  rw [writeAll]
  split
  · next h =>
    refine put_spec w text ?_
    by_cases hb : w.buf = []
    · exact .inl hb
    · have := List.length_pos_iff.mpr hb
      exact .inr (by omega)
  · obtain ⟨w', ha, h1, h2⟩ := w.flushBuf_spec
    by_cases hf : w.sink.fits w.buf.length
    · obtain ⟨e, hb⟩ := h1 hf
      rw [e]
      rcases put_spec w' text (.inl hb) with ⟨ho, ⟨pre, hp, hpf, hpa⟩⟩ | ⟨ho, hn, hpa⟩
      · rw [hb, List.nil_append] at hp
        refine .inl ⟨ho, ⟨w.buf ++ pre, ?_, ?_, ha.append hf hpa⟩⟩
        · rw [List.append_assoc]; exact congrArg _ hp
        · exact (Sink.fits_append ha hf).mpr hpf
      · rw [hb, List.nil_append] at hn hpa
        exact .inr ⟨ho, fun hc => hn ((Sink.fits_append ha hf).mp hc), ha.append hf hpa⟩
    · rw [h2 hf]
      refine .inr ⟨rfl, ?_, ha.more hf text⟩
      rw [List.length_append]
      exact Sink.not_fits_append hf

theorem writeChunks_spec : ∀ (cs : List (List UInt8)) (w : BufWriter), Wrote w cs.flatten (w.writeChunks cs)
  | [], w => .inl ⟨rfl, ⟨[], by simp [writeChunks], fun _ _ => Nat.zero_le _, Sink.After.refl _⟩⟩
  | c :: cs, w => by
    rw [writeChunks, List.flatten_cons]
    have hw := writeAll_spec w c
    generalize w.writeAll c = o at hw
    obtain ⟨o1, w1⟩ := o
    rcases hw with ⟨ho, ⟨pre, hp, hpf, hpa⟩⟩ | ⟨ho, hn, hpa⟩
    · dsimp only at ho hp hpa
      subst ho
      dsimp only
      rcases writeChunks_spec cs w1 with ⟨ho, ⟨pre', hp', hpf', hpa'⟩⟩ | ⟨ho, hn', hpa'⟩
      · refine .inl ⟨ho, ⟨pre ++ pre', ?_, (Sink.fits_append hpa hpf).mpr hpf', hpa.append hpf hpa'⟩⟩
        rw [← List.append_assoc, hp, List.append_assoc, hp', List.append_assoc]
      · refine .inr ⟨ho, ?_, ?_⟩
        · rw [← List.append_assoc, hp, List.append_assoc]
          exact fun hc => hn' ((Sink.fits_append hpa hpf).mp hc)
        · rw [← List.append_assoc, hp, List.append_assoc]
          exact hpa.append hpf hpa'
    · dsimp only at ho hpa
      subst ho
      refine .inr ⟨rfl, ?_, ?_⟩
      · rw [← List.append_assoc, List.length_append]
        exact Sink.not_fits_append hn
      · rw [← List.append_assoc]
        exact hpa.more hn _

end BufWriter

theorem flatMap_pieces {pieces : List UInt8 → List (List UInt8)} (hp : ∀ t, (pieces t).flatten = t) (l : List (List UInt8)) :
    (l.flatMap pieces).flatten = l.flatten := by
  induction l with
  | nil => rfl
  | cons a l ih => rw [List.flatMap_cons, List.flatten_append, hp, ih, List.flatten_cons]

/-- A whole run: the target holds the text as far as it has room; the end is that of the computation, unless
the target is too small. -/
theorem TextOut.runBuffered_spec (w : TextOut Unit) {pieces : List UInt8 → List (List UInt8)} (hp : ∀ t, (pieces t).flatten = t)
    (s : Sink) : s.After (w.runBuffered pieces s).2 w.texts.flatten ∧
      (s.fits w.texts.flatten.length → (w.runBuffered pieces s).1 = w.result) ∧
      (¬ s.fits w.texts.flatten.length → (w.runBuffered pieces s).1 = .err .device ∨
        w.result ≠ .ok () ∧ (w.runBuffered pieces s).1 = w.result) := by
  have hw := BufWriter.writeChunks_spec (w.texts.flatMap pieces) ⟨[], s⟩
  rw [flatMap_pieces hp] at hw
  rw [TextOut.runBuffered]
  generalize BufWriter.writeChunks (w.texts.flatMap pieces) ⟨[], s⟩ = o at hw
  obtain ⟨o1, bw⟩ := o
  rcases hw with ⟨ho, ⟨pre, hpre, hpf, hpa⟩⟩ | ⟨ho, hn, hpa⟩
  · dsimp only at ho hpre hpa hpf
    rw [List.nil_append] at hpre
    subst ho
    rw [hpre]
    have hd := hpa.append hpf bw.drop_spec
    cases hr : w.result with
    | ok u =>
      cases u
      dsimp only
      obtain ⟨bw', ha, h1, h2⟩ := bw.flushBuf_spec
      have hdr := bw'.drop_spec
      by_cases hf : bw.sink.fits bw.buf.length
      · obtain ⟨e, hb⟩ := h1 hf
        rw [e]
        rw [hb] at hdr
        refine ⟨?_, fun _ => rfl, fun h => absurd ((Sink.fits_append hpa hpf).mpr hf) h⟩
        have := (hpa.append hpf ha).append ((Sink.fits_append hpa hpf).mpr hf) hdr
        rwa [List.append_nil] at this
      · rw [h2 hf]
        refine ⟨?_, fun h => absurd ((Sink.fits_append hpa hpf).mp h) hf, fun _ => .inl rfl⟩
        have hfull := ha.full hf
        obtain ⟨e1, e2⟩ := hdr.of_full hfull
        have := hpa.append hpf ha
        exact ⟨by rw [← this.data, ← e1], by rw [← this.room, e2, hfull]⟩
    | err e => exact ⟨hd, fun _ => rfl, fun _ => .inr ⟨by simp, rfl⟩⟩
    | panic => exact ⟨hd, fun _ => rfl, fun _ => .inr ⟨by simp, rfl⟩⟩
  · dsimp only at ho hn hpa
    subst ho
    dsimp only
    rw [List.nil_append] at hn hpa
    have hfull := hpa.full hn
    obtain ⟨e1, e2⟩ := bw.drop_spec.of_full hfull
    exact ⟨⟨by rw [← hpa.data, ← e1], by rw [← hpa.room, e2, hfull]⟩, fun h => absurd h hn, fun _ => .inl rfl⟩

/-! ### The text of `write_obj` -/

namespace TextOut

/-- How a computation ended, with the text it wrote. -/
def out {α : Type} (w : TextOut α) : Outcome IoError (α × List UInt8) := w.result >>= fun a => .ok (a, w.texts.flatten)

theorem bind_def {α β : Type} (w : TextOut α) (f : α → TextOut β) : (w >>= f) = w.bind f := rfl

theorem out_bind {α β : Type} (w : TextOut α) (f : α → TextOut β) :
    (w >>= f).out = w.out >>= fun p => (f p.1).out >>= fun q => .ok (q.1, p.2 ++ q.2) := by
  rw [bind_def, bind, out, out]
  cases h : w.result with
  | ok a =>
    simp only [Outcome.bind_ok, List.flatten_append]
    rw [out]
    cases (f a).result <;> rfl
  | err e => rfl
  | panic => rfl

theorem out_write (t : List UInt8) : (write t).out = .ok ((), t) := by simp [write, out]

theorem out_writeIf (c : Bool) (t : List UInt8) : (writeIf c t).out = .ok ((), if c then t else []) := by
  cases c <;> simp [writeIf, write, out]

theorem out_compute {α : Type} (x : Outcome IoError α) : (compute x).out = x >>= fun a => .ok (a, []) := rfl

theorem out_nil {α : Type} (a : α) : (⟨[], .ok a⟩ : TextOut α).out = .ok (a, []) := rfl

theorem out_forEach {α : Type} {f : α → TextOut Unit} {g : α → List UInt8} (h : ∀ a, (f a).out = .ok ((), g a)) :
    ∀ l : List α, (forEach f l).out = .ok ((), l.flatMap g)
  | [] => rfl
  | a :: l => by
    rw [forEach, out_bind, h, Outcome.bind_ok, out_forEach h l, Outcome.bind_ok, List.flatMap_cons]

end TextOut

variable {fo : FloatOps}

theorem cornerOut_out (b : Build) (v : List Nat) (u n : Option (List Nat)) (offset : Nat × Nat × Nat) (i : Nat) :
    (cornerOut b v u n offset i).out = (do
      let x ← indexAt v i
      let x ← addU32 b x offset.1
      let ut ← uvText b u n offset.2.1 i
      let nt ← normalText b n offset.2.2 i
      .ok ((), (if i % 3 = 0 then ascii "f " else []) ++ decimal x ++ ut ++ nt ++ (if i % 3 = 2 then [10] else [32]))) := by
  have hu : (uvOut b u n offset.2.1 i).out = uvText b u n offset.2.1 i >>= fun t => .ok ((), t) := by
    rw [uvOut.eq_def, uvText.eq_def]
    cases u with
    | none => rw [TextOut.out_writeIf]; rfl
    | some u =>
      dsimp only
      rw [TextOut.out_bind, TextOut.out_compute, shiftedIndex]
      cases indexAt u i with
      | ok x =>
        simp only [Outcome.bind_ok]
        cases addU32 b x offset.2.1 with
        | ok y => simp only [Outcome.bind_ok, TextOut.out_write, List.nil_append]
        | err e => rfl
        | panic => rfl
      | err e => rfl
      | panic => rfl
  have hn : (normalOut b n offset.2.2 i).out = normalText b n offset.2.2 i >>= fun t => .ok ((), t) := by
    rw [normalOut.eq_def, normalText.eq_def]
    cases n with
    | none => rfl
    | some u =>
      dsimp only
      rw [TextOut.out_bind, TextOut.out_compute, shiftedIndex]
      cases indexAt u i with
      | ok x =>
        simp only [Outcome.bind_ok]
        cases addU32 b x offset.2.2 with
        | ok y => simp only [Outcome.bind_ok, TextOut.out_write, List.nil_append]
        | err e => rfl
        | panic => rfl
      | err e => rfl
      | panic => rfl
  rw [cornerOut, TextOut.out_bind, TextOut.out_writeIf, Outcome.bind_ok, TextOut.out_bind, TextOut.out_compute, shiftedIndex]
  cases indexAt v i with
  | ok x =>
    simp only [Outcome.bind_ok]
    cases addU32 b x offset.1 with
    | ok y =>
      simp only [Outcome.bind_ok]
      rw [TextOut.out_bind, TextOut.out_write, Outcome.bind_ok, TextOut.out_bind, hu]
      cases uvText b u n offset.2.1 i with
      | ok t =>
        simp only [Outcome.bind_ok]
        rw [TextOut.out_bind, hn]
        cases normalText b n offset.2.2 i with
        | ok t' =>
          simp only [Outcome.bind_ok]
          rw [TextOut.out_write]
          simp only [Outcome.bind_ok, List.nil_append, List.append_assoc, beq_iff_eq]
        | err e => rfl
        | panic => rfl
      | err e => rfl
      | panic => rfl
    | err e => rfl
    | panic => rfl
  | err e => rfl
  | panic => rfl

theorem corners_out (b : Build) (v : List Nat) (u n : Option (List Nat)) (offset : Nat × Nat × Nat) : ∀ l : List Nat,
    (TextOut.forEach (cornerOut b v u n offset) l).out = facesText b v u n offset l >>= fun t => .ok ((), t)
  | [] => rfl
  | i :: l => by
    rw [TextOut.forEach, TextOut.out_bind, cornerOut_out, facesText]
    cases indexAt v i with
    | ok x =>
      simp only [Outcome.bind_ok]
      cases addU32 b x offset.1 with
      | ok y =>
        simp only [Outcome.bind_ok]
        cases uvText b u n offset.2.1 i with
        | ok t =>
          simp only [Outcome.bind_ok]
          cases normalText b n offset.2.2 i with
          | ok t' =>
            simp only [Outcome.bind_ok]
            rw [corners_out b v u n offset l]
            cases facesText b v u n offset l <;> rfl
          | err e => rfl
          | panic => rfl
        | err e => rfl
        | panic => rfl
      | err e => rfl
      | panic => rfl
    | err e => rfl
    | panic => rfl

/-- The lines before the faces. -/
theorem meshOut_eq (ft : FloatText fo) (m : Mesh fo.F) (name : List UInt8) {α : Type} (k : TextOut α) : ∃ pre : List (List UInt8),
    pre.flatten = meshText ft m name ∧ (do
      TextOut.write (ascii "o " ++ name ++ [10])
      TextOut.forEach (fun x => TextOut.write (vec3Line ft (ascii "v") x)) (m.vertices.getD [])
      TextOut.forEach (fun x => TextOut.write (vec3Line ft (ascii "vn") x)) (m.normals.getD [])
      TextOut.forEach (fun x => TextOut.write (vec2Line ft x)) (m.uvs.getD [])
      k) = ⟨pre ++ k.texts, k.result⟩ := by
  have h : ∀ {β : Type} (f : β → List UInt8) (l : List β), TextOut.forEach (fun x => TextOut.write (f x)) l = ⟨l.map f, .ok ()⟩ := by
    intro β f l
    induction l with
    | nil => rfl
    | cons a l ih => rw [TextOut.forEach, ih]; rfl
  refine ⟨[ascii "o " ++ name ++ [10]] ++ (m.vertices.getD []).map (vec3Line ft (ascii "v")) ++
    (m.normals.getD []).map (vec3Line ft (ascii "vn")) ++ (m.uvs.getD []).map (vec2Line ft), ?_, ?_⟩
  · simp only [meshText, List.flatten_append, List.flatMap, List.flatten_singleton]
  · rw [h, h, h]
    show (⟨_ ++ (_ ++ (_ ++ (_ ++ k.texts))), k.result⟩ : TextOut α) = _
    simp only [List.append_assoc]
    rfl

theorem saveObjOut_out (ft : FloatText fo) (b : Build) (m : Mesh fo.F) (offset : Nat × Nat × Nat) (name : List UInt8) :
    (saveObjOut ft b m offset name).out = saveObj ft b m offset name >>= fun p => .ok (p.2, p.1) := by
  obtain ⟨pre, hpre, e⟩ := meshOut_eq ft m name (facesOut b m offset)
  rw [saveObjOut, e, saveObj.eq_def, facesOut.eq_def]
  cases m.vertexTriangles with
  | none =>
    dsimp only
    split
    · rfl
    · simp only [TextOut.out, Outcome.bind_ok, List.append_nil, hpre]
  | some v =>
    dsimp only
    split
    · have hc := corners_out b v m.uvTriangles m.normalTriangles offset (List.range v.length)
      generalize TextOut.forEach (cornerOut b v m.uvTriangles m.normalTriangles offset) (List.range v.length) = w at hc
      obtain ⟨ts, r⟩ := w
      rw [TextOut.out] at hc
      rw [TextOut.bind_def, TextOut.bind]
      cases r with
      | ok u =>
        cases hf : facesText b v m.uvTriangles m.normalTriangles offset (List.range v.length) with
        | ok t =>
          rw [hf] at hc
          simp only [Outcome.bind_ok, Outcome.ok.injEq, Prod.mk.injEq, true_and] at hc
          simp only [TextOut.out, Outcome.bind_ok, List.flatten_append, hpre, hc]
          simp [pure]
        | err e => rw [hf] at hc; cases hc
        | panic => rw [hf] at hc; cases hc
      | err e =>
        cases hf : facesText b v m.uvTriangles m.normalTriangles offset (List.range v.length) with
        | ok t => rw [hf] at hc; cases hc
        | err e => rw [hf] at hc; cases hc; rfl
        | panic => rw [hf] at hc; cases hc
      | panic =>
        cases hf : facesText b v m.uvTriangles m.normalTriangles offset (List.range v.length) with
        | ok t => rw [hf] at hc; cases hc
        | err e => rw [hf] at hc; cases hc
        | panic => rfl
    · rfl

theorem writeObjLoopOut_out (ft : FloatText fo) (b : Build) : ∀ (meshes : List (Mesh fo.F × List UInt8)) (offset : Nat × Nat × Nat),
    (writeObjLoopOut ft b meshes offset).out = writeObjLoop ft b meshes offset >>= fun t => .ok ((), t)
  | [], _ => rfl
  | (m, name) :: rest, offset => by
    rw [writeObjLoopOut, writeObjLoop, TextOut.out_bind, saveObjOut_out]
    cases saveObj ft b m offset name with
    | ok p =>
      simp only [Outcome.bind_ok]
      rw [TextOut.out_bind, TextOut.out_compute, addOffsets]
      cases addU32 b offset.1 p.2.1 with
      | ok o0 =>
        simp only [Outcome.bind_ok]
        cases addU32 b offset.2.1 p.2.2.1 with
        | ok o1 =>
          simp only [Outcome.bind_ok]
          cases addU32 b offset.2.2 p.2.2.2 with
          | ok o2 =>
            simp only [Outcome.bind_ok]
            rw [writeObjLoopOut_out ft b rest]
            cases writeObjLoop ft b rest (o0, o1, o2) <;> rfl
          | err e => rfl
          | panic => rfl
        | err e => rfl
        | panic => rfl
      | err e => rfl
      | panic => rfl
    | err e => rfl
    | panic => rfl

theorem writeObjOut_out (ft : FloatText fo) (b : Build) (meshes : List (Mesh fo.F × List UInt8)) :
    (writeObjOut ft b meshes).out = writeObj ft b meshes >>= fun t => .ok ((), t) := by
  rw [writeObjOut, writeObj, TextOut.out_bind, TextOut.out_write, Outcome.bind_ok, writeObjLoopOut_out]
  cases writeObjLoop ft b meshes (1, 1, 1) <;> rfl

/-! ### Reading -/

theorem cutLine_some : ∀ {l a r : List UInt8}, cutLine l = some (a, r) → ∃ p, a = p ++ [10] ∧ 10 ∉ p ∧ l = p ++ 10 :: r
  | c :: l, a, r, h => by
    rw [cutLine] at h
    split at h
    · next hc => cases h; exact ⟨[], by rw [hc]; rfl, by simp, by rw [hc]; rfl⟩
    · next hc =>
      cases hl : cutLine l with
      | none => rw [hl] at h; cases h
      | some v =>
        obtain ⟨a', r'⟩ := v
        rw [hl] at h
        cases h
        obtain ⟨p, rfl, hp, rfl⟩ := cutLine_some hl
        exact ⟨c :: p, rfl, by simp only [List.mem_cons, not_or]; exact ⟨fun h => hc h.symm, hp⟩, rfl⟩

theorem cutLine_none : ∀ {l : List UInt8}, cutLine l = none → 10 ∉ l
  | [], _ => by simp
  | c :: l, h => by
    rw [cutLine] at h
    split at h
    · cases h
    · next hc =>
      cases hl : cutLine l with
      | none => simp only [List.mem_cons, not_or]; exact ⟨fun h => hc h.symm, cutLine_none hl⟩
      | some v => rw [hl] at h; cases h

/-- The search in the buffer. -/
def BufReader.searchStep (fuel : Nat) (acc : List UInt8) (r : BufReader) : Outcome IoError (List UInt8 × BufReader) :=
  match cutLine r.buf with
  | some (a, rest) => .ok (acc ++ a, ⟨rest, r.src⟩)
  | none => if r.buf = [] then .ok (acc, r) else BufReader.readUntil fuel (acc ++ r.buf) ⟨[], r.src⟩

/-- What reading one line gives: the next line, the rest, or the error of the reader in the middle of a line. -/
def LineRead (acc pending : List UInt8) (broken : Bool) (o : Outcome IoError (List UInt8 × BufReader)) : Prop :=
  (∃ p rest r', pending = p ++ 10 :: rest ∧ 10 ∉ p ∧ o = .ok (acc ++ p ++ [10], r') ∧ r'.pending = rest ∧ r'.src.broken = broken) ∨
  (10 ∉ pending ∧ broken = false ∧ ∃ r', o = .ok (acc ++ pending, r') ∧ r'.pending = [] ∧ r'.src.broken = false) ∨
  (10 ∉ pending ∧ broken = true ∧ o = .err .device)

mutual

theorem readUntil_spec : ∀ (fuel : Nat) (acc : List UInt8) (r : BufReader), r.pending.length < fuel →
    LineRead acc r.pending r.src.broken (r.readUntil fuel acc)
  | 0, _, _, h => absurd h (by omega)
  | fuel + 1, acc, ⟨buf, src⟩, h => by
    have hdef : BufReader.readUntil (fuel + 1) acc ⟨buf, src⟩ = (match BufReader.fill ⟨buf, src⟩ with
      | .ok r => r.searchStep fuel acc
      | .err e => .err e
      | .panic => .panic) := rfl
    rw [hdef, BufReader.fill]
    by_cases hb : buf = []
    · subst hb
      rw [if_pos rfl]
      by_cases hs : src.bytes = []
      · have hp : BufReader.pending ⟨[], src⟩ = [] := by simp [BufReader.pending, hs]
        rw [hp]
        cases hbr : src.broken with
        | true => exact .inr (.inr ⟨by simp, rfl, by simp [Source.read, hs, hbr]⟩)
        | false =>
          refine .inr (.inl ⟨by simp, rfl, ⟨[], { src with sched := src.sched.tail }⟩, ?_, by simp [BufReader.pending, hs], hbr⟩)
          simp [Source.read, hs, hbr, cutLine, BufReader.searchStep]
      · have hread : src.read 8192 = .ok (src.bytes.take (src.chunk 8192), { src with bytes := src.bytes.drop (src.chunk 8192), sched := src.sched.tail }) := by
          rw [Source.read, if_neg (by simp [hs])]
        have hpos : 0 < src.chunk 8192 := by rw [Source.chunk]; split <;> omega
        have hne : src.bytes.take (src.chunk 8192) ≠ [] := by
          intro hc
          rcases List.take_eq_nil_iff.mp hc with h | h
          · omega
          · exact hs h
        have key := searchStep_spec fuel acc ⟨src.bytes.take (src.chunk 8192), { src with bytes := src.bytes.drop (src.chunk 8192), sched := src.sched.tail }⟩ hne
          (by simpa [BufReader.pending] using h)
        rw [hread]
        simpa [BufReader.pending] using key
    · rw [if_neg hb]
      exact searchStep_spec fuel acc ⟨buf, src⟩ hb h

theorem searchStep_spec (fuel : Nat) (acc : List UInt8) (r : BufReader) (hb : r.buf ≠ []) (h : r.pending.length < fuel + 1) :
    LineRead acc r.pending r.src.broken (r.searchStep fuel acc) := by
  obtain ⟨buf, src⟩ := r
  rw [BufReader.searchStep]
  dsimp only [BufReader.pending] at hb h ⊢
  cases hc : cutLine buf with
  | some v =>
    obtain ⟨a, rest⟩ := v
    obtain ⟨p, rfl, hp, rfl⟩ := cutLine_some hc
    exact .inl ⟨p, rest ++ src.bytes, ⟨rest, src⟩, by simp, hp, by simp, rfl, rfl⟩
  | none =>
    have hn := cutLine_none hc
    have hpos := List.length_pos_iff.mpr hb
    rw [List.length_append] at h
    simp only [if_neg hb]
    rcases readUntil_spec fuel (acc ++ buf) ⟨[], src⟩ (by simp only [BufReader.pending, List.nil_append]; omega) with
      ⟨p, rest, r', h1, h2, h3, h4, h5⟩ | ⟨h1, h2, r', h3, h4, h5⟩ | ⟨h1, h2, h3⟩
    · simp only [BufReader.pending, List.nil_append] at h1
      exact .inl ⟨buf ++ p, rest, r', by rw [h1, List.append_assoc], by simp [hn, h2], by rw [h3]; simp, h4, h5⟩
    · simp only [BufReader.pending, List.nil_append] at h1 h3
      exact .inr (.inl ⟨by simp [hn, h1], h2, r', by rw [h3]; simp, h4, h5⟩)
    · simp only [BufReader.pending, List.nil_append] at h1
      exact .inr (.inr ⟨by simp [hn, h1], h2, h3⟩)

end

theorem textLinesAux_cut : ∀ (cur p rest : List UInt8), 10 ∉ p →
    textLinesAux cur (p ++ 10 :: rest) = stripCr (cur ++ p) :: textLinesAux [] rest
  | cur, [], rest, _ => by rw [List.nil_append, textLinesAux, if_pos rfl, List.append_nil]
  | cur, c :: p, rest, h => by
    simp only [List.mem_cons, not_or] at h
    rw [List.cons_append, textLinesAux, if_neg (fun e => h.1 e.symm), textLinesAux_cut _ _ _ h.2, List.append_assoc]
    rfl

theorem textLinesAux_end : ∀ (cur p : List UInt8), 10 ∉ p → textLinesAux cur p = if cur ++ p = [] then [] else [cur ++ p]
  | cur, [], _ => by rw [textLinesAux, List.append_nil]
  | cur, c :: p, h => by
    simp only [List.mem_cons, not_or] at h
    rw [textLinesAux, if_neg (fun e => h.1 e.symm), textLinesAux_end _ _ h.2, List.append_assoc]
    rfl

theorem stripLine_line (p : List UInt8) : stripLine (p ++ [10]) = stripCr p := by simp [stripLine]

theorem stripLine_end {p : List UInt8} (h : 10 ∉ p) : stripLine p = p := by
  rw [stripLine, if_neg]
  intro e
  exact h (List.mem_of_getLast? e)

/-- A reader that does not fail: only the text matters. -/
theorem readObjLines_eq (ft : FloatText fo) (face : PushFace fo.F) (b : Build) : ∀ (fuel : Nat) (r : BufReader) (oi : Importer fo.F),
    r.pending.length < fuel → r.src.broken = false →
    readObjLines ft face b fuel r oi = readObjLoop ft face b (textLines r.pending) oi
  | 0, _, _, h, _ => absurd h (by omega)
  | fuel + 1, r, oi, h, hb => by
    rw [readObjLines]
    rcases readUntil_spec (r.pending.length + 1) [] r (by omega) with
      ⟨p, rest, r', h1, h2, h3, h4, h5⟩ | ⟨h1, h2, r', h3, h4, h5⟩ | ⟨h1, h2, h3⟩
    · rw [h3, List.nil_append, h1, textLines, textLinesAux_cut _ _ _ h2, readObjLoop]
      dsimp only
      rw [if_neg (by simp), stripLine_line, List.nil_append]
      have hlen : rest.length < fuel := by rw [h1] at h; simp only [List.length_append, List.length_cons] at h; omega
      cases parseLine ft face b (stripCr p) oi with
      | ok v =>
        simp only [Outcome.bind_ok]
        rw [readObjLines_eq ft face b fuel r' v.2 (by rw [h4]; exact hlen) (by rw [h5, hb]), h4]
        rfl
      | err e => rfl
      | panic => rfl
    · rw [h3, List.nil_append, textLines, textLinesAux_end _ _ h1, List.nil_append]
      dsimp only
      split
      · rfl
      · next hne =>
        rw [stripLine_end h1, readObjLoop]
        cases parseLine ft face b r.pending oi with
        | ok v =>
          simp only [Outcome.bind_ok]
          have hpos := List.length_pos_iff.mpr hne
          rw [readObjLines_eq ft face b fuel r' v.2 (by rw [h4]; simp only [List.length_nil]; omega) h5, h4]
          rfl
        | err e => rfl
        | panic => rfl
    · rw [hb] at h2; cases h2

/-- A reader that fails after its last byte: the result is the error of the reader, or what any text with
this beginning gives, which is not a success. -/
theorem readObjLines_broken (ft : FloatText fo) (face : PushFace fo.F) (b : Build) : ∀ (fuel : Nat) (r : BufReader) (oi : Importer fo.F),
    r.pending.length < fuel → r.src.broken = true →
    readObjLines ft face b fuel r oi = .err .device ∨
      (∀ out, readObjLines ft face b fuel r oi ≠ .ok out) ∧
      ∀ more, readObjLoop ft face b (textLines (r.pending ++ more)) oi = readObjLines ft face b fuel r oi
  | 0, _, _, h, _ => absurd h (by omega)
  | fuel + 1, r, oi, h, hb => by
    rw [readObjLines]
    rcases readUntil_spec (r.pending.length + 1) [] r (by omega) with
      ⟨p, rest, r', h1, h2, h3, h4, h5⟩ | ⟨h1, h2, r', h3, h4, h5⟩ | ⟨h1, h2, h3⟩
    · rw [h3, List.nil_append, h1]
      dsimp only
      rw [if_neg (by simp), stripLine_line]
      have hlen : rest.length < fuel := by rw [h1] at h; simp only [List.length_append, List.length_cons] at h; omega
      have hmore : ∀ more, readObjLoop ft face b (textLines (p ++ 10 :: rest ++ more)) oi =
          parseLine ft face b (stripCr p) oi >>= fun v => readObjLoop ft face b (textLines (rest ++ more)) v.2 >>= fun ms => .ok (v.1.toList ++ ms) := by
        intro more
        rw [List.append_assoc, List.cons_append, textLines, textLinesAux_cut _ _ _ h2, List.nil_append, readObjLoop]
        rfl
      cases hp : parseLine ft face b (stripCr p) oi with
      | ok v =>
        simp only [Outcome.bind_ok]
        rcases readObjLines_broken ft face b fuel r' v.2 (by rw [h4]; exact hlen) (by rw [h5, hb]) with he | ⟨hn, he⟩
        · exact .inl (by rw [he]; rfl)
        · refine .inr ⟨fun out ho => ?_, fun more => ?_⟩
          · rw [Outcome.bind_eq_ok] at ho
            obtain ⟨ms, hms, -⟩ := ho
            exact hn ms hms
          · rw [hmore, hp, Outcome.bind_ok]
            have := he more
            rw [h4] at this
            rw [this]
      | err e => exact .inr ⟨fun out ho => (by cases ho), fun more => by rw [hmore, hp]; rfl⟩
      | panic => exact .inr ⟨fun out ho => (by cases ho), fun more => by rw [hmore, hp]; rfl⟩
    · rw [hb] at h2; cases h2
    · exact .inl (by rw [h3])

end Tmf
