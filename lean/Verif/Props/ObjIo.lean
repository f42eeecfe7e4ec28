import Verif.Lemmas.ObjIo
import Verif.Spec.ObjIo
import Verif.Spec.ObjExport
import Verif.Props.ObjFile
/-
C70: .obj output and targets that fail. C71: .obj input and readers that fail.
-/

namespace Tmf.Props

open Tmf Tmf.Spec

variable {fo : FloatOps} (ft : FloatText fo) (b : Build)

/-- C70: `write_obj` of an acceptable scene, with room for `k` bytes, however the text is cut into writes and
however the target splits them: it fails with the error of the target exactly if the text is longer than `k` bytes,
and the target holds the first `k` bytes of the text. -/
theorem C70_failing_target {pieces : List UInt8 → List (List UInt8)} (hp : Lossless pieces) {meshes : List (Mesh fo.F × List UInt8)}
    {text : List UInt8} (h : writeObj ft b meshes = .ok text) (k : Nat) (sched : List Nat) :
    (writeObjTo ft b pieces meshes ⟨[], some k, sched⟩).2.data = text.take k ∧
      (writeObjTo ft b pieces meshes ⟨[], some k, sched⟩).1 = if k < text.length then .err .device else .ok () := by
  have ho := writeObjOut_out ft b meshes
  rw [h, TextOut.out, Outcome.bind_ok, Outcome.bind_eq_ok] at ho
  obtain ⟨u, hr, e⟩ := ho
  simp only [Outcome.ok.injEq, Prod.mk.injEq] at e
  obtain ⟨-, rfl⟩ := e
  obtain ⟨ha, h1, h2⟩ := (writeObjOut ft b meshes).runBuffered_spec hp ⟨[], some k, sched⟩
  refine ⟨by simpa [writeObjTo] using ha.data, ?_⟩
  rw [writeObjTo]
  split
  · next hk =>
    rcases h2 (fun hc => by have := hc k rfl; omega) with e | ⟨e, -⟩
    · exact e
    · exact absurd hr e
  · next hk => rw [h1 (fun k' hk' => by cases hk'; omega), hr]

/-- C70: success is only reported if the scene is acceptable and its whole text has arrived. -/
theorem C70_success {pieces : List UInt8 → List (List UInt8)} (hp : Lossless pieces) (meshes : List (Mesh fo.F × List UInt8)) (s : Sink)
    (h : (writeObjTo ft b pieces meshes s).1 = .ok ()) :
    ∃ text, writeObj ft b meshes = .ok text ∧ (writeObjTo ft b pieces meshes s).2.data = s.data ++ text := by
  obtain ⟨ha, h1, h2⟩ := (writeObjOut ft b meshes).runBuffered_spec hp s
  rw [writeObjTo] at h ⊢
  have hf : s.fits (writeObjOut ft b meshes).texts.flatten.length := by
    refine Classical.byContradiction fun hf => ?_
    rcases h2 hf with e | ⟨e1, e2⟩
    · rw [e] at h; cases h
    · rw [h] at e2; exact e1 e2.symm
  rw [h1 hf] at h
  have ho := writeObjOut_out ft b meshes
  rw [TextOut.out, h, Outcome.bind_ok] at ho
  obtain ⟨t, ht, e⟩ := Outcome.bind_eq_ok.mp ho.symm
  simp only [Outcome.ok.injEq, Prod.mk.injEq, true_and] at e
  refine ⟨t, ht, ?_⟩
  rw [ha.data, ← e]
  cases hr : s.room with
  | none => rfl
  | some k => simp only; rw [List.take_of_length_le (e ▸ hf k hr)]

/-- A target with unlimited room sees the end of the computation itself. -/
theorem C70_unlimited {pieces : List UInt8 → List (List UInt8)} (hp : Lossless pieces) (meshes : List (Mesh fo.F × List UInt8)) (sched : List Nat) :
    (writeObjTo ft b pieces meshes ⟨[], none, sched⟩).1 = writeObj ft b meshes >>= fun _ => .ok () := by
  obtain ⟨-, h1, -⟩ := (writeObjOut ft b meshes).runBuffered_spec hp ⟨[], none, sched⟩
  rw [writeObjTo, h1 (fun k hk => by cases hk)]
  have ho := writeObjOut_out ft b meshes
  rw [TextOut.out] at ho
  cases hr : (writeObjOut ft b meshes).result with
  | ok u =>
    rw [hr, Outcome.bind_ok] at ho
    obtain ⟨t, ht, -⟩ := Outcome.bind_eq_ok.mp ho.symm
    rw [ht]
    rfl
  | err e =>
    rw [hr] at ho
    cases hw : writeObj ft b meshes with
    | ok t => rw [hw] at ho; cases ho
    | err e' => rw [hw] at ho; cases ho; rfl
    | panic => rw [hw] at ho; cases ho
  | panic =>
    rw [hr] at ho
    cases hw : writeObj ft b meshes with
    | ok t => rw [hw] at ho; cases ho
    | err e' => rw [hw] at ho; cases ho
    | panic => rfl

theorem facesOut_refused {m : Mesh fo.F} (hm : Mismatched m) (offset : Nat × Nat × Nat) : facesOut b m offset = ⟨[], .err .other⟩ := by
  rw [Mismatched] at hm
  rw [facesOut.eq_def]
  cases hv : m.vertexTriangles with
  | none =>
    rw [hv] at hm
    dsimp only at hm ⊢
    rw [if_pos]
    rcases hm with h | h
    · exact .inl (Option.isSome_iff_ne_none.mpr h)
    · exact .inr (Option.isSome_iff_ne_none.mpr h)
  | some v =>
    rw [hv] at hm
    dsimp only at hm ⊢
    rw [if_neg]
    rcases hm with ⟨n, hn, hl⟩ | ⟨n, hn, hl⟩
    · simp [hn, lengthFits, hl]
    · simp [hn, lengthFits, hl]

theorem writeObjLoopOut_refused (m : Mesh fo.F) (name : List UInt8) (hm : Mismatched m) (post : List (Mesh fo.F × List UInt8)) :
    ∀ (pre : List (Mesh fo.F × List UInt8)) (offset : Nat × Nat × Nat) {text : List UInt8},
      offset.1 < 2 ^ 32 → offset.2.1 < 2 ^ 32 → offset.2.2 < 2 ^ 32 → writeObjLoop ft b pre offset = .ok text →
      ∃ t, writeObjLoop ft b (pre ++ [(withoutFaces m, name)]) offset = .ok t ∧
        (writeObjLoopOut ft b (pre ++ (m, name) :: post) offset).texts.flatten = t ∧
        (writeObjLoopOut ft b (pre ++ (m, name) :: post) offset).result = .err .other
  | [], offset, _, h0, h1, h2, _ => by
    obtain ⟨p, hp, e⟩ := meshOut_eq ft m name (facesOut b m offset)
    refine ⟨meshText ft m name, ?_, ?_, ?_⟩
    · rw [List.nil_append, writeObjLoop, show saveObj ft b (withoutFaces m) offset name = .ok (meshText ft m name, 0, 0, 0) from rfl]
      have ha : ∀ x, x < 2 ^ 32 → addU32 b x 0 = (.ok x : Outcome IoError Nat) := fun x hx => by
        rw [addU32.eq_def, Nat.add_zero, if_pos hx]
      rw [Outcome.bind_ok]
      dsimp only
      rw [ha _ h0, Outcome.bind_ok, ha _ h1, Outcome.bind_ok, ha _ h2, Outcome.bind_ok, writeObjLoop, Outcome.bind_ok,
        List.append_nil]
    · rw [List.nil_append, writeObjLoopOut, saveObjOut, e, facesOut_refused b hm]
      show (p ++ []).flatten = _
      rw [List.append_nil, hp]
    · rw [List.nil_append, writeObjLoopOut, saveObjOut, e, facesOut_refused b hm]
      rfl
  | (m', name') :: pre, offset, text, h0, h1, h2, h => by
    rw [writeObjLoop, Outcome.bind_eq_ok] at h
    obtain ⟨⟨t1, counts⟩, hs, h⟩ := h
    dsimp only at h
    rw [Outcome.bind_eq_ok] at h
    obtain ⟨o0, e0, h⟩ := h
    rw [Outcome.bind_eq_ok] at h
    obtain ⟨o1, e1, h⟩ := h
    rw [Outcome.bind_eq_ok] at h
    obtain ⟨o2, e2, h⟩ := h
    rw [Outcome.bind_eq_ok] at h
    obtain ⟨t2, ht2, -⟩ := h
    have hlt : ∀ {x y z}, addU32 b x y = .ok z → z < 2 ^ 32 := by
      intro x y z hz
      rw [addU32.eq_def] at hz
      split at hz
      · cases hz; assumption
      · cases b with
        | checked => cases hz
        | wrapping => cases hz; exact Nat.mod_lt _ (by decide)
    obtain ⟨t, ht, hf, hr⟩ := writeObjLoopOut_refused m name hm post pre (o0, o1, o2) (hlt e0) (hlt e1) (hlt e2) ht2
    have hso := saveObjOut_out ft b m' offset name'
    rw [hs, Outcome.bind_ok, TextOut.out, Outcome.bind_eq_ok] at hso
    obtain ⟨c, hc, e⟩ := hso
    simp only [Outcome.ok.injEq, Prod.mk.injEq] at e
    obtain ⟨rfl, rfl⟩ := e
    have hloop : writeObjLoopOut ft b ((m', name') :: pre ++ (m, name) :: post) offset =
        ⟨(saveObjOut ft b m' offset name').texts ++ (writeObjLoopOut ft b (pre ++ (m, name) :: post) (o0, o1, o2)).texts,
          (writeObjLoopOut ft b (pre ++ (m, name) :: post) (o0, o1, o2)).result⟩ := by
      rw [List.cons_append, writeObjLoopOut, TextOut.bind_def, TextOut.bind, hc]
      dsimp only
      rw [addOffsets, e0, Outcome.bind_ok, e1, Outcome.bind_ok, e2, Outcome.bind_ok]
      rfl
    refine ⟨(saveObjOut ft b m' offset name').texts.flatten ++ t, ?_, ?_, ?_⟩
    · rw [List.cons_append, writeObjLoop, hs, Outcome.bind_ok]
      dsimp only
      rw [e0, Outcome.bind_ok, e1, Outcome.bind_ok, e2, Outcome.bind_ok, ht, Outcome.bind_ok]
    · rw [hloop, List.flatten_append, hf]
    · rw [hloop, hr]

/-- C70: when a mesh is refused, the target already holds the text of all meshes before it and the elements of the
refused one. That text is the complete file of another scene: the one that ends with the refused mesh, without its
faces. -/
theorem C70_refused {pieces : List UInt8 → List (List UInt8)} (hp : Lossless pieces) {pre post : List (Mesh fo.F × List UInt8)}
    {m : Mesh fo.F} {name text : List UInt8} (hpre : writeObj ft b pre = .ok text) (hm : Mismatched m) (sched : List Nat) :
    ∃ t, writeObj ft b (pre ++ [(withoutFaces m, name)]) = .ok t ∧
      (writeObjTo ft b pieces (pre ++ (m, name) :: post) ⟨[], none, sched⟩).1 = .err .other ∧
      (writeObjTo ft b pieces (pre ++ (m, name) :: post) ⟨[], none, sched⟩).2.data = t := by
  rw [writeObj, Outcome.bind_eq_ok] at hpre
  obtain ⟨t0, h0, -⟩ := hpre
  obtain ⟨t, ht, hf, hr⟩ := writeObjLoopOut_refused ft b m name hm post pre (1, 1, 1) (by decide) (by decide) (by decide) h0
  obtain ⟨ha, h1, -⟩ := (writeObjOut ft b (pre ++ (m, name) :: post)).runBuffered_spec hp ⟨[], none, sched⟩
  have hout : writeObjOut ft b (pre ++ (m, name) :: post) =
      ⟨[ascii "s 1\n"] ++ (writeObjLoopOut ft b (pre ++ (m, name) :: post) (1, 1, 1)).texts,
        (writeObjLoopOut ft b (pre ++ (m, name) :: post) (1, 1, 1)).result⟩ := rfl
  refine ⟨ascii "s 1\n" ++ t, by rw [writeObj, ht]; rfl, ?_, ?_⟩
  · rw [writeObjTo, h1 (fun k hk => by cases hk), hout, hr]
  · rw [writeObjTo, ha.data, hout, List.flatten_append, hf]
    rfl

/-- C71: reading .obj text does not depend on how the reader delivers it. -/
theorem C71_chunk_independent (face : PushFace fo.F) (bytes : List UInt8) (sched : List Nat) :
    readObjFrom ft face b ⟨bytes, sched, false⟩ = readFromObj ft face b bytes :=
  readObjLines_eq ft face b _ ⟨[], ⟨bytes, sched, false⟩⟩ .new (Nat.lt_succ_self _) rfl

/-- C71: a reader that fails is never taken for the end of the text: the result is the error of the reader, or a
failure that every text with this beginning would give. -/
theorem C71_failing_reader (face : PushFace fo.F) (bytes : List UInt8) (sched : List Nat) :
    readObjFrom ft face b ⟨bytes, sched, true⟩ = .err .device ∨
      (∀ out, readObjFrom ft face b ⟨bytes, sched, true⟩ ≠ .ok out) ∧
      ∀ more, readFromObj ft face b (bytes ++ more) = readObjFrom ft face b ⟨bytes, sched, true⟩ :=
  readObjLines_broken ft face b _ ⟨[], ⟨bytes, sched, true⟩⟩ .new (Nat.lt_succ_self _) rfl

/-- C71: in particular it never gives meshes. -/
theorem C71_no_meshes (face : PushFace fo.F) (bytes : List UInt8) (sched : List Nat) (out : List (Mesh fo.F × List UInt8)) :
    readObjFrom ft face b ⟨bytes, sched, true⟩ ≠ .ok out := by
  rcases C71_failing_reader ft b face bytes sched with h | ⟨h, -⟩
  · rw [h]; simp
  · exact h out

/-! ### Examples -/

/-- A reader that hands out one byte at a time, and one that fails in the middle of a good text. -/
example (face : PushFace fo.F) : readObjFrom ft face b ⟨ascii "o a\no b\n", List.replicate 8 1, false⟩ =
    readFromObj ft face b (ascii "o a\no b\n") := C71_chunk_independent ft b face _ _

example (face : PushFace fo.F) : readObjFrom ft face b ⟨ascii "# x\n# y", [2, 1], true⟩ = .err .device := by
  rcases C71_failing_reader ft b face (ascii "# x\n# y") [2, 1] with h | ⟨h, h'⟩
  · exact h
  · have ht : textLines (ascii "# x\n# y" ++ []) = [ascii "# x", ascii "# y"] := by decide +kernel
    refine absurd (h' []).symm (fun e => ?_)
    rw [readFromObj, ht] at e
    exact h _ (e.trans rfl)

/-- A line that is wrong before the reader fails: the same failure with every continuation. -/
example (face : PushFace fo.F) (more : List UInt8) :
    readFromObj ft face b (ascii "v 1\n" ++ more) = readObjFrom ft face b ⟨ascii "v 1\n", [], true⟩ ∨
      readObjFrom ft face b ⟨ascii "v 1\n", [], true⟩ = .err .device := by
  rcases C71_failing_reader ft b face (ascii "v 1\n") [] with h | ⟨-, h⟩
  · exact .inr h
  · exact .inl (h more)

theorem cuts_one : Lossless fun t => [t] := fun t => by simp

theorem cuts_bytes : Lossless fun t => t.map fun c => [c] := by
  intro t
  induction t with
  | nil => rfl
  | cons c t ih => simpa using ih

/-- Text written byte by byte to a target with room for ten. -/
example : (writeObjTo ft b (fun t => t.map fun c => [c]) [(Mesh.empty, ascii "cube"), (Mesh.empty, ascii "ball")] ⟨[], some 10, [3]⟩) =
    (.err .device, (writeObjTo ft b (fun t => t.map fun c => [c]) [(Mesh.empty, ascii "cube"), (Mesh.empty, ascii "ball")] ⟨[], some 10, [3]⟩).2) ∧
    (writeObjTo ft b (fun t => t.map fun c => [c]) [(Mesh.empty, ascii "cube"), (Mesh.empty, ascii "ball")] ⟨[], some 10, [3]⟩).2.data =
      ascii "s 1\no cube" := by
  have h : writeObj ft b [(Mesh.empty, ascii "cube"), (Mesh.empty, ascii "ball")] = .ok (ascii "s 1\no cube\no ball\n") := by
    cases b <;> rfl
  obtain ⟨h1, h2⟩ := C70_failing_target ft b cuts_bytes h 10 [3]
  exact ⟨Prod.ext h2 rfl, h1⟩

/-- A mesh with normal indices only is refused after its name was written. -/
example : ∃ t, writeObj ft b [(Mesh.empty, ascii "a"), (Mesh.empty, ascii "b")] = .ok t ∧
    (writeObjTo ft b (fun t => [t]) [(Mesh.empty, ascii "a"), ({ (Mesh.empty : Mesh fo.F) with normalTriangles := some [0] }, ascii "b")]
      ⟨[], none, []⟩).1 = .err .other ∧
    (writeObjTo ft b (fun t => [t]) [(Mesh.empty, ascii "a"), ({ (Mesh.empty : Mesh fo.F) with normalTriangles := some [0] }, ascii "b")]
      ⟨[], none, []⟩).2.data = t :=
  C70_refused ft b cuts_one (pre := [(Mesh.empty, ascii "a")]) (post := []) (text := ascii "s 1\no a\n")
    (m := { (Mesh.empty : Mesh fo.F) with normalTriangles := some [0] }) (by cases b <;> rfl) (.inl (by simp)) []

example (s : Sink) (h : (writeObjTo ft b (fun t => [t]) [(Mesh.empty, ascii "a")] s).1 = .ok ()) :
    (writeObjTo ft b (fun t => [t]) [(Mesh.empty, ascii "a")] s).2.data = s.data ++ ascii "s 1\no a\n" := by
  obtain ⟨t, ht, e⟩ := C70_success ft b cuts_one _ s h
  have : writeObj ft b [((Mesh.empty : Mesh fo.F), ascii "a")] = .ok (ascii "s 1\no a\n") := by cases b <;> rfl
  rw [this] at ht
  cases ht
  exact e

end Tmf.Props
