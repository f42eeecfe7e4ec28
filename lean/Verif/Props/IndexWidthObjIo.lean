import Verif.Lemmas.IndexWidthObjIo
import Verif.Props.IndexWidthObj
import Verif.Props.ObjIo
/-
C73: .obj text with readers and targets that fail, for other types of indices.
-/

namespace Tmf.Props

open Tmf Tmf.Spec

variable {fo : FloatOps} (w : Nat) (ft : FloatText fo) (b : Build)

/-- C73: `write_obj` of an acceptable scene, with room for `k` bytes, however the text is cut into writes and
however the target splits them: it fails with the error of the target exactly if the text is longer than `k` bytes,
and the target holds the first `k` bytes of the text. -/
theorem C73_failing_target {pieces : List UInt8 → List (List UInt8)} (hp : Lossless pieces) {meshes : List (Mesh fo.F × List UInt8)}
    {text : List UInt8} (h : writeObjIn w ft b meshes = .ok text) (k : Nat) (sched : List Nat) :
    (writeObjToIn w ft b pieces meshes ⟨[], some k, sched⟩).2.data = text.take k ∧
      (writeObjToIn w ft b pieces meshes ⟨[], some k, sched⟩).1 = if k < text.length then .err .device else .ok () := by
  have ho := writeObjOutIn_out w ft b meshes
  rw [h, TextOut.out, Outcome.bind_ok, Outcome.bind_eq_ok] at ho
  obtain ⟨u, hr, e⟩ := ho
  simp only [Outcome.ok.injEq, Prod.mk.injEq] at e
  obtain ⟨-, rfl⟩ := e
  obtain ⟨ha, h1, h2⟩ := (writeObjOutIn w ft b meshes).runBuffered_spec hp ⟨[], some k, sched⟩
  refine ⟨by simpa [writeObjToIn] using ha.data, ?_⟩
  rw [writeObjToIn]
  split
  · next hk =>
    rcases h2 (fun hc => by have := hc k rfl; omega) with e | ⟨e, -⟩
    · exact e
    · exact absurd hr e
  · next hk => rw [h1 (fun k' hk' => by cases hk'; omega), hr]

/-- C73: success is only reported if the scene is acceptable and its whole text has arrived. -/
theorem C73_success {pieces : List UInt8 → List (List UInt8)} (hp : Lossless pieces) (meshes : List (Mesh fo.F × List UInt8)) (s : Sink)
    (h : (writeObjToIn w ft b pieces meshes s).1 = .ok ()) :
    ∃ text, writeObjIn w ft b meshes = .ok text ∧ (writeObjToIn w ft b pieces meshes s).2.data = s.data ++ text := by
  obtain ⟨ha, h1, h2⟩ := (writeObjOutIn w ft b meshes).runBuffered_spec hp s
  rw [writeObjToIn] at h ⊢
  have hf : s.fits (writeObjOutIn w ft b meshes).texts.flatten.length := by
    refine Classical.byContradiction fun hf => ?_
    rcases h2 hf with e | ⟨e1, e2⟩
    · rw [e] at h; cases h
    · rw [h] at e2; exact e1 e2.symm
  rw [h1 hf] at h
  have ho := writeObjOutIn_out w ft b meshes
  rw [TextOut.out, h, Outcome.bind_ok] at ho
  obtain ⟨t, ht, e⟩ := Outcome.bind_eq_ok.mp ho.symm
  simp only [Outcome.ok.injEq, Prod.mk.injEq, true_and] at e
  refine ⟨t, ht, ?_⟩
  rw [ha.data, ← e]
  cases hr : s.room with
  | none => rfl
  | some k => simp only; rw [List.take_of_length_le (e ▸ hf k hr)]

/-- A target with unlimited room sees the end of the computation itself. -/
theorem C73_unlimited {pieces : List UInt8 → List (List UInt8)} (hp : Lossless pieces) (meshes : List (Mesh fo.F × List UInt8)) (sched : List Nat) :
    (writeObjToIn w ft b pieces meshes ⟨[], none, sched⟩).1 = writeObjIn w ft b meshes >>= fun _ => .ok () := by
  obtain ⟨-, h1, -⟩ := (writeObjOutIn w ft b meshes).runBuffered_spec hp ⟨[], none, sched⟩
  rw [writeObjToIn, h1 (fun k hk => by cases hk)]
  have ho := writeObjOutIn_out w ft b meshes
  rw [TextOut.out] at ho
  cases hr : (writeObjOutIn w ft b meshes).result with
  | ok u =>
    rw [hr, Outcome.bind_ok] at ho
    obtain ⟨t, ht, -⟩ := Outcome.bind_eq_ok.mp ho.symm
    rw [ht]
    rfl
  | err e =>
    rw [hr] at ho
    cases hw : writeObjIn w ft b meshes with
    | ok t => rw [hw] at ho; cases ho
    | err e' => rw [hw] at ho; cases ho; rfl
    | panic => rw [hw] at ho; cases ho
  | panic =>
    rw [hr] at ho
    cases hw : writeObjIn w ft b meshes with
    | ok t => rw [hw] at ho; cases ho
    | err e' => rw [hw] at ho; cases ho
    | panic => rfl

/-- C73: when a mesh is refused, the target already holds the text of all meshes before it and the elements of the
refused one. That text is the complete file of another scene: the one that ends with the refused mesh, without its
faces. -/
theorem C73_refused {w : Nat} (hw : 0 < w) {pieces : List UInt8 → List (List UInt8)} (hp : Lossless pieces) {pre post : List (Mesh fo.F × List UInt8)}
    {m : Mesh fo.F} {name text : List UInt8} (hpre : writeObjIn w ft b pre = .ok text) (hm : Mismatched m) (sched : List Nat) :
    ∃ t, writeObjIn w ft b (pre ++ [(withoutFaces m, name)]) = .ok t ∧
      (writeObjToIn w ft b pieces (pre ++ (m, name) :: post) ⟨[], none, sched⟩).1 = .err .other ∧
      (writeObjToIn w ft b pieces (pre ++ (m, name) :: post) ⟨[], none, sched⟩).2.data = t := by
  have h1w : 1 < 2 ^ w := Nat.one_lt_two_pow (by omega)
  rw [writeObjIn, Outcome.bind_eq_ok] at hpre
  obtain ⟨t0, h0, -⟩ := hpre
  obtain ⟨t, ht, hf, hr⟩ := writeObjLoopOutIn_refused w ft b m name hm post pre (1, 1, 1) h1w h1w h1w h0
  obtain ⟨ha, h1, -⟩ := (writeObjOutIn w ft b (pre ++ (m, name) :: post)).runBuffered_spec hp ⟨[], none, sched⟩
  have hout : writeObjOutIn w ft b (pre ++ (m, name) :: post) =
      ⟨[ascii "s 1\n"] ++ (writeObjLoopOutIn w ft b (pre ++ (m, name) :: post) (1, 1, 1)).texts,
        (writeObjLoopOutIn w ft b (pre ++ (m, name) :: post) (1, 1, 1)).result⟩ := rfl
  refine ⟨ascii "s 1\n" ++ t, by rw [writeObjIn, ht]; rfl, ?_, ?_⟩
  · rw [writeObjToIn, h1 (fun k hk => by cases hk), hout, hr]
  · rw [writeObjToIn, ha.data, hout, List.flatten_append, hf]
    rfl

/-- C73: reading .obj text does not depend on how the reader delivers it. -/
theorem C73_chunk_independent (face : PushFace fo.F) (bytes : List UInt8) (sched : List Nat) :
    readObjFromIn w ft face b ⟨bytes, sched, false⟩ = readFromObjIn w ft face b bytes :=
  readObjLinesIn_eq w ft face b _ ⟨[], ⟨bytes, sched, false⟩⟩ .new (Nat.lt_succ_self _) rfl

/-- C73: a reader that fails is never taken for the end of the text: the result is the error of the reader, or a
failure that every text with this beginning would give. -/
theorem C73_failing_reader (face : PushFace fo.F) (bytes : List UInt8) (sched : List Nat) :
    readObjFromIn w ft face b ⟨bytes, sched, true⟩ = .err .device ∨
      (∀ out, readObjFromIn w ft face b ⟨bytes, sched, true⟩ ≠ .ok out) ∧
      ∀ more, readFromObjIn w ft face b (bytes ++ more) = readObjFromIn w ft face b ⟨bytes, sched, true⟩ :=
  readObjLinesIn_broken w ft face b _ ⟨[], ⟨bytes, sched, true⟩⟩ .new (Nat.lt_succ_self _) rfl

/-- C73: in particular it never gives meshes. -/
theorem C73_no_meshes (face : PushFace fo.F) (bytes : List UInt8) (sched : List Nat) (out : List (Mesh fo.F × List UInt8)) :
    readObjFromIn w ft face b ⟨bytes, sched, true⟩ ≠ .ok out := by
  rcases C73_failing_reader w ft b face bytes sched with h | ⟨h, -⟩
  · rw [h]; simp
  · exact h out

omit w in
/-- C73: with 32 bits readers and targets see what they see in the default build. -/
theorem C73_streams_default (face : PushFace fo.F) (s : Source) (pieces : List UInt8 → List (List UInt8))
    (meshes : List (Mesh fo.F × List UInt8)) (t : Sink) :
    readObjFromIn 32 ft face b s = readObjFrom ft face b s ∧ writeObjToIn 32 ft b pieces meshes t = writeObjTo ft b pieces meshes t :=
  ⟨readObjLinesIn_default ft b face _ _ _, by rw [writeObjToIn, writeObjTo, writeObjOutIn_default]⟩

omit w in
/-- C73: a target with room for `n` bytes holds the same text, and the call ends in the same way, with all types that can
number the elements of the scene. -/
theorem C73_target_same {j k : Nat} {pieces pieces' : List UInt8 → List (List UInt8)} (hp : Lossless pieces) (hp' : Lossless pieces')
    {meshes : List (Mesh fo.F × List UInt8)} (hi : ∀ mn ∈ meshes, IndicesInside mn.1) (hj : FitsIn j meshes) (hk : FitsIn k meshes)
    {text : List UInt8} (h : writeObjIn k ft b meshes = .ok text) (n : Nat) (sched sched' : List Nat) :
    (writeObjToIn j ft b pieces meshes ⟨[], some n, sched⟩).1 = (writeObjToIn k ft b pieces' meshes ⟨[], some n, sched'⟩).1 ∧
      (writeObjToIn j ft b pieces meshes ⟨[], some n, sched⟩).2.data = (writeObjToIn k ft b pieces' meshes ⟨[], some n, sched'⟩).2.data := by
  obtain ⟨a1, a2⟩ := C73_failing_target j ft b hp ((C73_export ft b hi hj hk).trans h) n sched
  obtain ⟨b1, b2⟩ := C73_failing_target k ft b hp' h n sched'
  exact ⟨a2.trans b2.symm, a1.trans b1.symm⟩

omit w in
/-- C73: readers that deliver the same text give the same meshes with all types that hold its numbers. -/
theorem C73_reader_same {j k : Nat} {face : PushFace fo.F} (hf : AddsIndices face) {text : List UInt8} (hj : NumbersIn j text)
    (hk : NumbersIn k text) (lj : LinesIn j text) (lk : LinesIn k text) (sched sched' : List Nat) :
    readObjFromIn j ft face b ⟨text, sched, false⟩ = readObjFromIn k ft face b ⟨text, sched', false⟩ := by
  rw [C73_chunk_independent, C73_chunk_independent, C73_import_same ft hf b hj hk lj lk]

/-! ### Examples -/

omit w in
/-- Sixteen bits and a reader that hands out one byte at a time. -/
example (face : PushFace fo.F) : readObjFromIn 16 ft face b ⟨ascii "o a\no b\n", List.replicate 8 1, false⟩ =
    readFromObjIn 16 ft face b (ascii "o a\no b\n") := C73_chunk_independent 16 ft b face _ _

omit w in
/-- 64 bits and a reader that fails. -/
example (face : PushFace fo.F) : readObjFromIn 64 ft face b ⟨ascii "# x\n# y", [2, 1], true⟩ = .err .device := by
  rcases C73_failing_reader 64 ft b face (ascii "# x\n# y") [2, 1] with h | ⟨h, h'⟩
  · exact h
  · have ht : textLines (ascii "# x\n# y" ++ []) = [ascii "# x", ascii "# y"] := by decide +kernel
    refine absurd (h' []).symm (fun e => ?_)
    rw [readFromObjIn, ht] at e
    exact h _ (e.trans rfl)

omit w in
/-- Text written byte by byte to a target with room for ten. -/
example : (writeObjToIn 16 ft b (fun t => t.map fun c => [c]) [(Mesh.empty, ascii "cube"), (Mesh.empty, ascii "ball")] ⟨[], some 10, [3]⟩).2.data =
      ascii "s 1\no cube" := by
  have h : writeObjIn 16 ft b [(Mesh.empty, ascii "cube"), (Mesh.empty, ascii "ball")] = .ok (ascii "s 1\no cube\no ball\n") := by
    cases b <;> rfl
  exact (C73_failing_target 16 ft b cuts_bytes h 10 [3]).1

omit w in
/-- A mesh with normal indices only is refused after its name was written. -/
example : ∃ t, writeObjIn 16 ft b [(Mesh.empty, ascii "a"), (Mesh.empty, ascii "b")] = .ok t ∧
    (writeObjToIn 16 ft b (fun t => [t]) [(Mesh.empty, ascii "a"), ({ (Mesh.empty : Mesh fo.F) with normalTriangles := some [0] }, ascii "b")]
      ⟨[], none, []⟩).1 = .err .other ∧
    (writeObjToIn 16 ft b (fun t => [t]) [(Mesh.empty, ascii "a"), ({ (Mesh.empty : Mesh fo.F) with normalTriangles := some [0] }, ascii "b")]
      ⟨[], none, []⟩).2.data = t :=
  C73_refused ft b (by decide) cuts_one (pre := [(Mesh.empty, ascii "a")]) (post := []) (text := ascii "s 1\no a\n")
    (m := { (Mesh.empty : Mesh fo.F) with normalTriangles := some [0] }) (by cases b <;> rfl) (.inl (by simp)) []

/-- Success with any width means that everything has arrived. -/
example (s : Sink) (h : (writeObjToIn w ft b (fun t => [t]) ([] : List (Mesh fo.F × List UInt8)) s).1 = .ok ()) :
    (writeObjToIn w ft b (fun t => [t]) ([] : List (Mesh fo.F × List UInt8)) s).2.data = s.data ++ ascii "s 1\n" := by
  obtain ⟨t, ht, e⟩ := C73_success w ft b cuts_one _ s h
  cases ht
  exact e

omit w in
/-- Three vertices and a target with room for twenty bytes, with 16 and 32 bits. -/
example (x y z : Vec3 fo.F) (name : List UInt8) :
    (writeObjToIn 16 ft .wrapping (fun t => [t]) [(onlyVertices [x, y, z] [0, 2, 1], name)] ⟨[], some 20, []⟩).2.data =
      (writeObjToIn 32 ft .wrapping (fun t => t.map fun c => [c]) [(onlyVertices [x, y, z] [0, 2, 1], name)] ⟨[], some 20, [1, 2]⟩).2.data := by
  have hf : ∀ k, 8 ≤ 2 ^ k → FitsIn k [(onlyVertices [x, y, z] [0, 2, 1], name)] := fun k hk =>
    ⟨show 1 + (3 + 0) < 2 ^ k by omega, show 1 + (0 + 0) < 2 ^ k by omega, show 1 + (0 + 0) < 2 ^ k by omega⟩
  have hi : ∀ mn ∈ [(onlyVertices [x, y, z] [0, 2, 1], name)], IndicesInside mn.1 := by
    intro mn h
    rcases List.mem_singleton.mp h with rfl
    refine ⟨?_, (by rintro t ⟨⟩), (by rintro t ⟨⟩)⟩
    rintro t ⟨rfl⟩
    show ∀ i ∈ [0, 2, 1], i < 3
    decide
  exact (C73_target_same ft .wrapping cuts_one cuts_bytes hi (hf 16 (by decide)) (hf 32 (by decide)) rfl 20 [] [1, 2]).2

end Tmf.Props
