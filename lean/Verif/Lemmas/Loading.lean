import Verif.Lemmas.Prog
import Verif.Model.Import
import Verif.Lemmas.Utf8
/-
Reading files laid out as `Spec.fileBytes`.
-/

namespace Tmf
open Spec

variable (fo : FloatOps) (fb : F64Bytes fo) (b : Build)

/-- The import context belonging to a layout. -/
def ctxOf : Layout → ImportCtx
  | .old => ⟨false, false⟩
  | .new => ⟨true, true⟩

/-- The known compression codes. -/
def compOf (n : Nat) : CompressionType :=
  if n = 0 then .none else if n = 1 then .ommited else if n = 2 then .unalignedLZZ else .sequence

/-- The segment the reader sees. -/
def encodedOf (s : RawSeg) : EncodedSegment := ⟨SectionType.fromU16 s.kind, compOf s.comp, s.data⟩

/-- The mesh the reader returns for raw segments. -/
def rawMesh (L : Layout) (m : RawMesh) : Outcome ImportError (Mesh fo.F × List UInt8) := do
  let mesh ← assembleMesh fo fb b (ctxOf L).decode (m.segs.map encodedOf)
  .ok (mesh, m.name)

theorem ofMinMinor_eq {k : Nat} : ImportCtx.ofMinMinor k = ctxOf (layoutOf k) := by
  unfold ImportCtx.ofMinMinor layoutOf ctxOf
  by_cases h : k ≤ 1
  · simp [h, Nat.not_lt.mpr h]
  · simp [h, Nat.lt_of_not_le h]

theorem fromU8_eq_fromU16 {n : Nat} (h : n < 256) : SectionType.fromU8 n = SectionType.fromU16 n := by
  unfold SectionType.fromU16
  rw [if_neg (by omega)]

def kindBytes (L : Layout) (kind : Nat) : List UInt8 := match L with | .old => leBytes 2 kind | .new => leBytes 1 kind
def lenBytes (L : Layout) (len : Nat) : List UInt8 := match L with | .old => leBytes 8 len | .new => leBytes 4 len
theorem readType_ok {L : Layout} {kind : Nat} (h : KindFits L kind) (rest : List UInt8) :
    (ctxOf L).readType.runSlice (kindBytes L kind ++ rest) =
      .ok (SectionType.fromU16 kind, rest) := by
  cases L
  · simp only [ImportCtx.readType, ctxOf, kindBytes, Bool.false_eq_true, if_false]
    rw [Prog.runSlice_bind, Prog.runSlice_readU16 _ h]
    rfl
  · simp only [ImportCtx.readType, ctxOf, kindBytes, if_true]
    rw [Prog.runSlice_bind, Prog.runSlice_readU8 _ h]
    simp [fromU8_eq_fromU16 (show kind < 256 from h)]

theorem readLength_ok {L : Layout} {len : Nat} (h : LenFits L len)
    (rest : List UInt8) :
    (ctxOf L).readLength.runSlice (lenBytes L len ++ rest) =
      .ok (len, rest) := by
  cases L
  · exact Prog.runSlice_readU64 _ h rest
  · exact Prog.runSlice_readU32 _ h rest

theorem segHead_eq (L : Layout) (kind len comp : Nat) : segHead L kind len comp =
    kindBytes L kind ++
    (lenBytes L len ++ leBytes 1 comp) := by
  cases L <;> simp [segHead, kindBytes, lenBytes]

theorem readSegment_too_long {L : Layout} {kind len : Nat} (hk : KindFits L kind)
    (hlen : LenFits L len) (h : 2 ^ 31 < len) (comp : Nat)
    (rest : List UInt8) :
    (readSegment (ctxOf L)).runSlice (segHead L kind len comp ++ rest) = .err .segmentTooLong := by
  rw [segHead_eq, List.append_assoc, List.append_assoc, readSegment, Prog.runSlice_bind, readType_ok hk]
  simp only [Outcome.bind_ok]
  rw [Prog.runSlice_bind, readLength_ok hlen]
  simp only [Outcome.bind_ok]
  rw [if_pos (by unfold MAX_SEG_SIZE; omega)]
  rfl

theorem readSegment_comp {L : Layout} {kind len comp : Nat} (hk : KindFits L kind)
    (h : len ≤ 2 ^ 31) (hc : comp < 256) (rest : List UInt8) :
    (readSegment (ctxOf L)).runSlice (segHead L kind len comp ++ rest) =
      CompressionType.fromU8 comp >>= fun c => (Prog.readBytes len).runSlice rest >>= fun x =>
        .ok (⟨SectionType.fromU16 kind, c, x.1⟩, x.2) := by
  have hlen : LenFits L len := by cases L <;> dsimp only [LenFits] <;> omega
  rw [segHead_eq, List.append_assoc, List.append_assoc, readSegment, Prog.runSlice_bind, readType_ok hk]
  simp only [Outcome.bind_ok]
  rw [Prog.runSlice_bind, readLength_ok hlen]
  simp only [Outcome.bind_ok]
  rw [if_neg (by unfold MAX_SEG_SIZE; omega), Prog.runSlice_bind, Prog.runSlice_readU8 _ hc]
  simp only [Outcome.bind_ok]
  rw [Prog.runSlice_bind]
  cases CompressionType.fromU8 comp
  · simp only [Prog.ofOutcome, Prog.runSlice_ret, Outcome.bind_ok, Prog.runSlice_bind]
    rfl
  · rfl
  · rfl

theorem fromU8_compOf {n : Nat} (h : n = 0 ∨ n = 1 ∨ n = 2 ∨ n = 255) :
    CompressionType.fromU8 n = .ok (compOf n) := by
  rcases h with rfl | rfl | rfl | rfl <;> rfl

theorem readSegment_ok {L : Layout} {s : RawSeg} (h : s.Framed L) (rest : List UInt8) :
    (readSegment (ctxOf L)).runSlice (s.bytes L ++ rest) = .ok (encodedOf s, rest) := by
  rw [RawSeg.bytes, List.append_assoc, readSegment_comp h.kind h.len (by rcases h.comp with h | h | h | h <;> omega),
    fromU8_compOf h.comp]
  simp only [Outcome.bind_ok]
  rw [Prog.runSlice_readBytes]
  rfl

theorem readString_ok {name : List UInt8} (hl : name.length < 2 ^ 16) (hv : validUtf8 name = true)
    (rest : List UInt8) :
    readString.runSlice (leBytes 2 name.length ++ name ++ rest) = .ok (name, rest) := by
  rw [List.append_assoc, readString, Prog.runSlice_bind, Prog.runSlice_readU16 _ hl]
  simp only [Outcome.bind_ok]
  rw [Prog.runSlice_bind, Prog.runSlice_readBytes]
  simp only [Outcome.bind_ok]
  rw [if_pos hv]
  rfl

/-- Reading a list of things one after another, with more to follow. -/
theorem runSlice_replicate {α ι : Type} (p : Prog α) (enc : ι → List UInt8) (val : ι → Outcome ImportError α) :
    ∀ (items : List ι) (n : Nat) (rest : List UInt8),
      (∀ i ∈ items, ∀ rest, p.runSlice (enc i ++ rest) = val i >>= fun v => .ok (v, rest)) →
      (Prog.replicate (items.length + n) p).runSlice (items.flatMap enc ++ rest) =
        Outcome.mapAll val items >>= fun vs => (Prog.replicate n p).runSlice rest >>= fun x =>
          .ok (vs ++ x.1, x.2) := by
  intro items
  induction items with
  | nil =>
    intro n rest _
    simp only [List.length_nil, Nat.zero_add, List.flatMap_nil, List.nil_append, Outcome.mapAll, Outcome.bind_ok]
    cases (Prog.replicate n p).runSlice rest <;> rfl
  | cons i items ih =>
    intro n rest h
    rw [List.length_cons, Nat.add_right_comm, Prog.replicate, Prog.runSlice_bind, List.flatMap_cons,
      List.append_assoc, h i List.mem_cons_self]
    cases hv : val i with
    | err e => simp [Outcome.mapAll, hv]
    | panic => simp [Outcome.mapAll, hv]
    | ok v =>
      simp only [Outcome.bind_ok, Outcome.mapAll, hv]
      rw [Prog.runSlice_bind, ih n rest (fun j hj => h j (List.mem_cons_of_mem _ hj))]
      cases Outcome.mapAll val items with
      | err e => rfl
      | panic => rfl
      | ok vs =>
        simp only [Outcome.bind_ok]
        cases (Prog.replicate n p).runSlice rest <;> rfl

theorem mapAll_ok {ε α β : Type} (f : α → β) (l : List α) :
    Outcome.mapAll (fun a => (.ok (f a) : Outcome ε β)) l = .ok (l.map f) := by
  induction l with
  | nil => rfl
  | cons a l ih => simp [Outcome.mapAll, ih]

/-- Reading framed segments, with more to follow. -/
theorem readSegments_ok {L : Layout} {segs : List RawSeg} (h : ∀ s ∈ segs, s.Framed L) (n : Nat)
    (rest : List UInt8) :
    (Prog.replicate (segs.length + n) (readSegment (ctxOf L))).runSlice (segs.flatMap (RawSeg.bytes L) ++ rest) =
      (Prog.replicate n (readSegment (ctxOf L))).runSlice rest >>= fun x =>
        .ok (segs.map encodedOf ++ x.1, x.2) := by
  rw [runSlice_replicate (readSegment (ctxOf L)) (RawSeg.bytes L) (fun s => .ok (encodedOf s)) segs n rest
    (fun s hs rest => by rw [readSegment_ok (h s hs)]; rfl), mapAll_ok]
  rfl

theorem importMesh_head {L : Layout} {name : List UInt8} (hn : NameOk name) {count : Nat} (hc : count < 2 ^ 16)
    (rest : List UInt8) :
    (importMesh fo fb b (ctxOf L)).runSlice (meshHead name count ++ rest) =
      (Prog.replicate count (readSegment (ctxOf L))).runSlice rest >>= fun x =>
        assembleMesh fo fb b (ctxOf L).decode x.1 >>= fun m => .ok ((m, name), x.2) := by
  rw [importMesh, Prog.runSlice_bind, meshHead, List.append_assoc, readString_ok hn.len (validUtf8_of_isText hn.utf8)]
  simp only [Outcome.bind_ok]
  rw [Prog.runSlice_bind, Prog.runSlice_readU16 _ hc]
  simp only [Outcome.bind_ok]
  rw [Prog.runSlice_bind]
  congr 1
  funext x
  rw [Prog.runSlice_bind]
  cases assembleMesh fo fb b (ctxOf L).decode x.1 <;> rfl

theorem importMesh_ok {L : Layout} {m : RawMesh} (h : RawMesh.Framed L m) (rest : List UInt8) :
    (importMesh fo fb b (ctxOf L)).runSlice (m.bytes L ++ rest) =
      rawMesh fo fb b L m >>= fun v => .ok (v, rest) := by
  rw [RawMesh.bytes, List.append_assoc, importMesh_head fo fb b h.name h.count]
  have := readSegments_ok h.segs 0 rest
  rw [Nat.add_zero] at this
  rw [this, rawMesh]
  simp only [Prog.replicate, Prog.pure_eq, Prog.runSlice_ret, Outcome.bind_ok, List.append_nil]
  cases assembleMesh fo fb b (ctxOf L).decode (m.segs.map encodedOf) <;> rfl

theorem runSlice_readU16_raw {l : List UInt8} (h : l.length = 2) (rest : List UInt8) :
    Prog.readU16.runSlice (l ++ rest) = .ok (leNat l, rest) := by
  rw [Prog.readU16, Prog.runSlice_readExact_append _ h]; rfl

theorem readHeader_eq {minMajor minMinor : Nat} (h1 : minMajor < 2 ^ 16) (h2 : minMinor < 2 ^ 16)
    (major minor : List UInt8) (hM : major.length = 2) (hm : minor.length = 2) (rest : List UInt8) :
    readHeader.runSlice ([84, 77, 70] ++ major ++ minor ++ leBytes 2 minMajor ++ leBytes 2 minMinor ++ rest) =
      if minMajor > 0 ∨ minMinor > 2 then .err .newerVersionRequired
      else .ok (ctxOf (layoutOf minMinor), rest) := by
  rw [← ofMinMinor_eq]
  simp only [readHeader, List.append_assoc]
  rw [Prog.runSlice_bind, Prog.readBytes,
    Prog.runSlice_readExact_append (n := 3) (l := [84, 77, 70]) _ (by decide)]
  simp only [Prog.runSlice_ret, Outcome.bind_ok, magic, ne_eq, not_true_eq_false, if_false]
  rw [Prog.runSlice_bind, runSlice_readU16_raw hM]
  simp only [Outcome.bind_ok]
  rw [Prog.runSlice_bind, runSlice_readU16_raw hm]
  simp only [Outcome.bind_ok]
  rw [Prog.runSlice_bind, Prog.runSlice_readU16 _ h1]
  simp only [Outcome.bind_ok]
  rw [Prog.runSlice_bind, Prog.runSlice_readU16 _ h2]
  simp only [Outcome.bind_ok]
  by_cases h : minMajor > 0 ∨ minMinor > 2
  · rw [if_pos h, if_pos (by omega)]; rfl
  · rw [if_neg h, if_neg (by omega)]; rfl

theorem readTmf_slice (bytes : List UInt8) (sched : List Nat) :
    readTmf fo fb b ⟨bytes, sched, false⟩ = (importTmf fo fb b).runSlice bytes >>= fun x => .ok x.1 := by
  have := (importTmf fo fb b).run_eq ⟨bytes, sched, false⟩ rfl
  unfold readTmf
  dsimp only at this
  cases h : (importTmf fo fb b).runSlice bytes with
  | ok x => rw [h] at this; obtain ⟨s', e, _⟩ := this; rw [e]; rfl
  | err e => rw [h] at this; rw [this]; rfl
  | panic => rw [h] at this; rw [this]; rfl

/-- Some framed meshes, more to follow. -/
theorem importTmf_partial {minMinor : Nat} (h2 : minMinor ≤ 2) {meshes : List RawMesh}
    (h : ∀ m ∈ meshes, RawMesh.Framed (layoutOf minMinor) m) {n : Nat} (hn : meshes.length + n < 2 ^ 32)
    (rest : List UInt8) :
    (importTmf fo fb b).runSlice (fileHead 0 minMinor (meshes.length + n) ++
        (meshes.flatMap (RawMesh.bytes (layoutOf minMinor)) ++ rest)) =
      Outcome.mapAll (rawMesh fo fb b (layoutOf minMinor)) meshes >>= fun vs =>
        (Prog.replicate n (importMesh fo fb b (ctxOf (layoutOf minMinor)))).runSlice rest >>= fun x =>
          .ok (vs ++ x.1, x.2) := by
  rw [importTmf, Prog.runSlice_bind, fileHead, List.append_assoc _ (leBytes 4 _),
    readHeader_eq (by omega) (by omega) _ _ (by simp) (by simp), if_neg (by omega)]
  simp only [Outcome.bind_ok]
  rw [Prog.runSlice_bind, Prog.runSlice_readU32 _ hn]
  simp only [Outcome.bind_ok]
  exact runSlice_replicate _ _ _ meshes n rest (fun m hm rest => importMesh_ok fo fb b (h m hm) rest)

theorem importTmf_file {minMinor : Nat} (h2 : minMinor ≤ 2) {meshes : List RawMesh}
    (h : ∀ m ∈ meshes, RawMesh.Framed (layoutOf minMinor) m) (hn : meshes.length < 2 ^ 32)
    (junk : List UInt8) :
    (importTmf fo fb b).runSlice (fileBytes minMinor meshes ++ junk) =
      Outcome.mapAll (rawMesh fo fb b (layoutOf minMinor)) meshes >>= fun vs => .ok (vs, junk) := by
  have := importTmf_partial fo fb b h2 h (n := 0) (by simpa using hn) junk
  rw [fileBytes, List.append_assoc]
  rw [Nat.add_zero] at this
  rw [this]
  simp [Prog.replicate]

theorem readTmf_file {minMinor : Nat} (h2 : minMinor ≤ 2) {meshes : List RawMesh}
    (h : ∀ m ∈ meshes, RawMesh.Framed (layoutOf minMinor) m) (hn : meshes.length < 2 ^ 32)
    (junk : List UInt8) (sched : List Nat) :
    readTmf fo fb b ⟨fileBytes minMinor meshes ++ junk, sched, false⟩ =
      Outcome.mapAll (rawMesh fo fb b (layoutOf minMinor)) meshes := by
  rw [readTmf_slice, importTmf_file fo fb b h2 h hn]
  cases Outcome.mapAll (rawMesh fo fb b (layoutOf minMinor)) meshes <;> rfl

end Tmf
