import Verif.Lemmas.FastNormal
import Verif.Lemmas.F64Bits
import Verif.Lemmas.Prog
import Verif.Model.Import
import Verif.Spec.RoundTrip
/-
Files written and read by a build with the feature `fast_trig`, against one without it.
-/

namespace Tmf
open Ieee Spec

/-! ### Writing -/

theorem vertexBox_fast (lib : Libm) (l : List (Vec3 (Val b32))) : vertexBox (ops (fastLibm lib)) l = vertexBox (ops lib) l := by
  cases l <;> rfl

theorem saveVertices_fast (lib : Libm) (b : Build) (l : List (Vec3 (Val b32))) (p e : Val b32) :
    saveVertices (ops (fastLibm lib)) (f64Le (fastLibm lib)) b l p e = saveVertices (ops lib) (f64Le lib) b l p e := by
  rw [saveVertices, saveVertices, vertexBox_fast]
  rfl

theorem customWrite_fast (lib : Libm) (b : Build) (d : CustomData (Val b32)) :
    CustomData.write (ops (fastLibm lib)) (f64Le (fastLibm lib)) b d = CustomData.write (ops lib) (f64Le lib) b d := by
  cases d <;> rfl

theorem encode_fast (lib : Libm) (b : Build) (prec : PrecisionInfo (Val b32)) (e : Val b32) (s : DecodedSegment (Val b32)) :
    DecodedSegment.encode (ops (fastLibm lib)) (f64Le (fastLibm lib)) b prec e s =
      DecodedSegment.encode (ops lib) (f64Le lib) b prec e s := by
  cases s with
  | vertex l => rw [DecodedSegment.encode, DecodedSegment.encode, saveVertices_fast]
  | custom seg => rw [DecodedSegment.encode, DecodedSegment.encode, CustomSeg.encode, CustomSeg.encode, customWrite_fast]
  | _ => rfl

theorem vertexScan_fast (lib : Libm) (b : Build) (edge : Val b32) (total : Nat) : ∀ (l : List (Vec3 (Val b32))) (i : Nat)
    (span : Span (Val b32)) (bits : Nat) (best : Best),
    vertexScan (ops (fastLibm lib)) b edge total i span bits l best = vertexScan (ops lib) b edge total i span bits l best
  | [], _, _, _, _ => rfl
  | v :: l, i, span, bits, best => by
    rw [vertexScan, vertexScan]
    simp only [vertexScan_fast lib b edge total l]
    rfl

theorem findBestVertexSplit_fast (lib : Libm) (b : Build) (l : List (Vec3 (Val b32))) (e : Val b32) :
    findBestVertexSplit (ops (fastLibm lib)) b l e = findBestVertexSplit (ops lib) b l e := by
  rw [findBestVertexSplit, findBestVertexSplit]
  simp only [vertexScan_fast]
  rfl

theorem optVerticesFuel_fast (lib : Libm) (b : Build) : ∀ (n : Nat) (l : List (Vec3 (Val b32))),
    optVerticesFuel (ops (fastLibm lib)) b n l = optVerticesFuel (ops lib) b n l
  | 0, _ => rfl
  | n + 1, l => by
    rw [optVerticesFuel, optVerticesFuel]
    simp only [optVerticesFuel_fast lib b n, findBestVertexSplit_fast]

theorem optimize_fast (lib : Libm) (b : Build) (s : DecodedSegment (Val b32)) :
    DecodedSegment.optimize (ops (fastLibm lib)) b s = DecodedSegment.optimize (ops lib) b s := by
  cases s with
  | vertex l =>
    rw [DecodedSegment.optimize, DecodedSegment.optimize, optVertices, optVertices, optVerticesFuel_fast]
  | _ => rfl

theorem shortestEdgeLoop_fast (lib : Libm) (v : List (Vec3 (Val b32))) (t : List Nat) (acc : Val b32) :
    shortestEdgeLoop (ops (fastLibm lib)) v t acc = shortestEdgeLoop (ops lib) v t acc := by
  fun_induction shortestEdgeLoop (ops (fastLibm lib)) v t acc with
  | case1 acc i0 i1 i2 rest ih =>
    rw [shortestEdgeLoop]
    simp only [ih]
    rfl
  | case2 => rw [shortestEdgeLoop]; assumption

theorem calcShortestEdge_fast (lib : Libm) (t : Option (List Nat)) (v : Option (List (Vec3 (Val b32)))) :
    calcShortestEdge (ops (fastLibm lib)) t v = calcShortestEdge (ops lib) t v := by
  cases t with
  | none => rfl
  | some t =>
    cases t with
    | nil => rfl
    | cons i t =>
      cases v with
      | none => rfl
      | some v =>
        rw [calcShortestEdge.eq_def, calcShortestEdge.eq_def]
        simp only [shortestEdgeLoop_fast]
        rfl

theorem encodeMesh_fast (lib : Libm) (b : Build) (prec : PrecisionInfo (Val b32)) (m : Mesh (Val b32)) :
    encodeMesh (ops (fastLibm lib)) (f64Le (fastLibm lib)) b prec m = encodeMesh (ops lib) (f64Le lib) b prec m := by
  rw [encodeMesh, encodeMesh, calcShortestEdge_fast]
  have h1 : ∀ e, DecodedSegment.encode (ops (fastLibm lib)) (f64Le (fastLibm lib)) b prec e =
      DecodedSegment.encode (ops lib) (f64Le lib) b prec e := fun e => funext (encode_fast lib b prec e)
  have h2 : DecodedSegment.optimize (ops (fastLibm lib)) b = DecodedSegment.optimize (ops lib) b := funext (optimize_fast lib b)
  simp only [h1, h2]

theorem tmfBytes_fast (lib : Libm) (b : Build) (prec : PrecisionInfo (Val b32)) (meshes : List (Mesh (Val b32) × List UInt8)) :
    tmfBytes (ops (fastLibm lib)) (f64Le (fastLibm lib)) b prec meshes = tmfBytes (ops lib) (f64Le lib) b prec meshes := by
  have h : writeMesh (ops (fastLibm lib)) (f64Le (fastLibm lib)) b prec = writeMesh (ops lib) (f64Le lib) b prec := by
    funext mn
    rw [writeMesh, writeMesh, encodeMesh_fast]
  rw [tmfBytes, tmfBytes, writeTmf, writeTmf, h]

theorem low_fast {lib : Libm} {b : Build} {prec : PrecisionInfo (Val b32)} {m : Mesh (Val b32)} (h : Low (ops lib) b prec m) :
    Low (ops (fastLibm lib)) b prec m where
  normals := h.normals
  uvs := h.uvs
  tangents := h.tangents
  custom c hc := by
    have h := h.custom c hc
    generalize c.data = d at h ⊢
    cases d <;> exact h
  vertices l edge pieces piece s hl he ho hp hs := by
    rw [calcShortestEdge_fast] at he
    rw [optVertices, optVerticesFuel_fast] at ho
    rw [vertexBox_fast] at hs
    exact h.vertices l edge pieces piece s hl he ho hp hs

theorem limits_fast {lib : Libm} {b : Build} {prec : PrecisionInfo (Val b32)} {meshes : List (Mesh (Val b32) × List UInt8)}
    (h : LimitsLow (ops lib) (f64Le lib) b prec meshes) : LimitsLow (ops (fastLibm lib)) (f64Le (fastLibm lib)) b prec meshes where
  count := h.count
  names := h.names
  fits := h.fits
  segments mn hm segs hs := h.segments mn hm segs ((encodeMesh_fast lib b prec mn.1).symm.trans hs)
  low := h.low.imp id fun h mn hm => low_fast (h mn hm)

/-! ### Reading -/

namespace Spec

theorem Both.bind {ε α β α' β' : Type} {R : α → β → Prop} {S : α' → β' → Prop} {x : Outcome ε α} {y : Outcome ε β}
    {f : α → Outcome ε α'} {g : β → Outcome ε β'} (h : Both R x y) (hf : ∀ a b, R a b → Both S (f a) (g b)) :
    Both S (x >>= f) (y >>= g) := by
  cases h with
  | ok h => exact hf _ _ h
  | err => exact .err
  | panic => exact .panic

theorem Both.refl {ε α : Type} {R : α → α → Prop} (x : Outcome ε α) (h : ∀ a, x = .ok a → R a a) : Both R x x := by
  cases x with
  | ok a => exact .ok (h a rfl)
  | err e => exact .err
  | panic => exact .panic

theorem Both.of_eq {ε α : Type} {R : α → α → Prop} (hR : ∀ a, R a a) {x y : Outcome ε α} (h : x = y) : Both R x y := by
  subst h
  exact Both.refl _ fun a _ => hR a

/-- Reading the same entries twice, with decoders that differ. -/
theorem Both.many {α β : Type} {R : α → β → Prop} {f : BitReader → Outcome ImportError (α × BitReader)}
    {g : BitReader → Outcome ImportError (β × BitReader)}
    (h : ∀ r : BitReader, r.Inv → Both (fun x y => R x.1 y.1 ∧ x.2 = y.2 ∧ x.2.Inv) (f r) (g r)) : ∀ (n : Nat) (r : BitReader), r.Inv →
    Both (fun x y => List.Forall₂ R x.1 y.1 ∧ x.2 = y.2 ∧ x.2.Inv) (readMany f n r) (readMany g n r)
  | 0, r, hr => .ok ⟨.nil, rfl, hr⟩
  | n + 1, r, hr => by
    rw [readMany, readMany]
    refine (h r hr).bind fun a b hab => ?_
    obtain ⟨a, r1⟩ := a
    obtain ⟨b, r2⟩ := b
    obtain ⟨hab, he, hi⟩ := hab
    dsimp only at hab he hi
    subst he
    refine (Both.many h n _ hi).bind fun l l' hl => ?_
    obtain ⟨l, r1⟩ := l
    obtain ⟨l', r2⟩ := l'
    obtain ⟨hl, he, hi⟩ := hl
    dsimp only at hl he hi
    subst he
    exact .ok ⟨.cons hab hl, rfl, hi⟩

/-- One step of reading that both do alike. -/
theorem Both.step {α : Type} {P : α → Prop} {x : Outcome ImportError (α × BitReader)} (h : ReadGood P x) :
    Both (fun a b => a = b ∧ P a.1 ∧ a.2.Inv) x x := by
  cases x with
  | ok a => exact .ok ⟨rfl, h⟩
  | err e => exact .err
  | panic => exact .panic

end Spec

theorem readNormals_fast {lib : Libm} (hlib : AccurateLibm lib) (bytes : List UInt8) :
    Both (List.Forall₂ FastNear) (readNormals (ops (fastLibm lib)) bytes) (readNormals (ops lib) bytes) := by
  rw [readNormals, readNormals]
  refine (Both.refl (R := fun a c => a = c ∧ readNormalsHeader.runSlice bytes = .ok a) _ fun a ha => ⟨rfl, ha⟩).bind fun a c hac => ?_
  obtain ⟨rfl, ha⟩ := hac
  obtain ⟨⟨n, p⟩, rest⟩ := a
  have hp := (readNormalsHeader_inv ha).1
  refine (Both.many (R := FastNear) (fun r hr => ?_) n _ (BitReader.inv_new _)).bind fun l l' hl => .ok hl.1
  rw [readNormal, readNormal]
  refine (Both.step (BitReader.readBit_good hr)).bind fun a c hac => ?_
  obtain ⟨rfl, -, hr⟩ := hac
  refine (Both.step (BitReader.readBit_good hr)).bind fun a c hac => ?_
  obtain ⟨rfl, -, hr⟩ := hac
  refine (Both.step (BitReader.readBit_good hr)).bind fun a c hac => ?_
  obtain ⟨rfl, -, hr⟩ := hac
  refine (Both.step (BitReader.read2_lt hr _)).bind fun a c hac => ?_
  obtain ⟨rfl, hc, hr⟩ := hac
  exact .ok ⟨fast_encoding_near hlib hp hc.1 hc.2, rfl, hr⟩

theorem htFromBool_fast (lib : Libm) (h : Bool) : htFromBool (ops (fastLibm lib)) h = htFromBool (ops lib) h := by
  rw [htFromBool, htFromBool, FloatOps.one, FloatOps.one, FloatOps.negOne, FloatOps.negOne, ops_litF, ops_negOp]

theorem readTangents_fast {lib : Libm} (hlib : AccurateLibm lib) (bytes : List UInt8) :
    Both (List.Forall₂ fun t t' => FastNear t.1 t'.1 ∧ t.2 = t'.2) (readTangents (ops (fastLibm lib)) bytes)
      (readTangents (ops lib) bytes) := by
  rw [readTangents, readTangents]
  refine (Both.refl (R := fun a c => a = c ∧ readNormalsHeader.runSlice bytes = .ok a) _ fun a ha => ⟨rfl, ha⟩).bind fun a c hac => ?_
  obtain ⟨rfl, ha⟩ := hac
  obtain ⟨⟨n, p⟩, rest⟩ := a
  have hp := (readNormalsHeader_inv ha).1
  refine (Both.many (R := fun t t' => FastNear t.1 t'.1 ∧ t.2 = t'.2) (fun r hr => ?_) n _ (BitReader.inv_new _)).bind
    fun l l' hl => .ok hl.1
  rw [readTangent, readTangent]
  refine (Both.step (BitReader.readBit_good hr)).bind fun a c hac => ?_
  obtain ⟨rfl, -, hr⟩ := hac
  refine (Both.step (BitReader.readBit_good hr)).bind fun a c hac => ?_
  obtain ⟨rfl, -, hr⟩ := hac
  refine (Both.step (BitReader.readBit_good hr)).bind fun a c hac => ?_
  obtain ⟨rfl, -, hr⟩ := hac
  refine (Both.step (BitReader.readBit_good hr)).bind fun a c hac => ?_
  obtain ⟨rfl, -, hr⟩ := hac
  refine (Both.step (BitReader.read_lt hr _)).bind fun a c hac => ?_
  obtain ⟨rfl, h1, hr⟩ := hac
  refine (Both.step (BitReader.read_lt hr _)).bind fun a c hac => ?_
  obtain ⟨rfl, h2, hr⟩ := hac
  exact .ok ⟨⟨fast_encoding_near hlib hp h1 h2, htFromBool_fast lib _⟩, rfl, hr⟩

/-- Decoded segments that are the same, or normals or tangents that are nearly the same. -/
inductive FastSeg : DecodedSegment (Val b32) → DecodedSegment (Val b32) → Prop
  | same (s) : FastSeg s s
  | normal {l l'} (h : List.Forall₂ FastNear l l') : FastSeg (.normal l) (.normal l')
  | tangent {l l'} (h : List.Forall₂ (fun t t' => FastNear t.1 t'.1 ∧ t.2 = t'.2) l l') : FastSeg (.tangent l) (.tangent l')

theorem readVertices_fast (lib : Libm) (bytes : List UInt8) :
    readVertices (ops (fastLibm lib)) (f64Le (fastLibm lib)) bytes = readVertices (ops lib) (f64Le lib) bytes := rfl

theorem readUvs_fast (lib : Libm) (bytes : List UInt8) : readUvs (ops (fastLibm lib)) bytes = readUvs (ops lib) bytes := rfl

theorem customRead_fast (lib : Libm) (b : Build) (ctx : DecodeCtx) (kind : SectionType) (bytes : List UInt8) :
    CustomSeg.read (ops (fastLibm lib)) (f64Le (fastLibm lib)) b ctx kind bytes =
      CustomSeg.read (ops lib) (f64Le lib) b ctx kind bytes := by
  cases kind <;> rfl

theorem decode_fast {lib : Libm} (hlib : AccurateLibm lib) (b : Build) (ctx : DecodeCtx) (seg : EncodedSegment) :
    Both FastSeg (EncodedSegment.decode (ops (fastLibm lib)) (f64Le (fastLibm lib)) b ctx seg)
      (EncodedSegment.decode (ops lib) (f64Le lib) b ctx seg) := by
  rw [EncodedSegment.decode.eq_def, EncodedSegment.decode.eq_def]
  cases seg.segType with
  | normal => exact (readNormals_fast hlib _).bind fun l l' h => .ok (.normal h)
  | tangent => exact (readTangents_fast hlib _).bind fun l l' h => .ok (.tangent h)
  | vertex => exact Both.of_eq .same (by dsimp only; rw [readVertices_fast])
  | uv => exact Both.of_eq .same (by dsimp only; rw [readUvs_fast])
  | customIndex => exact Both.of_eq .same (by dsimp only; rw [customRead_fast])
  | customInteger => exact Both.of_eq .same (by dsimp only; rw [customRead_fast])
  | customFloat => exact Both.of_eq .same (by dsimp only; rw [customRead_fast])
  | customColor => exact Both.of_eq .same (by dsimp only; rw [customRead_fast])
  | _ => exact Both.of_eq .same rfl

theorem FastNear.refl (w : Vec3 (Val b32)) : FastNear w w := by
  refine ⟨rfl, ?_⟩
  rw [chord, length3, sub_self, sub_self, sub_self]
  norm_num

theorem FastMesh.refl (m : Mesh (Val b32)) : FastMesh m m := by
  refine ⟨rfl, rfl, rfl, rfl, rfl, rfl, rfl, ?_, ?_⟩
  · cases m.normals with
    | none => trivial
    | some l => exact List.forall₂_same.mpr fun x _ => FastNear.refl x
  · cases m.tangents with
    | none => trivial
    | some l => exact List.forall₂_same.mpr fun x _ => ⟨FastNear.refl _, rfl⟩

theorem forall₂_append' {α : Type} {R : α → α → Prop} {a b c d : List α} (h : List.Forall₂ R a b) (h' : List.Forall₂ R c d) :
    List.Forall₂ R (a ++ c) (b ++ d) := by
  induction h with
  | nil => exact h'
  | cons h _ ih => exact .cons h ih

theorem apply_fast {m m' : Mesh (Val b32)} {s s' : DecodedSegment (Val b32)} (hm : FastMesh m m') (hs : FastSeg s s') :
    FastMesh (DecodedSegment.apply m s) (DecodedSegment.apply m' s') := by
  obtain ⟨n, nt, v, vt, u, ut, t, tt, c⟩ := m
  obtain ⟨n', nt', v', vt', u', ut', t', tt', c'⟩ := m'
  obtain ⟨h1, h2, h3, h4, h5, h6, h7, hn, ht⟩ := hm
  dsimp only at h1 h2 h3 h4 h5 h6 h7 hn ht
  subst h1 h2 h3 h4 h5 h6 h7
  cases hs with
  | normal hl =>
    cases n <;> cases n'
    · exact ⟨rfl, rfl, rfl, rfl, rfl, rfl, rfl, hl, ht⟩
    · exact hn.elim
    · exact hn.elim
    · exact ⟨rfl, rfl, rfl, rfl, rfl, rfl, rfl, forall₂_append' hn hl, ht⟩
  | tangent hl =>
    cases t <;> cases t'
    · exact ⟨rfl, rfl, rfl, rfl, rfl, rfl, rfl, hn, hl⟩
    · exact ht.elim
    · exact ht.elim
    · exact ⟨rfl, rfl, rfl, rfl, rfl, rfl, rfl, hn, forall₂_append' ht hl⟩
  | same =>
    cases s with
    | normal l =>
      have hl : List.Forall₂ FastNear l l := List.forall₂_same.mpr fun x _ => FastNear.refl x
      cases n <;> cases n'
      · exact ⟨rfl, rfl, rfl, rfl, rfl, rfl, rfl, hl, ht⟩
      · exact hn.elim
      · exact hn.elim
      · exact ⟨rfl, rfl, rfl, rfl, rfl, rfl, rfl, forall₂_append' hn hl, ht⟩
    | tangent l =>
      have hl : List.Forall₂ (fun t t' => FastNear t.1 t'.1 ∧ t.2 = t'.2) l l :=
        List.forall₂_same.mpr fun x _ => ⟨FastNear.refl _, rfl⟩
      cases t <;> cases t'
      · exact ⟨rfl, rfl, rfl, rfl, rfl, rfl, rfl, hn, hl⟩
      · exact ht.elim
      · exact ht.elim
      · exact ⟨rfl, rfl, rfl, rfl, rfl, rfl, rfl, hn, forall₂_append' ht hl⟩
    | vertex l => cases v <;> exact ⟨rfl, rfl, rfl, rfl, rfl, rfl, rfl, hn, ht⟩
    | uv l => cases u <;> exact ⟨rfl, rfl, rfl, rfl, rfl, rfl, rfl, hn, ht⟩
    | triVertex l => cases vt <;> exact ⟨rfl, rfl, rfl, rfl, rfl, rfl, rfl, hn, ht⟩
    | triNormal l => cases nt <;> exact ⟨rfl, rfl, rfl, rfl, rfl, rfl, rfl, hn, ht⟩
    | triUv l => cases ut <;> exact ⟨rfl, rfl, rfl, rfl, rfl, rfl, rfl, hn, ht⟩
    | triTangent l => cases tt <;> exact ⟨rfl, rfl, rfl, rfl, rfl, rfl, rfl, hn, ht⟩
    | custom seg => exact ⟨rfl, rfl, rfl, rfl, rfl, rfl, rfl, hn, ht⟩
    | nothing => exact ⟨rfl, rfl, rfl, rfl, rfl, rfl, rfl, hn, ht⟩
    | shared mask l =>
      rw [DecodedSegment.apply, DecodedSegment.apply]
      cases vt <;> cases nt <;> cases ut <;> split_ifs <;> exact ⟨rfl, rfl, rfl, rfl, rfl, rfl, rfl, hn, ht⟩

theorem foldl_fast {l l' : List (DecodedSegment (Val b32))} (h : List.Forall₂ FastSeg l l') : ∀ {m m' : Mesh (Val b32)}, FastMesh m m' →
    FastMesh (l.foldl DecodedSegment.apply m) (l'.foldl DecodedSegment.apply m') := by
  induction h with
  | nil => exact id
  | cons h _ ih => exact fun hm => ih (apply_fast hm h)

theorem Spec.Both.collect {α β : Type} {R : α → β → Prop} {l : List (Outcome ImportError α)} {l' : List (Outcome ImportError β)}
    (h : List.Forall₂ (Both R) l l') : Both (List.Forall₂ R) (Tmf.collect l) (Tmf.collect l') := by
  have hm : Both (List.Forall₂ R) (Outcome.mapAll id l) (Outcome.mapAll id l') := by
    induction h with
    | nil => exact .ok .nil
    | cons h _ ih =>
      rw [Outcome.mapAll, Outcome.mapAll]
      exact Both.bind h fun a b hab => ih.bind fun l l' hl => .ok (.cons hab hl)
  have ha : ∀ {f : Outcome ImportError α → Bool} {g : Outcome ImportError β → Bool}, (∀ x y, Both R x y → f x = g y) →
      l.any f = l'.any g := by
    intro f g hfg
    clear hm
    induction h with
    | nil => rfl
    | cons h _ ih => rw [List.any_cons, List.any_cons, ih, hfg _ _ h]
  rw [Tmf.collect, Tmf.collect]
  split_ifs with h1 h2 h2
  · exact .panic
  · exact absurd ((ha fun x y h => by cases h <;> rfl).symm.trans h1) h2
  · exact absurd ((ha fun x y h => by cases h <;> rfl).trans h2) h1
  · exact hm

theorem assembleMesh_fast {lib : Libm} (hlib : AccurateLibm lib) (b : Build) (ctx : DecodeCtx) (segs : List EncodedSegment) :
    Both FastMesh (assembleMesh (ops (fastLibm lib)) (f64Le (fastLibm lib)) b ctx segs) (assembleMesh (ops lib) (f64Le lib) b ctx segs) := by
  rw [assembleMesh, assembleMesh]
  refine (Both.collect ?_).bind fun l l' hl => .ok (foldl_fast hl (FastMesh.refl _))
  induction segs with
  | nil => exact .nil
  | cons s segs ih => exact .cons (decode_fast hlib b ctx s) ih

/-- Programs that read the same and end alike, with related results. -/
inductive ProgRel {α β : Type} (R : α → β → Prop) : Prog α → Prog β → Prop
  | ret {a b} (h : R a b) : ProgRel R (.ret a) (.ret b)
  | fail {e} : ProgRel R (.fail e) (.fail e)
  | panic : ProgRel R .panic .panic
  | readExact {n k k'} (h : ∀ l, ProgRel R (k l) (k' l)) : ProgRel R (.readExact n k) (.readExact n k')

theorem ProgRel.refl {α : Type} {R : α → α → Prop} (hR : ∀ a, R a a) : ∀ p : Prog α, ProgRel R p p
  | .ret a => .ret (hR a)
  | .fail _ => .fail
  | .panic => .panic
  | .readExact _ k => .readExact fun l => ProgRel.refl hR (k l)

theorem ProgRel.bind {α β α' β' : Type} {R : α → β → Prop} {S : α' → β' → Prop} {p : Prog α} {q : Prog β} {f : α → Prog α'}
    {g : β → Prog β'} (h : ProgRel R p q) (hf : ∀ a b, R a b → ProgRel S (f a) (g b)) : ProgRel S (p >>= f) (q >>= g) := by
  induction h with
  | ret h => exact hf _ _ h
  | fail => exact .fail
  | panic => exact .panic
  | readExact _ ih => exact .readExact ih

theorem ProgRel.same {α α' β' : Type} {S : α' → β' → Prop} (p : Prog α) {f : α → Prog α'}
    {g : α → Prog β'} (hf : ∀ a, ProgRel S (f a) (g a)) : ProgRel S (p >>= f) (p >>= g) :=
  (ProgRel.refl (R := Eq) (fun _ => rfl) p).bind fun a _ h => h ▸ hf a

theorem ProgRel.replicate {α β : Type} {R : α → β → Prop} {p : Prog α} {q : Prog β} (h : ProgRel R p q) : ∀ n : Nat,
    ProgRel (List.Forall₂ R) (Prog.replicate n p) (Prog.replicate n q)
  | 0 => .ret .nil
  | n + 1 => h.bind fun _ _ hab => (ProgRel.replicate h n).bind fun _ _ hl => .ret (.cons hab hl)

theorem ProgRel.ofOutcome {α β : Type} {R : α → β → Prop} {x : Outcome ImportError α} {y : Outcome ImportError β} (h : Both R x y) :
    ProgRel R (Prog.ofOutcome x) (Prog.ofOutcome y) := by
  cases h with
  | ok h => exact .ret h
  | err => exact .fail
  | panic => exact .panic

theorem ProgRel.run {α β : Type} {R : α → β → Prop} {p : Prog α} {q : Prog β} (h : ProgRel R p q) : ∀ s : Source,
    Both (fun x y => R x.1 y.1 ∧ x.2 = y.2) (p.run s) (q.run s) := by
  induction h with
  | ret h => exact fun s => .ok ⟨h, rfl⟩
  | fail => exact fun s => .err
  | panic => exact fun s => .panic
  | @readExact n _ _ _ ih =>
    intro s
    rw [Prog.run, Prog.run]
    cases s.readExact n with
    | ok a => exact ih _ _
    | err e => exact .err
    | panic => exact .panic

theorem importTmf_fast {lib : Libm} (hlib : AccurateLibm lib) (b : Build) :
    ProgRel (List.Forall₂ fun x y => FastMesh x.1 y.1 ∧ x.2 = y.2) (importTmf (ops (fastLibm lib)) (f64Le (fastLibm lib)) b)
      (importTmf (ops lib) (f64Le lib) b) := by
  refine ProgRel.same _ fun ctx => ProgRel.same _ fun n => ProgRel.replicate ?_ n
  refine ProgRel.same _ fun name => ProgRel.same _ fun k => ProgRel.same _ fun segs => ?_
  exact (ProgRel.ofOutcome (assembleMesh_fast hlib b _ segs)).bind fun _ _ h => .ret ⟨h, rfl⟩

theorem readTmf_fast {lib : Libm} (hlib : AccurateLibm lib) (b : Build) (s : Source) :
    Both (List.Forall₂ fun x y => FastMesh x.1 y.1 ∧ x.2 = y.2) (readTmf (ops (fastLibm lib)) (f64Le (fastLibm lib)) b s)
      (readTmf (ops lib) (f64Le lib) b s) := by
  rw [readTmf, readTmf]
  exact ((importTmf_fast hlib b).run s).bind fun _ _ h => .ok h.1

/-! ### Decoded vectors -/

theorem readNormals_fast_unit (lib : Libm) {bytes : List UInt8} {l : List (Vec3 (Val b32))}
    (h : readNormals (ops (fastLibm lib)) bytes = .ok l) (hp : 1 ≤ byteAt bytes 8) : ∀ w ∈ l, UnitDecoded w := by
  rw [readNormals, Outcome.bind_eq_ok] at h
  obtain ⟨⟨⟨n, p⟩, rest⟩, h1, h⟩ := h
  obtain ⟨hp64, e⟩ := readNormalsHeader_inv h1
  rw [e] at hp
  rw [Outcome.bind_eq_ok] at h
  obtain ⟨⟨l', r⟩, h2, h⟩ := h
  cases h
  have hg : ReadGood (fun l => ∀ a ∈ l, UnitDecoded a) (readMany (readNormal (ops (fastLibm lib)) p) n (.new (.slice rest))) := by
    refine readMany_all (fun r hr => ?_) n (BitReader.inv_new _)
    refine (BitReader.readBit_good hr).bind fun _ r _ hr => ?_
    refine (BitReader.readBit_good hr).bind fun _ r _ hr => ?_
    refine (BitReader.readBit_good hr).bind fun _ r _ hr => ?_
    exact (BitReader.read2_lt hr _).bind fun c r hc hr => ⟨fast_encoding_unit lib hp hp64 hc.1 hc.2, hr⟩
  dsimp only at h2
  rw [h2] at hg
  exact hg.1

theorem readTangents_fast_unit (lib : Libm) {bytes : List UInt8} {l : List (Tangent (Val b32))}
    (h : readTangents (ops (fastLibm lib)) bytes = .ok l) (hp : 1 ≤ byteAt bytes 8) : ∀ t ∈ l, UnitDecoded t.1 := by
  rw [readTangents, Outcome.bind_eq_ok] at h
  obtain ⟨⟨⟨n, p⟩, rest⟩, h1, h⟩ := h
  obtain ⟨hp64, e⟩ := readNormalsHeader_inv h1
  rw [e] at hp
  rw [Outcome.bind_eq_ok] at h
  obtain ⟨⟨l', r⟩, h2, h⟩ := h
  cases h
  have hg : ReadGood (fun l => ∀ a ∈ l, UnitDecoded a.1)
      (readMany (readTangent (ops (fastLibm lib)) p) n (.new (.slice rest))) := by
    refine readMany_all (fun r hr => ?_) n (BitReader.inv_new _)
    refine (BitReader.readBit_good hr).bind fun _ r _ hr => ?_
    refine (BitReader.readBit_good hr).bind fun _ r _ hr => ?_
    refine (BitReader.readBit_good hr).bind fun _ r _ hr => ?_
    refine (BitReader.readBit_good hr).bind fun _ r _ hr => ?_
    refine (BitReader.read_lt hr _).bind fun _ r ha hr => ?_
    exact (BitReader.read_lt hr _).bind fun _ r hc hr => ⟨fast_encoding_unit lib hp hp64 ha hc, hr⟩
  dsimp only at h2
  rw [h2] at hg
  exact hg.1

end Tmf
