import Verif.Lemmas.Across
import Verif.Lemmas.AnyBuild
import Verif.Model.IndexWidth
import Verif.Spec.IndexWidth
/-
Files read and written by builds with other types of indices.
-/

namespace Tmf
open Spec DecodedSegment

/-! ### The default -/

theorem addMinIn_default (b : Build) (i min : Nat) : addMinIn 32 b i min = addMin b i min := by
  rw [addMinIn, addMin, Nat.mod_mod_of_dvd _ (by decide : 2 ^ 32 ∣ 2 ^ 64)]

theorem readIndexPairsIn_default (b : Build) (p m : Nat) : ∀ (n : Nat) (r : BitReader),
    readIndexPairsIn 32 b p m n r = readIndexPairs b p m n r
  | 0, _ => rfl
  | n + 1, r => by
    rw [readIndexPairsIn, readIndexPairs]
    simp only [addMinIn_default, readIndexPairsIn_default b p m n]

theorem readIndicesIn_default (b : Build) (p m n : Nat) (r : BitReader) :
    readIndicesIn 32 b p m n r = readIndices b p m n r := by
  rw [readIndicesIn, readIndices]
  simp only [addMinIn_default, readIndexPairsIn_default]

theorem readTrianglesIn_default : readTrianglesIn 32 = readTriangles := by
  funext b ctx bytes
  rw [readTrianglesIn, readTriangles]
  simp only [readIndicesIn_default]

theorem readDefaultTrianglesIn_default : readDefaultTrianglesIn 32 = readDefaultTriangles := by
  funext b ctx bytes
  rw [readDefaultTrianglesIn, readDefaultTriangles]
  simp only [readIndicesIn_default]

theorem customReadIn_default (fo : FloatOps) (fb : F64Bytes fo) (b : Build) (ctx : DecodeCtx) (kind : SectionType)
    (bytes : List UInt8) : CustomSeg.readIn 32 fo fb b ctx kind bytes = CustomSeg.read fo fb b ctx kind bytes := by
  rw [CustomSeg.readIn, CustomSeg.read, readTrianglesIn_default]
  cases kind <;> rfl

theorem decodeIn_default (fo : FloatOps) (fb : F64Bytes fo) (b : Build) (ctx : DecodeCtx) (seg : EncodedSegment) :
    seg.decodeIn 32 fo fb b ctx = seg.decode fo fb b ctx := by
  have h1 : decodeIndicesIn 32 b ctx seg = decodeIndices b ctx seg := by
    rw [decodeIndicesIn, decodeIndices, readDefaultTrianglesIn_default]
    cases seg.compression <;> rfl
  have h2 : (decodeSharedIn 32 b ctx seg : Outcome ImportError (DecodedSegment fo.F)) = decodeShared b ctx seg := by
    rw [decodeSharedIn, decodeShared, readDefaultTrianglesIn_default]
    cases seg.data with
    | nil => rfl
    | cons => cases seg.compression <;> rfl
  rw [EncodedSegment.decodeIn, EncodedSegment.decode, h1, h2]
  simp only [customReadIn_default]
  cases seg.segType <;> rfl

theorem importMeshIn_default (fo : FloatOps) (fb : F64Bytes fo) (b : Build) (ctx : ImportCtx) :
    importMeshIn 32 fo fb b ctx = importMesh fo fb b ctx := by
  have h : ∀ ctx segs, assembleMeshIn 32 fo fb b ctx segs = assembleMesh fo fb b ctx segs := by
    intro ctx segs
    rw [assembleMeshIn, assembleMesh, show EncodedSegment.decodeIn 32 fo fb b ctx = EncodedSegment.decode fo fb b ctx from
      funext (decodeIn_default fo fb b ctx)]
  rw [importMeshIn, importMesh]
  simp only [h]

theorem readTmfIn_default (fo : FloatOps) (fb : F64Bytes fo) (b : Build) (s : Source) :
    readTmfIn 32 fo fb b s = readTmf fo fb b s := by
  rw [readTmfIn, readTmf, importTmfIn, importTmf]
  simp only [importMeshIn_default]

/-! ### Wider and narrower readers -/

section
variable {j k : Nat}

theorem addMinIn_cut (h : j ≤ k) (b : Build) (i min : Nat) :
    Both (fun x y => y = x % 2 ^ j) (addMinIn k b i min) (addMinIn j b i min) := by
  rw [addMinIn, addMinIn]
  split_ifs
  · exact .panic
  · exact .ok (Nat.mod_mod_of_dvd _ (Nat.pow_dvd_pow 2 h)).symm

theorem readIndexPairsIn_cut (h : j ≤ k) (b : Build) (p m : Nat) : ∀ (n : Nat) (r : BitReader),
    Both (fun x y => y.1 = cut j x.1 ∧ y.2 = x.2) (readIndexPairsIn k b p m n r) (readIndexPairsIn j b p m n r)
  | 0, r => .ok ⟨rfl, rfl⟩
  | n + 1, r => by
    rw [readIndexPairsIn, readIndexPairsIn]
    refine (Both.refl (R := Eq) _ fun _ _ => rfl).bind fun a c hac => ?_
    subst hac
    refine (addMinIn_cut h b _ _).bind fun x y hx => ?_
    refine (addMinIn_cut h b _ _).bind fun x' y' hx' => ?_
    refine (readIndexPairsIn_cut h b p m n _).bind fun l l' hl => .ok ⟨?_, hl.2⟩
    rw [hx, hx', hl.1]
    rfl

theorem readIndicesIn_cut (h : j ≤ k) (b : Build) (p m n : Nat) (r : BitReader) :
    Both (fun x y => y = cut j x) (readIndicesIn k b p m n r) (readIndicesIn j b p m n r) := by
  rw [readIndicesIn, readIndicesIn]
  refine (readIndexPairsIn_cut h b p m _ r).bind fun l l' hl => ?_
  obtain ⟨l, r1⟩ := l
  obtain ⟨l', r2⟩ := l'
  obtain ⟨hl, hr⟩ := hl
  dsimp only at hl hr
  subst hl hr
  dsimp only
  split_ifs
  · refine (Both.refl (R := Eq) _ fun _ _ => rfl).bind fun a c hac => ?_
    subst hac
    refine (addMinIn_cut h b _ _).bind fun x y hx => .ok ?_
    rw [hx, cut, cut, List.map_append]
    rfl
  · exact .ok rfl

theorem readTrianglesIn_cut (h : j ≤ k) (b : Build) (ctx : DecodeCtx) (bytes : List UInt8) :
    Both (fun x y => y = cut j x) (readTrianglesIn k b ctx bytes) (readTrianglesIn j b ctx bytes) := by
  rw [readTrianglesIn, readTrianglesIn]
  refine (Both.refl (R := Eq) _ fun _ _ => rfl).bind fun a c hac => ?_
  subst hac
  exact readIndicesIn_cut h b _ _ _ _

theorem cut_replicate (n : Nat) : cut j (List.replicate n 0) = List.replicate n 0 := by
  rw [cut, List.map_replicate, Nat.zero_mod]

theorem readDefaultTrianglesIn_cut (h : j ≤ k) (b : Build) (ctx : DecodeCtx) (bytes : List UInt8) :
    Both (fun x y => y = cut j x) (readDefaultTrianglesIn k b ctx bytes) (readDefaultTrianglesIn j b ctx bytes) := by
  rw [readDefaultTrianglesIn, readDefaultTrianglesIn]
  refine (Both.refl (R := Eq) _ fun _ _ => rfl).bind fun a c hac => ?_
  subst hac
  dsimp only
  split_ifs
  · exact .ok (cut_replicate _).symm
  · exact readIndicesIn_cut h b _ _ _ _

theorem largest_maxIndex (l : List Nat) : Largest l (maxIndex l) := by
  refine ⟨fun i hi => le_maxIndex hi, ?_⟩
  rcases (foldl_max_spec l 0).2.2 with h | h
  · cases l with
    | nil => exact .inr ⟨rfl, rfl⟩
    | cons x l =>
      have h0 : maxIndex (x :: l) = 0 := h
      have hx : x ≤ maxIndex (x :: l) := le_maxIndex (List.mem_cons_self ..)
      rw [h0] at hx ⊢
      exact .inl (by rw [Nat.le_zero.mp hx]; exact List.mem_cons_self ..)
  · exact .inl h

variable (fo : FloatOps) (fb : F64Bytes fo)

theorem customReadIn_cut (h : j ≤ k) (b : Build) (ctx : DecodeCtx) (kind : SectionType) (bytes : List UInt8) :
    Both (fun c c' => c'.name = c.name ∧ CutCustom j c.data c'.data) (CustomSeg.readIn k fo fb b ctx kind bytes)
      (CustomSeg.readIn j fo fb b ctx kind bytes) := by
  have hf : ∀ {x : Outcome ImportError (CustomData fo.F)} {name : List UInt8}, (∀ d, x = .ok d → CutCustom j d d) →
      Both (fun c c' : CustomSeg fo.F => c'.name = c.name ∧ CutCustom j c.data c'.data) (x >>= fun d => .ok (⟨name, d⟩ : CustomSeg fo.F))
        (x >>= fun d => .ok ⟨name, d⟩) := by
    intro x name hx
    cases x with
    | ok d => exact .ok ⟨rfl, hx d rfl⟩
    | err => exact .err
    | panic => exact .panic
  rw [CustomSeg.readIn, CustomSeg.readIn]
  refine (Both.refl (R := Eq) _ fun _ _ => rfl).bind fun a c hac => ?_
  subst hac
  cases kind with
  | customIndex =>
    refine (readTrianglesIn_cut h b ctx _).bind fun l l' hl => ?_
    subst hl
    exact .ok ⟨rfl, .index _ _ _ (largest_maxIndex _) (largest_maxIndex _)⟩
  | customInteger =>
    refine (readTrianglesIn_cut h b ctx _).bind fun l l' hl => ?_
    subst hl
    exact .ok ⟨rfl, .integer _ _ _ (largest_maxIndex _) (largest_maxIndex _)⟩
  | customFloat =>
    refine hf fun d hd => ?_
    rw [readFloats, Outcome.bind_eq_ok] at hd
    obtain ⟨⟨⟨n, mn, mx, p⟩, rest⟩, -, hd⟩ := hd
    dsimp only at hd
    rw [Outcome.bind_eq_ok] at hd
    obtain ⟨⟨l, r⟩, -, hd⟩ := hd
    cases hd
    exact .float _ _
  | customColor =>
    refine hf fun d hd => ?_
    rw [readColors, Outcome.bind_eq_ok] at hd
    obtain ⟨⟨⟨n, p⟩, rest⟩, -, hd⟩ := hd
    dsimp only at hd
    split at hd
    · cases hd
    · simp only [Outcome.bind_eq_ok] at hd
      obtain ⟨pow, -, ⟨l, r⟩, -, hd⟩ := hd
      cases hd
      exact .color _ _
  | _ => exact .panic

/-- Decoded segments of a wider and a narrower reader. -/
inductive CutSeg {F : Type} (j : Nat) : DecodedSegment F → DecodedSegment F → Prop
  | nothing : CutSeg j .nothing .nothing
  | vertex (l) : CutSeg j (.vertex l) (.vertex l)
  | normal (l) : CutSeg j (.normal l) (.normal l)
  | uv (l) : CutSeg j (.uv l) (.uv l)
  | tangent (l) : CutSeg j (.tangent l) (.tangent l)
  | triVertex (l) : CutSeg j (.triVertex l) (.triVertex (cut j l))
  | triNormal (l) : CutSeg j (.triNormal l) (.triNormal (cut j l))
  | triUv (l) : CutSeg j (.triUv l) (.triUv (cut j l))
  | triTangent (l) : CutSeg j (.triTangent l) (.triTangent (cut j l))
  | shared (mask l) : CutSeg j (.shared mask l) (.shared mask (cut j l))
  | custom {c c'} (h : c'.name = c.name ∧ CutCustom j c.data c'.data) : CutSeg j (.custom c) (.custom c')

theorem decodeSharedIn_cut (h : j ≤ k) (b : Build) (ctx : DecodeCtx) (seg : EncodedSegment) :
    Both (CutSeg j) (decodeSharedIn k b ctx seg : Outcome ImportError (DecodedSegment fo.F)) (decodeSharedIn j b ctx seg) := by
  rw [decodeSharedIn.eq_def, decodeSharedIn.eq_def]
  cases seg.data with
  | nil => exact .err
  | cons mask rest =>
    cases seg.compression with
    | none =>
      refine (readDefaultTrianglesIn_cut h b ctx rest).bind fun a c hac => ?_
      subst hac
      exact .ok (.shared _ _)
    | _ => exact .err

theorem decodeIn_cut (h : j ≤ k) (b : Build) (ctx : DecodeCtx) (seg : EncodedSegment) :
    Both (CutSeg j) (seg.decodeIn k fo fb b ctx) (seg.decodeIn j fo fb b ctx) := by
  have tri : ∀ {f : List Nat → DecodedSegment fo.F}, (∀ l, CutSeg j (f l) (f (cut j l))) →
      Both (CutSeg j) (decodeIndicesIn k b ctx seg >>= fun l => .ok (f l)) (decodeIndicesIn j b ctx seg >>= fun l => .ok (f l)) := by
    intro f hf
    rw [decodeIndicesIn, decodeIndicesIn]
    cases seg.compression with
    | none =>
      refine (readDefaultTrianglesIn_cut h b ctx _).bind fun a c hac => ?_
      subst hac
      exact .ok (hf _)
    | _ => exact .err
  have same : ∀ {α : Type} {f : α → DecodedSegment fo.F} {x : Outcome ImportError α}, (∀ l, CutSeg j (f l) (f l)) →
      Both (CutSeg j) (x >>= fun l => .ok (f l)) (x >>= fun l => .ok (f l)) := by
    intro α f x hf
    cases x with
    | ok a => exact .ok (hf a)
    | err => exact .err
    | panic => exact .panic
  rw [EncodedSegment.decodeIn.eq_def, EncodedSegment.decodeIn.eq_def]
  cases seg.segType with
  | invalid => exact .ok .nothing
  | normal => exact same .normal
  | tangent => exact same .tangent
  | vertex => exact same .vertex
  | uv => exact same .uv
  | vertexTriangle => exact tri .triVertex
  | normalTriangle => exact tri .triNormal
  | uvTriangle => exact tri .triUv
  | tangentTriangle => exact tri .triTangent
  | customIndex => exact (customReadIn_cut fo fb h b ctx _ _).bind fun _ _ h => .ok (.custom h)
  | customInteger => exact (customReadIn_cut fo fb h b ctx _ _).bind fun _ _ h => .ok (.custom h)
  | customFloat => exact (customReadIn_cut fo fb h b ctx _ _).bind fun _ _ h => .ok (.custom h)
  | customColor => exact (customReadIn_cut fo fb h b ctx _ _).bind fun _ _ h => .ok (.custom h)
  | sharedTriangle => exact decodeSharedIn_cut fo h b ctx seg

theorem cut_append (l l' : List Nat) : cut j (l ++ l') = cut j l ++ cut j l' := List.map_append ..

theorem vertices_cut {F : Type} {m m' : Mesh F} (hm : CutMesh j m m') (l : List Nat) :
    CutMesh j (m.appendVertexTriangles l) (m'.appendVertexTriangles (cut j l)) := by
  obtain ⟨n, nt, v, vt, u, ut, t, tt, c⟩ := m
  obtain ⟨n', nt', v', vt', u', ut', t', tt', c'⟩ := m'
  obtain ⟨h1, h2, h3, h4, h5, h6, h7, h8, hc⟩ := hm
  dsimp only at h1 h2 h3 h4 h5 h6 h7 h8 hc
  subst h1 h2 h3 h4 h5 h6 h7 h8
  cases vt with
  | none => exact ⟨rfl, rfl, rfl, rfl, rfl, rfl, rfl, rfl, hc⟩
  | some o => exact ⟨rfl, rfl, rfl, rfl, congrArg some (cut_append o l).symm, rfl, rfl, rfl, hc⟩

theorem normalTris_cut {F : Type} {m m' : Mesh F} (hm : CutMesh j m m') (l : List Nat) :
    CutMesh j (m.appendNormalTriangles l) (m'.appendNormalTriangles (cut j l)) := by
  obtain ⟨n, nt, v, vt, u, ut, t, tt, c⟩ := m
  obtain ⟨n', nt', v', vt', u', ut', t', tt', c'⟩ := m'
  obtain ⟨h1, h2, h3, h4, h5, h6, h7, h8, hc⟩ := hm
  dsimp only at h1 h2 h3 h4 h5 h6 h7 h8 hc
  subst h1 h2 h3 h4 h5 h6 h7 h8
  cases nt with
  | none => exact ⟨rfl, rfl, rfl, rfl, rfl, rfl, rfl, rfl, hc⟩
  | some o => exact ⟨rfl, rfl, rfl, rfl, rfl, congrArg some (cut_append o l).symm, rfl, rfl, hc⟩

theorem uvTris_cut {F : Type} {m m' : Mesh F} (hm : CutMesh j m m') (l : List Nat) :
    CutMesh j (m.appendUvTriangles l) (m'.appendUvTriangles (cut j l)) := by
  obtain ⟨n, nt, v, vt, u, ut, t, tt, c⟩ := m
  obtain ⟨n', nt', v', vt', u', ut', t', tt', c'⟩ := m'
  obtain ⟨h1, h2, h3, h4, h5, h6, h7, h8, hc⟩ := hm
  dsimp only at h1 h2 h3 h4 h5 h6 h7 h8 hc
  subst h1 h2 h3 h4 h5 h6 h7 h8
  cases ut with
  | none => exact ⟨rfl, rfl, rfl, rfl, rfl, rfl, rfl, rfl, hc⟩
  | some o => exact ⟨rfl, rfl, rfl, rfl, rfl, rfl, congrArg some (cut_append o l).symm, rfl, hc⟩

/-- Applying a cut segment to a cut mesh. -/
theorem apply_cut {F : Type} {m m' : Mesh F} {s s' : DecodedSegment F} (hm : CutMesh j m m') (hs : CutSeg j s s') :
    CutMesh j (DecodedSegment.apply m s) (DecodedSegment.apply m' s') := by
  cases hs with
  | nothing => exact hm
  | triVertex l => exact vertices_cut hm l
  | triNormal l => exact normalTris_cut hm l
  | triUv l => exact uvTris_cut hm l
  | shared mask l =>
    rw [DecodedSegment.apply, DecodedSegment.apply]
    have a : CutMesh j (if DecodedSegment.hasVertex mask then m.appendVertexTriangles l else m)
        (if DecodedSegment.hasVertex mask then m'.appendVertexTriangles (cut j l) else m') := by
      split_ifs
      · exact vertices_cut hm l
      · exact hm
    generalize (if DecodedSegment.hasVertex mask then m.appendVertexTriangles l else m) = x at *
    generalize (if DecodedSegment.hasVertex mask then m'.appendVertexTriangles (cut j l) else m') = x' at *
    have a : CutMesh j (if DecodedSegment.hasNormal mask then x.appendNormalTriangles l else x)
        (if DecodedSegment.hasNormal mask then x'.appendNormalTriangles (cut j l) else x') := by
      split_ifs
      · exact normalTris_cut a l
      · exact a
    generalize (if DecodedSegment.hasNormal mask then x.appendNormalTriangles l else x) = y at *
    generalize (if DecodedSegment.hasNormal mask then x'.appendNormalTriangles (cut j l) else x') = y' at *
    split_ifs
    · exact uvTris_cut a l
    · exact a
  | custom h =>
    obtain ⟨h1, h2, h3, h4, h5, h6, h7, h8, hc⟩ := hm
    exact ⟨h1, h2, h3, h4, h5, h6, h7, h8, List.rel_append hc (.cons h .nil)⟩
  | triTangent l =>
    obtain ⟨n, nt, v, vt, u, ut, t, tt, c⟩ := m
    obtain ⟨n', nt', v', vt', u', ut', t', tt', c'⟩ := m'
    obtain ⟨h1, h2, h3, h4, h5, h6, h7, h8, hc⟩ := hm
    dsimp only at h1 h2 h3 h4 h5 h6 h7 h8 hc
    subst h1 h2 h3 h4 h5 h6 h7 h8
    cases tt with
    | none => exact ⟨rfl, rfl, rfl, rfl, rfl, rfl, rfl, rfl, hc⟩
    | some o => exact ⟨rfl, rfl, rfl, rfl, rfl, rfl, rfl, congrArg some (cut_append o l).symm, hc⟩
  | _ l =>
    obtain ⟨n, nt, v, vt, u, ut, t, tt, c⟩ := m
    obtain ⟨n', nt', v', vt', u', ut', t', tt', c'⟩ := m'
    obtain ⟨h1, h2, h3, h4, h5, h6, h7, h8, hc⟩ := hm
    dsimp only at h1 h2 h3 h4 h5 h6 h7 h8 hc
    subst h1 h2 h3 h4
    cases v' <;> cases n' <;> cases u' <;> cases t' <;> exact ⟨rfl, rfl, rfl, rfl, h5, h6, h7, h8, hc⟩

theorem foldl_cut {F : Type} {l l' : List (DecodedSegment F)} (h : List.Forall₂ (CutSeg j) l l') : ∀ {m m' : Mesh F},
    CutMesh j m m' → CutMesh j (l.foldl DecodedSegment.apply m) (l'.foldl DecodedSegment.apply m') := by
  induction h with
  | nil => exact id
  | cons h _ ih => exact fun hm => ih (apply_cut hm h)

theorem assembleMeshIn_cut (h : j ≤ k) (b : Build) (ctx : DecodeCtx) (segs : List EncodedSegment) :
    Both (CutMesh j) (assembleMeshIn k fo fb b ctx segs) (assembleMeshIn j fo fb b ctx segs) := by
  rw [assembleMeshIn, assembleMeshIn]
  refine (Both.collect ?_).bind fun l l' hl => .ok (foldl_cut hl ⟨rfl, rfl, rfl, rfl, rfl, rfl, rfl, rfl, .nil⟩)
  induction segs with
  | nil => exact .nil
  | cons s segs ih => exact .cons (decodeIn_cut fo fb h b ctx s) ih

theorem importTmfIn_cut (h : j ≤ k) (b : Build) :
    ProgRel (List.Forall₂ fun x y => CutMesh j x.1 y.1 ∧ y.2 = x.2) (importTmfIn k fo fb b) (importTmfIn j fo fb b) := by
  refine ProgRel.same _ fun ctx => ProgRel.same _ fun n => ProgRel.replicate ?_ n
  refine ProgRel.same _ fun name => ProgRel.same _ fun _ => ProgRel.same _ fun segs => ?_
  exact (ProgRel.ofOutcome (assembleMeshIn_cut fo fb h b _ segs)).bind fun _ _ h => .ret ⟨h, rfl⟩

theorem readTmfIn_cut (h : j ≤ k) (b : Build) (s : Source) :
    Both (List.Forall₂ fun x y => CutMesh j x.1 y.1 ∧ y.2 = x.2) (readTmfIn k fo fb b s) (readTmfIn j fo fb b s) := by
  rw [readTmfIn, readTmfIn]
  exact ((importTmfIn_cut fo fb h b).run s).bind fun _ _ h => .ok h.1

theorem cut_of_lt {l : List Nat} (h : ∀ i ∈ l, i < 2 ^ j) : cut j l = l := by
  rw [cut]
  conv_rhs => rw [← List.map_id l]
  exact List.map_congr_left fun i hi => Nat.mod_eq_of_lt (h i hi)

theorem Spec.Largest.unique {l : List Nat} {m m' : Nat} (h : Largest l m) (h' : Largest l m') : m = m' := by
  obtain ⟨h1, h2⟩ := h
  obtain ⟨h1', h2'⟩ := h'
  rcases h2 with h2 | ⟨rfl, rfl⟩
  · rcases h2' with h2' | ⟨rfl, rfl⟩
    · exact le_antisymm (h1' _ h2) (h1 _ h2')
    · cases h2
  · rcases h2' with h2' | ⟨-, rfl⟩
    · cases h2'
    · rfl

theorem Spec.CutMesh.eq_of_in {F : Type} {m m' : Mesh F} (h : CutMesh j m m') (hm : MeshIn j m) : m' = m := by
  obtain ⟨n, nt, v, vt, u, ut, t, tt, c⟩ := m
  obtain ⟨n', nt', v', vt', u', ut', t', tt', c'⟩ := m'
  obtain ⟨h1, h2, h3, h4, h5, h6, h7, h8, hc⟩ := h
  dsimp only at h1 h2 h3 h4 h5 h6 h7 h8 hc
  have key : ∀ {o o' : Option (List Nat)}, o' = o.map (cut j) → (∀ l, o = some l → ∀ i ∈ l, i < 2 ^ j) → o' = o := by
    intro o o' e ho
    cases o with
    | none => exact e
    | some l => rw [e, Option.map_some, cut_of_lt (ho l rfl)]
  have e5 := key h5 hm.arrays.vertex
  have e6 := key h6 hm.arrays.normal
  have e7 := key h7 hm.arrays.uv
  have e8 := key h8 hm.arrays.tangent
  have ec : c' = c := by
    have hcu := hm.custom
    dsimp only at hcu
    clear hm h5 h6 h7 h8 e5 e6 e7 e8
    induction hc with
    | nil => rfl
    | @cons x x' l l' hx _ ih =>
      rw [ih fun c hc => hcu c (List.mem_cons_of_mem _ hc)]
      have hxi := hcu x (List.mem_cons_self ..)
      obtain ⟨nx, dx⟩ := x
      obtain ⟨nx', dx'⟩ := x'
      obtain ⟨hn, hd⟩ := hx
      dsimp only at hn hd hxi
      subst hn
      cases hd with
      | index l m m' hl hl' =>
        have e := cut_of_lt (j := j) (l := l) hxi
        rw [e] at hl' ⊢
        rw [hl.unique hl']
      | integer l m m' hl hl' =>
        have e := cut_of_lt (j := j) (l := l) hxi
        rw [e] at hl' ⊢
        rw [hl.unique hl']
      | float => rfl
      | color => rfl
  subst h1 h2 h3 h4 e5 e6 e7 e8 ec
  rfl

end

/-! ### Saved arrays -/

theorem readIndexPairsIn_ok (b : Build) {prec min : Nat} (hp : prec < 64) (h32 : prec ≠ 32) :
    ∀ (n : Nat) (codes : List Nat) (r : BitReader) (rest : List Bool), r.Inv →
      (∀ c ∈ codes, c < 2 ^ prec) → (∀ c ∈ codes, c + min < 2 ^ 64) → codes.length = 2 * n →
      r.rem = fieldBits (codes.map (fun c => (prec, c))) ++ rest →
      ∃ r', readIndexPairsIn 64 b prec min n r = .ok (codes.map (fun c => c + min), r') ∧ r'.Inv ∧
        r'.rem = rest := by
  have add : ∀ {i : Nat}, i + min < 2 ^ 64 → addMinIn 64 b i min = .ok (i + min) := by
    intro i h
    rw [addMinIn, if_neg (by omega), Nat.mod_mod, Nat.mod_eq_of_lt h]
  intro n
  induction n with
  | zero =>
    intro codes r rest hr _ _ hl hrem
    have : codes = [] := List.length_eq_zero_iff.mp (by omega)
    subst this
    exact ⟨r, rfl, hr, by simpa using hrem⟩
  | succ n ih =>
    intro codes r rest hr hc hm hl hrem
    match codes, hl with
    | c1 :: c2 :: codes, hl =>
      simp only [List.map_cons, fieldBits_cons, List.append_assoc] at hrem
      obtain ⟨r', e, hi, hd, _⟩ := BitReader.read2_ok hr hp h32 (by rw [hrem]; simp; omega)
      have hd' : r'.rem = fieldBits (codes.map (fun c => (prec, c))) ++ rest := by
        rw [hd, Nat.two_mul, ← List.drop_drop, hrem, drop_fieldBits_cons, drop_fieldBits_cons]
      rw [hrem, take_fieldBits_cons, drop_fieldBits_cons, take_fieldBits_cons, value_bits, value_bits,
        Nat.mod_eq_of_lt (hc c1 (by simp)), Nat.mod_eq_of_lt (hc c2 (by simp))] at e
      obtain ⟨r2, e2, hi2, hd2⟩ := ih codes r' rest hi (fun c h => hc c (by simp [h]))
        (fun c h => hm c (by simp [h])) (by simp at hl; omega) hd'
      refine ⟨r2, ?_, hi2, hd2⟩
      simp only [readIndexPairsIn, e, Outcome.bind_ok, add (hm c1 (by simp)),
        add (hm c2 (by simp)), e2, List.map_cons]
    | [], hl => simp at hl
    | [_], hl => simp at hl; omega

theorem readIndicesIn_ok (b : Build) {prec min : Nat} (hp : prec < 64) (h32 : prec ≠ 32)
    (codes : List Nat) {r : BitReader} {rest : List Bool} (hr : r.Inv)
    (hc : ∀ c ∈ codes, c < 2 ^ prec) (hm : ∀ c ∈ codes, c + min < 2 ^ 64)
    (hrem : r.rem = fieldBits (codes.map (fun c => (prec, c))) ++ rest) :
    readIndicesIn 64 b prec min codes.length r = .ok (codes.map (fun c => c + min)) := by
  unfold readIndicesIn
  by_cases hodd : codes.length % 2 = 0
  · obtain ⟨r', e, _, _⟩ := readIndexPairsIn_ok b hp h32 (codes.length / 2) codes r rest hr hc hm
      (by omega) hrem
    rw [e]
    simp [hodd]
  · have hne : codes ≠ [] := by rintro rfl; simp at hodd
    have hsplit : codes = codes.dropLast ++ [codes.getLast hne] := (List.dropLast_append_getLast hne).symm
    set init := codes.dropLast
    set last := codes.getLast hne with hlast
    have hlm : last ∈ codes := List.getLast_mem hne
    have hlen : codes.length = init.length + 1 := by
      have := congrArg List.length hsplit; simpa using this
    obtain ⟨r', e, hi, hd⟩ := readIndexPairsIn_ok b hp h32 (codes.length / 2) init r
      (bits prec last ++ rest) hr (fun c h => hc c (by rw [hsplit]; simp [h]))
      (fun c h => hm c (by rw [hsplit]; simp [h])) (by omega)
      (by rw [hrem]; conv_lhs => rw [hsplit]
          simp)
    obtain ⟨r2, e2, _⟩ := BitReader.read_ok hi hp (by rw [hd]; simp)
    rw [hd, take_fieldBits_cons, value_bits, Nat.mod_eq_of_lt (hc last hlm)] at e2
    rw [e]
    simp only [Outcome.bind_ok]
    rw [if_pos hodd, e2]
    have hml := hm last hlm
    have add : addMinIn 64 b last min = .ok (last + min) := by
      rw [addMinIn, if_neg (by omega), Nat.mod_mod, Nat.mod_eq_of_lt hml]
    simp only [Outcome.bind_ok, add]
    conv_rhs => rw [hsplit]
    simp

theorem readIndicesIn_saved (b : Build) (l : List Nat) {m : Nat} (h63 : m < 2 ^ 63)
    (h32 : calcPrec m ≠ 32) (hl : ∀ i ∈ l, i ≤ m) {payload : List UInt8} {pad : Nat}
    (hpay : byteBits payload = fieldBits (l.map (fun i => (calcPrec m, i - minIndex l))) ++
        List.replicate pad false) (suffix : List UInt8) :
    readIndicesIn 64 b (calcPrec m) (minIndex l) l.length (.new (.slice (payload ++ suffix))) = .ok l := by
  have hm64 : m < 2 ^ 64 := by omega
  have hp : calcPrec m < 64 := lt_of_le_of_lt (calcPrec_le hm64 h63) (by omega)
  have := readIndicesIn_ok b (min := minIndex l) hp h32 (l.map (fun i => i - minIndex l))
    (r := .new (.slice (payload ++ suffix))) (rest := List.replicate pad false ++ byteBits suffix)
    (BitReader.inv_new _)
    (by
      intro c hc
      obtain ⟨i, hi, rfl⟩ := List.mem_map.mp hc
      have := hl i hi
      have := (calcPrec_spec hm64).1
      omega)
    (by
      intro c hc
      obtain ⟨i, hi, rfl⟩ := List.mem_map.mp hc
      have := minIndex_le hi
      have := hl i hi
      omega)
    (by
      rw [BitReader.rem_new]
      simp [Source.slice, hpay, Function.comp_def])
  rw [List.length_map] at this
  rw [this, List.map_map]
  congr 1
  conv_rhs => rw [← List.map_id l]
  apply List.map_congr_left
  intro i hi
  have := minIndex_le hi
  simp only [Function.comp, id]
  rw [Nat.sub_add_cancel (by assumption)]

/-- A saved array of 64-bit indices, read by a build with 64-bit indices. -/
theorem readLong_saved (b b' : Build) (l : List Nat) {m : Nat} (h63 : m < 2 ^ 63)
    (h32 : calcPrec m ≠ 32) (hl : ∀ i ∈ l, i ≤ m) (hlen : l.length ≤ MAX_SEG_SIZE) :
    ∃ bytes, saveTriangles b l m = .ok bytes ∧ ∀ suffix, readTrianglesIn 64 b' ⟨true⟩ (bytes ++ suffix) = .ok l ∧
      readDefaultTrianglesIn 64 b' ⟨true⟩ (bytes ++ suffix) = .ok l := by
  have hm64 : m < 2 ^ 64 := by omega
  obtain ⟨payload, e, _, pad, _, hpay⟩ := saveTriangles_ok b l hm64
  have hmin : minIndex l < 2 ^ 64 := minIndex_lt (by positivity) fun i hi => lt_of_le_of_lt (hl i hi) hm64
  have hp : calcPrec m < 256 := lt_of_le_of_lt (calcPrec_le hm64 h63) (by omega)
  refine ⟨_, e, fun suffix => ⟨?_, ?_⟩⟩
  · unfold readTrianglesIn
    rw [List.append_assoc, readTrianglesHeader_ok hp hlen hmin]
    exact readIndicesIn_saved b' l h63 h32 hl hpay suffix
  · unfold readDefaultTrianglesIn
    rw [List.append_assoc, readTrianglesHeader_ok hp hlen hmin]
    simp only [Outcome.bind_ok]
    split
    · next h0 =>
      congr 1
      have hmax : m < 2 ^ 0 := h0 ▸ (calcPrec_spec hm64).1
      symm
      rw [List.eq_replicate_iff]
      exact ⟨rfl, fun i hi => by have := hl i hi; omega⟩
    · exact readIndicesIn_saved b' l h63 h32 hl hpay suffix

/-- The same for any type of indices: the upper bits are lost. -/
theorem readCut_saved {k : Nat} (hk : k ≤ 64) (b b' : Build) (l : List Nat) {m : Nat} (h63 : m < 2 ^ 63)
    (h32 : calcPrec m ≠ 32) (hl : ∀ i ∈ l, i ≤ m) (hlen : l.length ≤ MAX_SEG_SIZE) {bytes : List UInt8}
    (h : saveTriangles b l m = .ok bytes) (suffix : List UInt8) :
    readTrianglesIn k b' ⟨true⟩ (bytes ++ suffix) = .ok (cut k l) ∧
      readDefaultTrianglesIn k b' ⟨true⟩ (bytes ++ suffix) = .ok (cut k l) := by
  obtain ⟨bytes', e, hr⟩ := readLong_saved b b' l h63 h32 hl hlen
  rw [e] at h
  obtain rfl := Outcome.ok.inj h
  obtain ⟨h1, h2⟩ := hr suffix
  constructor
  · have := readTrianglesIn_cut hk b' ⟨true⟩ (bytes' ++ suffix)
    rw [h1] at this
    generalize readTrianglesIn k b' ⟨true⟩ (bytes' ++ suffix) = x at this
    cases this with
    | ok h => rw [h]
  · have := readDefaultTrianglesIn_cut hk b' ⟨true⟩ (bytes' ++ suffix)
    rw [h2] at this
    generalize readDefaultTrianglesIn k b' ⟨true⟩ (bytes' ++ suffix) = x at this
    cases this with
    | ok h => rw [h]

/-! ### Writing -/

theorem trisSplitIn_eq {j k : Nat} (b : Build) {l : List Nat} (hj : ∀ i ∈ l, i < 2 ^ j) (hk : ∀ i ∈ l, i < 2 ^ k) :
    trisSplitIn j b l = trisSplitIn k b l := by
  rw [trisSplitIn, trisSplitIn]
  cases l with
  | nil => rfl
  | cons x l =>
    have h1 := hj x (List.mem_cons_self ..)
    have h2 := hk x (List.mem_cons_self ..)
    have e : ∀ T best, scanMin b T 0 (2 ^ j - 1) (x :: l) best = scanMin b T 0 (2 ^ k - 1) (x :: l) best := by
      intro T best
      rw [scanMin, scanMin, Nat.min_eq_right (by omega : x ≤ 2 ^ j - 1), Nat.min_eq_right (by omega : x ≤ 2 ^ k - 1)]
    simp only [e]

theorem optTrisFuelIn_eq {j k : Nat} (b : Build) : ∀ (n : Nat) {l : List Nat}, (∀ i ∈ l, i < 2 ^ j) → (∀ i ∈ l, i < 2 ^ k) →
    optTrisFuelIn j b n l = optTrisFuelIn k b n l
  | 0, _, _, _ => rfl
  | n + 1, l, hj, hk => by
    rw [optTrisFuelIn, optTrisFuelIn, trisSplitIn_eq b hj hk]
    congr 1
    funext o
    cases o with
    | none => rfl
    | some i =>
      dsimp only
      rw [optTrisFuelIn_eq b n (fun x hx => hj x (List.mem_of_mem_take hx)) fun x hx => hk x (List.mem_of_mem_take hx),
        optTrisFuelIn_eq b n (fun x hx => hj x (List.mem_of_mem_drop hx)) fun x hx => hk x (List.mem_of_mem_drop hx)]

theorem optTrisFuelIn_default (b : Build) : ∀ (n : Nat) (l : List Nat), optTrisFuelIn 32 b n l = optTrisFuel b n l
  | 0, _ => rfl
  | n + 1, l => by
    rw [optTrisFuelIn, optTrisFuel, show trisSplitIn 32 b l = trisSplit b l from rfl]
    simp only [optTrisFuelIn_default b n]
    rfl

/-- The indices of a segment of triangles are below `2 ^ k`. -/
def SegIn {F : Type} (k : Nat) : DecodedSegment F → Prop
  | .triVertex l | .triNormal l | .triUv l | .triTangent l | .shared _ l => ∀ i ∈ l, i < 2 ^ k
  | _ => True

theorem mergedTris_in {F : Type} {k : Nat} {u n v : Option (List Nat)} (hu : ∀ l, u = some l → ∀ i ∈ l, i < 2 ^ k)
    (hn : ∀ l, n = some l → ∀ i ∈ l, i < 2 ^ k) (hv : ∀ l, v = some l → ∀ i ∈ l, i < 2 ^ k) :
    ∀ s ∈ (mergedTris u n v : List (DecodedSegment F)), SegIn k s := by
  intro s hs
  have h1 : ∀ {o : Option (List Nat)}, (∀ l, o = some l → ∀ i ∈ l, i < 2 ^ k) → ∀ {mk : List Nat → DecodedSegment F},
      (∀ l, (∀ i ∈ l, i < 2 ^ k) → SegIn k (mk l)) → s ∈ (o.map mk).toList → SegIn k s := by
    intro o ho mk hmk hs
    rw [Option.mem_toList, Option.map_eq_some_iff] at hs
    obtain ⟨a, ha, rfl⟩ := hs
    exact hmk _ (ho a ha)
  have hnv : ∀ n, (∀ i ∈ n, i < 2 ^ k) →
      s ∈ (if v = some n then [DecodedSegment.shared 3 n] else triNormal n :: (v.map triVertex).toList) → SegIn k s := by
    intro n hn hs
    split at hs
    · rw [List.mem_singleton] at hs; subst hs; exact hn
    · rcases List.mem_cons.mp hs with rfl | hs
      · exact hn
      · exact h1 hv (mk := triVertex) (fun _ h => h) hs
  cases u with
  | none =>
    cases n with
    | none => exact h1 hv (mk := triVertex) (fun _ h => h) hs
    | some n => exact hnv n (hn n rfl) hs
  | some u =>
    simp only [mergedTris] at hs
    have hu := hu u rfl
    split at hs
    · rw [List.mem_singleton] at hs; subst hs; exact hu
    split at hs
    · rcases List.mem_cons.mp hs with rfl | hs
      · exact hu
      · exact h1 hn (mk := triNormal) (fun _ h => h) hs
    split at hs
    · rcases List.mem_cons.mp hs with rfl | hs
      · exact hu
      · exact h1 hv (mk := triVertex) (fun _ h => h) hs
    · rcases List.mem_cons.mp hs with rfl | hs
      · exact hu
      · cases n with
        | none => exact h1 hv (mk := triVertex) (fun _ h => h) hs
        | some n => exact hnv n (hn n rfl) hs

theorem mergedSegs_in {F : Type} {k : Nat} {m : Mesh F} (h : ArraysIn k m) : ∀ s ∈ mergedSegs m, SegIn k s := by
  intro s hs
  simp only [mergedSegs, List.mem_append, List.mem_map, Option.mem_toList, Option.map_eq_some_iff] at hs
  rcases hs with ((⟨c, hc, rfl⟩ | ⟨a, ha, rfl⟩) | ⟨a, ha, rfl⟩) | (hs | (⟨a, ha, rfl⟩ | ⟨a, ha, rfl⟩) | ⟨a, ha, rfl⟩)
  · trivial
  · exact h.tangent a ha
  · trivial
  · exact mergedTris_in h.uv h.normal h.vertex s hs
  · trivial
  · trivial
  · trivial

section
variable {j k : Nat} {fo : FloatOps} {fb : F64Bytes fo} {b : Build} {prec : PrecisionInfo fo.F}

theorem optimizeIn_eq {s : DecodedSegment fo.F} (hj : SegIn j s) (hk : SegIn k s) : s.optimizeIn j fo b = s.optimizeIn k fo b := by
  cases s with
  | triVertex l => rw [optimizeIn, optimizeIn, optTrisIn, optTrisIn, optTrisFuelIn_eq b _ hj hk]
  | triNormal l => rw [optimizeIn, optimizeIn, optTrisIn, optTrisIn, optTrisFuelIn_eq b _ hj hk]
  | triUv l => rw [optimizeIn, optimizeIn, optTrisIn, optTrisIn, optTrisFuelIn_eq b _ hj hk]
  | triTangent l => rw [optimizeIn, optimizeIn, optTrisIn, optTrisIn, optTrisFuelIn_eq b _ hj hk]
  | shared mask l => rw [optimizeIn, optimizeIn, optTrisIn, optTrisIn, optTrisFuelIn_eq b _ hj hk]
  | _ => rfl

theorem optimizeIn_default (s : DecodedSegment fo.F) : s.optimizeIn 32 fo b = s.optimize fo b := by
  have h : ∀ l, optTrisIn 32 b l = optTris b l := fun l => optTrisFuelIn_default b _ l
  cases s <;> first | rfl | (rw [optimizeIn, optimize, h])

theorem mapAll_congr {ε α β : Type} {f g : α → Outcome ε β} : ∀ {l : List α}, (∀ a ∈ l, f a = g a) →
    Outcome.mapAll f l = Outcome.mapAll g l
  | [], _ => rfl
  | a :: l, h => by
    rw [Outcome.mapAll, Outcome.mapAll, h a (List.mem_cons_self ..), mapAll_congr fun x hx => h x (List.mem_cons_of_mem _ hx)]

theorem encodeMeshIn_eq {m : Mesh fo.F} (hj : ArraysIn j m) (hk : ArraysIn k m) :
    encodeMeshIn j fo fb b prec m = encodeMeshIn k fo fb b prec m := by
  rw [encodeMeshIn, encodeMeshIn, mergeSegments_eq]
  simp only [Outcome.bind_ok]
  rw [mapAll_congr fun s hs => optimizeIn_eq (mergedSegs_in hj s hs) (mergedSegs_in hk s hs)]

theorem encodeMeshIn_default (m : Mesh fo.F) : encodeMeshIn 32 fo fb b prec m = encodeMesh fo fb b prec m := by
  rw [encodeMeshIn, encodeMesh, show DecodedSegment.optimizeIn 32 fo b = DecodedSegment.optimize fo b from funext optimizeIn_default]

theorem forEach_congr {α : Type} {f g : α → Writes Unit} : ∀ {l : List α}, (∀ a ∈ l, f a = g a) → Writes.forEach f l = Writes.forEach g l
  | [], _ => rfl
  | a :: l, h => by
    rw [Writes.forEach, Writes.forEach, h a (List.mem_cons_self ..), forEach_congr fun x hx => h x (List.mem_cons_of_mem _ hx)]

theorem tmfBytesIn_eq {meshes : List (Mesh fo.F × List UInt8)} (hj : ∀ mn ∈ meshes, ArraysIn j mn.1) (hk : ∀ mn ∈ meshes, ArraysIn k mn.1) :
    tmfBytesIn j fo fb b prec meshes = tmfBytesIn k fo fb b prec meshes := by
  have h : Writes.forEach (writeMeshIn j fo fb b prec) meshes = Writes.forEach (writeMeshIn k fo fb b prec) meshes :=
    forEach_congr fun mn hmn => by rw [writeMeshIn, writeMeshIn, encodeMeshIn_eq (hj mn hmn) (hk mn hmn)]
  rw [tmfBytesIn, tmfBytesIn, writeTmfIn, writeTmfIn, h]

theorem tmfBytesIn_default (meshes : List (Mesh fo.F × List UInt8)) :
    tmfBytesIn 32 fo fb b prec meshes = tmfBytes fo fb b prec meshes := by
  have h : Writes.forEach (writeMeshIn 32 fo fb b prec) meshes = Writes.forEach (writeMesh fo fb b prec) meshes :=
    forEach_congr fun mn hmn => by rw [writeMeshIn, writeMesh, encodeMeshIn_default]
  rw [tmfBytesIn, tmfBytes, writeTmfIn, writeTmf, h]
  rfl

/-! ### Saved files -/

theorem triIn_encoded {b' : Build} {l : List Nat} (h : l.length ≤ 2 ^ 31 ∧ ∀ i ∈ l, i < 2 ^ 31) {d : List UInt8}
    (hd : saveTriangles b l (maxIndex l) = .ok d) : readDefaultTrianglesIn 64 b' ⟨true⟩ d = readDefaultTriangles b' ⟨true⟩ d := by
  have hm : maxIndex l < 2 ^ 31 := maxIndex_lt (by positivity) h.2
  have hp := calcPrec_le (m := maxIndex l) (k := 31) (by omega) hm
  have := (readCut_saved (le_refl 64) b b' l (by omega) (by omega) (fun i hi => le_maxIndex hi) h.1 hd []).2
  rw [List.append_nil] at this
  rw [this, decode_tri h hd, cut_of_lt fun i hi => lt_trans (h.2 i hi) (by decide)]

theorem customIn_encoded {b' : Build} {kind : SectionType} (hk : kind = .customIndex ∨ kind = .customInteger) {name : List UInt8}
    {l : List Nat} {m : Nat} (hn : name.length < 256) (hl : l.length ≤ 2 ^ 31) (hi : ∀ i ∈ l, i ≤ m ∧ i < 2 ^ 32)
    (hm : m < 2 ^ 31 ∨ 2 ^ 32 ≤ m ∧ m < 2 ^ 63) {d : List UInt8} (hd : saveTriangles b l m = .ok d) :
    CustomSeg.readIn 64 fo fb b' ⟨true⟩ kind (leBytes 1 name.length ++ name ++ d) =
      CustomSeg.read fo fb b' ⟨true⟩ kind (leBytes 1 name.length ++ name ++ d) := by
  have h1 := (readCut_saved (le_refl 64) b b' l (by omega) (custom_max hm) (fun i h => (hi i h).1) hl hd []).1
  rw [List.append_nil, cut_of_lt fun i h => lt_trans (hi i h).2 (by decide)] at h1
  obtain ⟨d', e, hr⟩ := readTriangles_saved b b' l (by omega) (custom_max hm) (fun i h => (hi i h).1) (fun i h => (hi i h).2) hl
  rw [e] at hd
  obtain rfl := Outcome.ok.inj hd
  have h2 := hr []
  rw [List.append_nil] at h2
  have hname : readCustomName.runSlice (leBytes 1 name.length ++ name ++ d') = .ok (name, d') := by
    rw [readCustomName, Prog.runSlice_bind, List.append_assoc, Prog.runSlice_readU8 _ (by omega)]
    simp only [Outcome.bind_ok]
    rw [Prog.readBytes, Prog.runSlice_readExact_append _ rfl]
    rfl
  rw [CustomSeg.readIn, CustomSeg.read, hname]
  rcases hk with rfl | rfl
  · simp only [Outcome.bind_ok, h1, h2]
  · simp only [Outcome.bind_ok, h1, h2]

/-- Decoding what was encoded, with 64-bit indices and with 32-bit ones. -/
theorem decodeIn_encoded {b' : Build} {edge : fo.F} {s : DecodedSegment fo.F} (hs : SegFits prec s)
    {prec' : PrecisionInfo fo.F} {e : EncodedSegment} (h : s.encode fo fb b prec' edge = .ok e) :
    e.decodeIn 64 fo fb b' ⟨true⟩ = e.decode fo fb b' ⟨true⟩ := by
  cases s with
  | nothing => cases h; rfl
  | vertex l => rw [encode, Outcome.bind_eq_ok] at h; obtain ⟨d, -, h⟩ := h; cases h; rfl
  | normal l => rw [encode, Outcome.bind_eq_ok] at h; obtain ⟨d, -, h⟩ := h; cases h; rfl
  | uv l => rw [encode, Outcome.bind_eq_ok] at h; obtain ⟨d, -, h⟩ := h; cases h; rfl
  | tangent l => rw [encode, Outcome.bind_eq_ok] at h; obtain ⟨d, -, h⟩ := h; cases h; rfl
  | triVertex l =>
    rw [encode, Outcome.bind_eq_ok] at h
    obtain ⟨d, hd, h⟩ := h
    cases h
    simp only [EncodedSegment.decodeIn, EncodedSegment.decode, decodeIndicesIn, decodeIndices]
    rw [triIn_encoded hs hd]
  | triNormal l =>
    rw [encode, Outcome.bind_eq_ok] at h
    obtain ⟨d, hd, h⟩ := h
    cases h
    simp only [EncodedSegment.decodeIn, EncodedSegment.decode, decodeIndicesIn, decodeIndices]
    rw [triIn_encoded hs hd]
  | triUv l =>
    rw [encode, Outcome.bind_eq_ok] at h
    obtain ⟨d, hd, h⟩ := h
    cases h
    simp only [EncodedSegment.decodeIn, EncodedSegment.decode, decodeIndicesIn, decodeIndices]
    rw [triIn_encoded hs hd]
  | triTangent l =>
    rw [encode, Outcome.bind_eq_ok] at h
    obtain ⟨d, hd, h⟩ := h
    cases h
    simp only [EncodedSegment.decodeIn, EncodedSegment.decode, decodeIndicesIn, decodeIndices]
    rw [triIn_encoded hs hd]
  | shared mask l =>
    rw [encode, Outcome.bind_eq_ok] at h
    obtain ⟨d, hd, h⟩ := h
    cases h
    simp only [EncodedSegment.decodeIn, EncodedSegment.decode]
    rw [decodeSharedIn.eq_def, decodeShared.eq_def]
    show (readDefaultTrianglesIn 64 b' ⟨true⟩ d >>= fun l => _) = (readDefaultTriangles b' ⟨true⟩ d >>= fun l => _)
    rw [triIn_encoded hs.2 hd]
  | custom c =>
    rw [encode, Outcome.bind_eq_ok] at h
    obtain ⟨d, hd, h⟩ := h
    cases h
    rw [CustomSeg.encode, Outcome.bind_eq_ok] at hd
    obtain ⟨d, hd, h⟩ := hd
    cases h
    have hs : CustomFits c := hs
    cases hs with
    | index name l m hn hl hi hm =>
      show (CustomSeg.readIn 64 fo fb b' ⟨true⟩ .customIndex _ >>= fun s => _) = (CustomSeg.read fo fb b' ⟨true⟩ .customIndex _ >>= fun s => _)
      rw [customIn_encoded (.inl rfl) hn hl hi hm hd]
    | integer name l m hn hl hi hm =>
      show (CustomSeg.readIn 64 fo fb b' ⟨true⟩ .customInteger _ >>= fun s => _) = (CustomSeg.read fo fb b' ⟨true⟩ .customInteger _ >>= fun s => _)
      rw [customIn_encoded (.inr rfl) hn hl hi hm hd]
    | float => rfl
    | color => rfl

theorem assembleIn_encoded {b' : Build} {m : Mesh fo.F} {segs : List EncodedSegment} (hm : MeshHolds m)
    (h : encodeMesh fo fb b prec m = .ok segs) : assembleMeshIn 64 fo fb b' ⟨true⟩ segs = assembleMesh fo fb b' ⟨true⟩ segs := by
  rw [encodeMesh, Outcome.bind_eq_ok] at h
  obtain ⟨edge, he, h⟩ := h
  rw [mergeSegments_eq] at h
  simp only [Outcome.bind_ok, Outcome.bind_eq_ok] at h
  obtain ⟨pieces, hp, hs⟩ := h
  let prec' : PrecisionInfo fo.F := { prec with normal := 0, tangent := 0 }
  have hfit : MeshFits prec' m := ⟨hm.vertices, hm.normals, hm.uvs, hm.tangents, hm.vertexTriangles, hm.normalTriangles,
    hm.uvTriangles, hm.tangentTriangles, hm.custom, fun _ => (by decide : 0 < 64), fun _ => (by decide : 0 < 64)⟩
  rw [assembleMeshIn, assembleMesh]
  congr 2
  refine List.map_congr_left fun e he => ?_
  obtain ⟨p, hp', h⟩ := mapAll_ok_mem' hs e he
  obtain ⟨ps, hps, hpp⟩ := List.mem_flatten.mp hp'
  obtain ⟨s, hs, ho⟩ := mapAll_ok_mem' hp ps hps
  exact decodeIn_encoded ((optimize_pieces (edge := edge) (mergedSegs_fits hfit s hs) ho).fits p hpp) h

/-! ### Framed files -/

/-- A framed mesh, read with `k`-bit indices. -/
def rawMeshIn (k : Nat) (fo : FloatOps) (fb : F64Bytes fo) (b : Build) (L : Layout) (m : RawMesh) :
    Outcome ImportError (Mesh fo.F × List UInt8) := do
  let mesh ← assembleMeshIn k fo fb b (ctxOf L).decode (m.segs.map encodedOf)
  .ok (mesh, m.name)

theorem importMeshIn_ok {L : Layout} {m : RawMesh} (h : RawMesh.Framed L m) (rest : List UInt8) :
    (importMeshIn k fo fb b (ctxOf L)).runSlice (m.bytes L ++ rest) =
      rawMeshIn k fo fb b L m >>= fun v => .ok (v, rest) := by
  rw [RawMesh.bytes, List.append_assoc, importMeshIn, Prog.runSlice_bind, meshHead, List.append_assoc,
    readString_ok h.name.len (validUtf8_of_isText h.name.utf8)]
  simp only [Outcome.bind_ok]
  rw [Prog.runSlice_bind, Prog.runSlice_readU16 _ h.count]
  simp only [Outcome.bind_ok]
  rw [Prog.runSlice_bind]
  have := readSegments_ok h.segs 0 rest
  rw [Nat.add_zero] at this
  rw [this, rawMeshIn]
  simp only [Prog.replicate, Prog.pure_eq, Prog.runSlice_ret, Outcome.bind_ok, List.append_nil]
  rw [Prog.runSlice_bind]
  cases assembleMeshIn k fo fb b (ctxOf L).decode (m.segs.map encodedOf) <;> rfl

theorem readTmfIn_file {minMinor : Nat} (h2 : minMinor ≤ 2) {meshes : List RawMesh}
    (h : ∀ m ∈ meshes, RawMesh.Framed (layoutOf minMinor) m) (hn : meshes.length < 2 ^ 32)
    (junk : List UInt8) (sched : List Nat) :
    readTmfIn k fo fb b ⟨fileBytes minMinor meshes ++ junk, sched, false⟩ =
      Outcome.mapAll (rawMeshIn k fo fb b (layoutOf minMinor)) meshes := by
  have hi : (importTmfIn k fo fb b).runSlice (fileBytes minMinor meshes ++ junk) =
      Outcome.mapAll (rawMeshIn k fo fb b (layoutOf minMinor)) meshes >>= fun vs => .ok (vs, junk) := by
    have := runSlice_replicate _ _ _ meshes 0 junk (fun m hm rest => importMeshIn_ok (k := k) (fo := fo) (fb := fb) (b := b) (h m hm) rest)
    rw [Nat.add_zero] at this
    rw [fileBytes, List.append_assoc, importTmfIn, Prog.runSlice_bind, fileHead, List.append_assoc _ (leBytes 4 _),
      readHeader_eq (by omega) (by omega) _ _ (by simp) (by simp), if_neg (by omega)]
    simp only [Outcome.bind_ok]
    rw [Prog.runSlice_bind, Prog.runSlice_readU32 _ hn]
    simp only [Outcome.bind_ok]
    rw [this]
    simp [Prog.replicate]
  have := (importTmfIn k fo fb b).run_eq ⟨fileBytes minMinor meshes ++ junk, sched, false⟩ rfl
  unfold readTmfIn
  dsimp only at this
  rw [hi] at this
  cases hm : Outcome.mapAll (rawMeshIn k fo fb b (layoutOf minMinor)) meshes with
  | ok x => rw [hm] at this; obtain ⟨s', e, _⟩ := this; rw [e]; rfl
  | err e => rw [hm] at this; rw [this]; rfl
  | panic => rw [hm] at this; rw [this]; rfl

/-- A saved file means the same to a reader with 64-bit indices and to one with 32-bit indices. -/
theorem readTmfIn_saved {b' : Build} {meshes : List (Mesh fo.F × List UInt8)} {bytes : List UInt8}
    (h : tmfBytes fo fb b prec meshes = .ok bytes) (hl : LimitsAny fo fb b prec meshes) (hS : ByteSettings prec)
    (hb : bytes.length ≤ 2 ^ 31) (junk : List UInt8) (sched : List Nat) :
    readTmfIn 64 fo fb b' ⟨bytes ++ junk, sched, false⟩ = readTmf fo fb b' ⟨bytes ++ junk, sched, false⟩ := by
  obtain ⟨enc, hE, hbs⟩ := tmfBytes_ok fo fb b prec h
  have hsz := seg_le_file h hE
  have hF := mapAll_forall₂ hE
  have hbytes : bytes = fileBytes 2 ((meshes.zip enc).map (fun p => ⟨p.1.2, p.2.map rawOf⟩)) := by
    rw [hbs, fileBytes, fileHead, List.length_map, List.length_zip, ← hF.length_eq, Nat.min_self, List.flatMap_map]
    congr 1
    exact flatMap_eq_of (fun p _ => meshBytes_eq _ _)
  have hframed : ∀ m ∈ (meshes.zip enc).map (fun p => (⟨p.1.2, p.2.map rawOf⟩ : RawMesh)), RawMesh.Framed .new m := by
    intro m hm'
    obtain ⟨p, hp, rfl⟩ := List.mem_map.mp hm'
    obtain ⟨hp1, hp2⟩ := List.of_mem_zip hp
    have he := (List.forall₂_iff_zip.mp hF).2 hp
    refine ⟨hl.names _ hp1, by simpa using hl.segments _ hp1 _ he, ?_⟩
    intro s hs
    obtain ⟨e, he', rfl⟩ := List.mem_map.mp hs
    exact rawOf_framed ((loads_mesh (b' := b') (W := False) hS (hl.holds p.1 hp1) (fun w => w.elim) he p.1.2).2 e he')
      (le_trans (hsz _ hp2 e he') hb)
  have hcount : ((meshes.zip enc).map (fun p => (⟨p.1.2, p.2.map rawOf⟩ : RawMesh))).length < 2 ^ 32 := by
    rw [List.length_map, List.length_zip]
    exact lt_of_le_of_lt (Nat.min_le_left _ _) hl.count
  rw [hbytes, readTmf_file fo fb b' (minMinor := 2) (le_refl 2) hframed hcount junk sched,
    readTmfIn_file (minMinor := 2) (le_refl 2) hframed hcount junk sched]
  refine mapAll_congr fun m hm' => ?_
  obtain ⟨p, hp, rfl⟩ := List.mem_map.mp hm'
  have he := (List.forall₂_iff_zip.mp hF).2 hp
  have hmap : (p.2.map rawOf).map encodedOf = p.2 := by
    rw [List.map_map]
    conv_rhs => rw [← List.map_id p.2]
    exact List.map_congr_left (fun x _ => encodedOf_rawOf x)
  rw [rawMeshIn, rawMesh, hmap, show (ctxOf (layoutOf 2)).decode = ⟨true⟩ from rfl,
    assembleIn_encoded (hl.holds p.1 (List.of_mem_zip hp).1) he]

end

end Tmf
