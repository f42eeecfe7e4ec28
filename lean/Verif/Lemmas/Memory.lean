import Verif.Spec.Memory
import Verif.Lemmas.DecodedSize
import Verif.Lemmas.Assemble
/-
Lemmas for C98.
-/

namespace Tmf

theorem leNat_take_lt (k : Nat) {l : List UInt8} (h : k ≤ l.length) : leNat (l.take k) < 256 ^ k := by
  have := leNat_lt (l.take k)
  rwa [List.length_take, Nat.min_eq_left h] at this

theorem readMany_len {α : Type} {f : BitReader → Outcome ImportError (α × BitReader)} :
    ∀ {n : Nat} {r r' : BitReader} {l : List α}, readMany f n r = .ok (l, r') → l.length = n
  | 0, _, _, _, e => by cases e; rfl
  | n + 1, _, _, _, e => by
    simp only [readMany, Outcome.bind_eq_ok] at e
    obtain ⟨⟨a, r1⟩, e1, ⟨l', r2⟩, e2, e3⟩ := e
    cases e3
    rw [List.length_cons, readMany_len e2]

theorem readIndexPairs_len {b : Build} {w min : Nat} :
    ∀ {n : Nat} {r r' : BitReader} {l : List Nat}, readIndexPairs b w min n r = .ok (l, r') → l.length = 2 * n
  | 0, _, _, _, e => by cases e; rfl
  | n + 1, _, _, _, e => by
    simp only [readIndexPairs, Outcome.bind_eq_ok] at e
    obtain ⟨⟨⟨a, c⟩, r1⟩, e1, x, ex, y, ey, ⟨l', r2⟩, e2, e3⟩ := e
    cases e3
    rw [List.length_cons, List.length_cons, readIndexPairs_len e2]
    omega

theorem readIndices_len {b : Build} {w min n : Nat} {r : BitReader} {l : List Nat}
    (e : readIndices b w min n r = .ok l) : l.length = n := by
  unfold readIndices at e
  rw [Outcome.bind_eq_ok] at e
  obtain ⟨⟨l1, r1⟩, e1, e⟩ := e
  have hl := readIndexPairs_len e1
  dsimp only at e
  split at e
  · simp only [Outcome.bind_eq_ok] at e
    obtain ⟨⟨i, r2⟩, e2, x, ex, e3⟩ := e
    cases e3
    simp only [List.length_append, List.length_singleton]
    omega
  · cases e
    omega

theorem readTriangles_asks {b : Build} {ctx : DecodeCtx} {data : List UInt8} {l : List Nat}
    (e : readTriangles b ctx data = .ok l) : indexRequest ctx data = some (4 * l.length) := by
  unfold readTriangles at e
  rw [Outcome.bind_eq_ok] at e
  obtain ⟨⟨⟨w, n, min⟩, rest⟩, e1, e2⟩ := e
  rw [indexRequest, e1, sized, readIndices_len e2]

theorem readDefaultTriangles_asks {b : Build} {ctx : DecodeCtx} {data : List UInt8} {l : List Nat}
    (e : readDefaultTriangles b ctx data = .ok l) : indexRequest ctx data = some (4 * l.length) := by
  unfold readDefaultTriangles at e
  rw [Outcome.bind_eq_ok] at e
  obtain ⟨⟨⟨w, n, min⟩, rest⟩, e1, e2⟩ := e
  dsimp only at e2
  rw [indexRequest, e1, sized]
  split at e2
  · cases e2
    rw [List.length_replicate]
  · rw [readIndices_len e2]

variable {fo : FloatOps} {fb : F64Bytes fo}

theorem readCustom_asks {b : Build} {ctx : DecodeCtx} {kind : SectionType} {comp : CompressionType} {data : List UInt8}
    {s : CustomSeg fo.F} (hk : kind = .customIndex ∨ kind = .customInteger ∨ kind = .customFloat ∨ kind = .customColor)
    (e : CustomSeg.read fo fb b ctx kind data = .ok s) : (⟨kind, comp, data⟩ : EncodedSegment).arrayBytes fo fb ctx =
      some (kind.elementBytes * (DecodedSegment.custom s).elements) := by
  unfold CustomSeg.read at e
  rw [Outcome.bind_eq_ok] at e
  obtain ⟨⟨name, rest⟩, e1, e⟩ := e
  rcases hk with rfl | rfl | rfl | rfl
  · simp only [Outcome.bind_eq_ok] at e
    obtain ⟨l, e2, e3⟩ := e
    cases e3
    simp only [EncodedSegment.arrayBytes, e1]
    exact readTriangles_asks e2
  · simp only [Outcome.bind_eq_ok] at e
    obtain ⟨l, e2, e3⟩ := e
    cases e3
    simp only [EncodedSegment.arrayBytes, e1]
    exact readTriangles_asks e2
  · simp only [Outcome.bind_eq_ok] at e
    obtain ⟨d, e2, e3⟩ := e
    cases e3
    unfold readFloats at e2
    rw [Outcome.bind_eq_ok] at e2
    obtain ⟨⟨⟨n, lo, hi, w⟩, rest'⟩, h1, e2⟩ := e2
    simp only [Outcome.bind_eq_ok] at e2
    obtain ⟨⟨l, r⟩, h2, e3⟩ := e2
    cases e3
    simp only [EncodedSegment.arrayBytes, e1, h1, sized, DecodedSegment.elements, SectionType.elementBytes, readMany_len h2]
  · simp only [Outcome.bind_eq_ok] at e
    obtain ⟨d, e2, e3⟩ := e
    cases e3
    unfold readColors at e2
    rw [Outcome.bind_eq_ok] at e2
    obtain ⟨⟨⟨n, w⟩, rest'⟩, h1, e2⟩ := e2
    dsimp only at e2
    split at e2
    · cases e2
    next hn =>
    simp only [Outcome.bind_eq_ok] at e2
    obtain ⟨pow, _, ⟨l, r⟩, h2, e3⟩ := e2
    cases e3
    simp only [EncodedSegment.arrayBytes, e1, colorRequest, h1, sized, DecodedSegment.elements, SectionType.elementBytes,
      readMany_len h2]
    rw [if_neg hn]

theorem decodeIndices_asks {b : Build} {ctx : DecodeCtx} {seg : EncodedSegment} {l : List Nat}
    (e : decodeIndices b ctx seg = .ok l) :
    (if seg.compression = .none then indexRequest ctx seg.data else none) = some (4 * l.length) := by
  unfold decodeIndices at e
  split at e
  · next h => rw [if_pos h]; exact readDefaultTriangles_asks e
  all_goals cases e

/-- A segment that decodes asked for exactly the size of its array. -/
theorem decode_asks {b : Build} {ctx : DecodeCtx} {seg : EncodedSegment} {d : DecodedSegment fo.F}
    (e : seg.decode fo fb b ctx = .ok d) (h : seg.segType ≠ .invalid) :
    seg.arrayBytes fo fb ctx = some (seg.segType.elementBytes * d.elements) := by
  obtain ⟨kind, comp, data⟩ := seg
  cases kind
  case invalid => exact absurd rfl h
  case sharedTriangle =>
    simp only [EncodedSegment.decode] at e
    cases data with
    | nil => cases e
    | cons mask rest =>
      simp only [decodeShared] at e
      split at e
      · rw [Outcome.bind_eq_ok] at e
        obtain ⟨l, e1, e2⟩ := e
        cases e2
        exact readDefaultTriangles_asks e1
      · cases e
  all_goals
    simp only [EncodedSegment.decode, Outcome.bind_eq_ok] at e
    obtain ⟨l, e1, e2⟩ := e
    cases e2
  case vertex =>
    unfold readVertices at e1
    rw [Outcome.bind_eq_ok] at e1
    obtain ⟨⟨⟨n, s, p⟩, rest⟩, h1, e1⟩ := e1
    simp only [Outcome.bind_eq_ok] at e1
    obtain ⟨⟨l', r⟩, h2, e3⟩ := e1
    cases e3
    simp only [EncodedSegment.arrayBytes, h1, sized, DecodedSegment.elements, SectionType.elementBytes, readMany_len h2]
  case normal =>
    unfold readNormals at e1
    rw [Outcome.bind_eq_ok] at e1
    obtain ⟨⟨⟨n, p⟩, rest⟩, h1, e1⟩ := e1
    simp only [Outcome.bind_eq_ok] at e1
    obtain ⟨⟨l', r⟩, h2, e3⟩ := e1
    cases e3
    simp only [EncodedSegment.arrayBytes, h1, sized, DecodedSegment.elements, SectionType.elementBytes, readMany_len h2]
  case tangent =>
    unfold readTangents at e1
    rw [Outcome.bind_eq_ok] at e1
    obtain ⟨⟨⟨n, p⟩, rest⟩, h1, e1⟩ := e1
    simp only [Outcome.bind_eq_ok] at e1
    obtain ⟨⟨l', r⟩, h2, e3⟩ := e1
    cases e3
    simp only [EncodedSegment.arrayBytes, h1, sized, DecodedSegment.elements, SectionType.elementBytes, readMany_len h2]
  case uv =>
    unfold readUvs at e1
    rw [Outcome.bind_eq_ok] at e1
    obtain ⟨⟨⟨w, n⟩, rest⟩, h1, e1⟩ := e1
    dsimp only at e1
    simp only [EncodedSegment.arrayBytes, h1, DecodedSegment.elements, SectionType.elementBytes]
    split at e1
    · next h0 =>
      cases e1
      rw [if_neg (by omega), List.length_replicate]
    · split at e1
      · cases e1
      next h0 =>
      rw [if_neg h0]
      simp only [Outcome.bind_eq_ok] at e1
      obtain ⟨⟨l', r⟩, h2, e3⟩ := e1
      cases e3
      rw [readMany_len h2]
  case vertexTriangle => exact decodeIndices_asks e1
  case normalTriangle => exact decodeIndices_asks e1
  case uvTriangle => exact decodeIndices_asks e1
  case tangentTriangle => exact decodeIndices_asks e1
  all_goals exact readCustom_asks (by simp) e1

theorem elementBytes_le (t : SectionType) : t.elementBytes ≤ 16 := by cases t <;> decide

theorem arrayBytes_invalid {ctx : DecodeCtx} {seg : EncodedSegment} (h : seg.segType = .invalid) :
    seg.arrayBytes fo fb ctx = none := by
  rw [EncodedSegment.arrayBytes, h]

/-! ### Sizes of single requests -/

theorem sized_le {α : Type} {size bound n : Nat} {count : α → Nat} {o : Outcome ImportError (α × List UInt8)}
    (h : sized size count o = some n) (hb : ∀ a rest, o = .ok (a, rest) → count a ≤ bound) : n ≤ size * bound := by
  unfold sized at h
  split at h
  · next a rest =>
    cases h
    exact Nat.mul_le_mul_left _ (hb a rest rfl)
  · cases h

theorem trianglesHeader_count {ctx : DecodeCtx} {l rest : List UInt8} {h : Nat × Nat × Nat}
    (e : (readTrianglesHeader ctx).runSlice l = .ok (h, rest)) : h.2.1 ≤ 2 ^ 31 := by
  simp only [readTrianglesHeader, Prog.runSlice_bind, Outcome.bind_eq_ok] at e
  obtain ⟨_, _, ⟨n, _⟩, _, _, _, e⟩ := e
  split at e
  · cases e
  · next hn =>
    cases e
    exact Nat.le_of_not_lt hn

theorem indexRequest_le {ctx : DecodeCtx} {l : List UInt8} {n : Nat} (h : indexRequest ctx l = some n) : n ≤ 4 * 2 ^ 31 :=
  sized_le h fun _ _ e => trianglesHeader_count e

theorem normalsHeader_count {l rest : List UInt8} {h : Nat × Nat} (e : readNormalsHeader.runSlice l = .ok (h, rest)) :
    h.1 ≤ 2 ^ 31 := by
  simp only [readNormalsHeader, Prog.runSlice_bind, Outcome.bind_eq_ok] at e
  obtain ⟨⟨n, _⟩, _, e⟩ := e
  dsimp only at e
  split at e
  · cases e
  · next hn =>
    simp only [Prog.runSlice_bind, Outcome.bind_eq_ok] at e
    obtain ⟨_, _, e⟩ := e
    cases e
    exact Nat.le_of_not_lt hn

theorem floatsHeader_count {l rest : List UInt8} {h : Nat × fo.D × fo.D × Nat}
    (e : (readFloatsHeader fb).runSlice l = .ok (h, rest)) : h.1 ≤ 2 ^ 31 := by
  simp only [readFloatsHeader, Prog.runSlice_bind, Outcome.bind_eq_ok] at e
  obtain ⟨⟨n, _⟩, _, e⟩ := e
  dsimp only at e
  split at e
  · cases e
  · next hn =>
    simp only [Prog.runSlice_bind, Outcome.bind_eq_ok] at e
    obtain ⟨_, _, _, _, _, _, e⟩ := e
    cases e
    exact Nat.le_of_not_lt hn

theorem verticesHeader_count {l rest : List UInt8} {h : Nat × VBox fo.F × (Nat × Nat × Nat)}
    (e : (readVerticesHeader fo fb).runSlice l = .ok (h, rest)) : h.1 ≤ 2 ^ 31 := by
  simp only [readVerticesHeader, Prog.runSlice_bind, Outcome.bind_eq_ok] at e
  obtain ⟨⟨n, _⟩, _, _, _, _, _, _, _, _, _, _, _, _, _, _, _, _, _, _, _, e⟩ := e
  dsimp only at e
  split at e
  · cases e
  · next hn =>
    cases e
    exact Nat.le_of_not_lt hn

theorem uvsHeader_count {l rest : List UInt8} {h : Nat × Nat} (e : readUvsHeader.runSlice l = .ok (h, rest)) :
    h.2 ≤ 2 ^ 31 := by
  simp only [readUvsHeader, Prog.runSlice_bind, Outcome.bind_eq_ok] at e
  obtain ⟨_, _, ⟨n, _⟩, _, e⟩ := e
  dsimp only at e
  split at e
  · cases e
  · next hn =>
    cases e
    exact Nat.le_of_not_lt hn

/-- Arrays other than colours are bounded by the largest length allowed. -/
theorem arrayBytes_le {ctx : DecodeCtx} {seg : EncodedSegment} {n : Nat} (h : seg.arrayBytes fo fb ctx = some n)
    (hc : seg.segType ≠ .customColor) : n ≤ seg.segType.elementBytes * 2 ^ 31 := by
  obtain ⟨kind, comp, data⟩ := seg
  cases kind <;> simp only [EncodedSegment.arrayBytes] at h <;> simp only [SectionType.elementBytes]
  case invalid => cases h
  case vertex => exact sized_le h fun _ _ e => verticesHeader_count e
  case normal => exact sized_le h fun _ _ e => normalsHeader_count e
  case tangent => exact sized_le h fun _ _ e => normalsHeader_count e
  case uv =>
    split at h
    · next hh =>
      have := uvsHeader_count hh
      dsimp only at this
      split at h
      · cases h
      · cases h
        omega
    · cases h
  case customColor => exact absurd rfl hc
  case customFloat =>
    split at h
    · exact sized_le h fun _ _ e => floatsHeader_count e
    · cases h
  case sharedTriangle =>
    split at h
    · cases h
    · split at h
      · exact indexRequest_le h
      · cases h
  all_goals
    split at h
    · exact indexRequest_le h
    · cases h

/-- No array exceeds `isize::MAX` bytes. -/
theorem arrayBytes_le_isize {ctx : DecodeCtx} {seg : EncodedSegment} {n : Nat} (h : seg.arrayBytes fo fb ctx = some n) :
    n < 2 ^ 63 := by
  by_cases hc : seg.segType = .customColor
  · rw [EncodedSegment.arrayBytes, hc] at h
    dsimp only at h
    split at h
    · unfold colorRequest at h
      split at h
      · split at h
        · cases h
        · cases h
          omega
      · cases h
    · cases h
  · have := arrayBytes_le h hc
    have := Nat.mul_le_mul_right (2 ^ 31) (elementBytes_le seg.segType)
    omega

/-! ### Following the import -/

theorem readSegment_eq (ctx : ImportCtx) (bytes : List UInt8) : (readSegment ctx).runSlice bytes =
    (readSegmentHead ctx).runSlice bytes >>= fun x =>
      ((Prog.readBytes x.1.2.2 >>= fun data => pure ⟨x.1.1, x.1.2.1, data⟩ : Prog EncodedSegment)).runSlice x.2 := by
  rw [← Prog.runSlice_bind (readSegmentHead ctx)
    (fun h => Prog.readBytes h.2.2 >>= fun data => pure (⟨h.1, h.2.1, data⟩ : EncodedSegment))]
  congr 1
  simp only [readSegment, readSegmentHead, Prog.bind_assoc']
  congr 1
  funext t
  congr 1
  funext len
  split
  · rfl
  · simp only [Prog.bind_assoc']
    rfl

theorem segmentHead_len {ctx : ImportCtx} {bytes rest : List UInt8} {t : SectionType} {c : CompressionType} {len : Nat}
    (e : (readSegmentHead ctx).runSlice bytes = .ok ((t, c, len), rest)) : len ≤ 2 ^ 31 := by
  simp only [readSegmentHead, Prog.runSlice_bind, Outcome.bind_eq_ok] at e
  obtain ⟨_, _, ⟨n, _⟩, _, e⟩ := e
  dsimp only at e
  split at e
  · cases e
  · next hn =>
    simp only [Prog.runSlice_bind, Outcome.bind_eq_ok] at e
    obtain ⟨_, _, _, _, e⟩ := e
    cases e
    exact Nat.le_of_not_lt hn

/-- If the segments are read, the requests were followed to the end. -/
theorem segmentRequests_ok {ctx : ImportCtx} : ∀ {n : Nat} {bytes rest : List UInt8} {segs : List EncodedSegment},
    (Prog.replicate n (readSegment ctx)).runSlice bytes = .ok (segs, rest) →
      (segmentRequests ctx n bytes).2 = some (segs, rest)
  | 0, _, _, _, e => by cases e; rfl
  | n + 1, bytes, rest, segs, e => by
    rw [Prog.replicate, Prog.runSlice_bind, readSegment_eq, Outcome.bind_eq_ok] at e
    obtain ⟨⟨seg, rest₁⟩, e1, e⟩ := e
    rw [Outcome.bind_eq_ok] at e1
    obtain ⟨⟨⟨t, c, len⟩, rest₀⟩, e0, e1⟩ := e1
    rw [segmentRequests, e0]
    dsimp only at e1 ⊢
    rw [Prog.runSlice_bind, Outcome.bind_eq_ok] at e1
    obtain ⟨⟨data, rest₂⟩, e1, e2⟩ := e1
    cases e2
    rw [Prog.readBytes, Prog.runSlice_readExact] at e1
    split at e1
    · next hl =>
      cases e1
      rw [if_pos hl]
      dsimp only at e ⊢
      rw [Prog.runSlice_bind, Outcome.bind_eq_ok] at e
      obtain ⟨⟨l, rest₃⟩, e3, e4⟩ := e
      cases e4
      rw [segmentRequests_ok e3]
      rfl
    · cases e1

/-- The data of the segments that were read. -/
theorem segmentRequests_total {ctx : ImportCtx} : ∀ {n : Nat} {bytes rest : List UInt8} {segs : List EncodedSegment},
    (segmentRequests ctx n bytes).2 = some (segs, rest) →
      totalBytes (segmentRequests ctx n bytes).1 = (segs.map (fun s => s.data.length)).sum ∧
      (segs.map (fun s => s.data.length)).sum + rest.length ≤ bytes.length
  | 0, _, _, _, e => by
    cases e
    exact ⟨rfl, by simp⟩
  | n + 1, bytes, rest, segs, e => by
    rw [segmentRequests] at e ⊢
    split at e
    · next t c len rest₀ e0 =>
      split at e
      · next hl =>
        have hr := rest_le e0
        dsimp only at e
        rw [Option.map_eq_some_iff] at e
        obtain ⟨⟨segs', rest'⟩, e1, e2⟩ := e
        cases e2
        obtain ⟨h1, h2⟩ := segmentRequests_total e1
        rw [List.length_drop] at h2
        rw [if_pos hl]
        have hlen : (rest₀.take len).length = len := by rw [List.length_take, Nat.min_eq_left hl]
        refine ⟨?_, ?_⟩
        · rw [totalBytes, List.map_cons, List.sum_cons]
          change len + totalBytes _ = _
          rw [h1, List.map_cons, List.sum_cons, hlen]
        · rw [List.map_cons, List.sum_cons, hlen]
          dsimp only
          omega
      · cases e
    · cases e

theorem totalBytes_append (l l' : List Request) : totalBytes (l ++ l') = totalBytes l + totalBytes l' := by
  rw [totalBytes, List.map_append, List.sum_append]
  rfl

theorem totalBytes_cons (r : Request) (l : List Request) : totalBytes (r :: l) = r.bytes + totalBytes l := by
  rw [totalBytes, List.map_cons, List.sum_cons]
  rfl

theorem arrayRequests_cons (ctx : DecodeCtx) (s : EncodedSegment) (segs : List EncodedSegment) :
    arrayRequests fo fb ctx (s :: segs) =
      ((s.arrayBytes fo fb ctx).map (Request.array s)).toList ++ arrayRequests fo fb ctx segs := by
  rw [arrayRequests, List.filterMap_cons]
  cases s.arrayBytes fo fb ctx <;> rfl

/-- What the arrays of segments that decode take, when their elements take bits. -/
theorem arrayRequests_total {b : Build} {ctx : DecodeCtx} : ∀ {segs : List EncodedSegment},
    (∀ s ∈ segs, ∃ d, s.decode fo fb b ctx = .ok d) →
    (∀ s n, .array s n ∈ arrayRequests fo fb ctx segs → TakesBits s.segType s.data) →
      totalBytes (arrayRequests fo fb ctx segs) ≤ 128 * (segs.map (fun s => s.data.length)).sum
  | [], _, _ => by simp [arrayRequests, totalBytes]
  | s :: segs, hd, ht => by
    rw [arrayRequests_cons, totalBytes_append, List.map_cons, List.sum_cons]
    have ih := arrayRequests_total (segs := segs) (fun x hx => hd x (List.mem_cons_of_mem _ hx))
      (fun x n hx => ht x n (by rw [arrayRequests_cons]; exact List.mem_append_right _ hx))
    have : totalBytes ((s.arrayBytes fo fb ctx).map (Request.array s)).toList ≤ 128 * s.data.length := by
      by_cases hi : s.segType = .invalid
      · rw [arrayBytes_invalid hi]
        exact Nat.zero_le _
      · obtain ⟨d, e⟩ := hd s (List.mem_cons_self ..)
        have ha := decode_asks e hi
        have hT : TakesBits s.segType s.data := ht s (s.segType.elementBytes * d.elements) (by
          rw [arrayRequests_cons, ha]
          exact List.mem_append_left _ (List.mem_cons_self ..))
        have h8 := decode_size e hT
        rw [ha]
        change (s.segType.elementBytes * d.elements + 0 : Nat) ≤ _
        have h16 := Nat.mul_le_mul (elementBytes_le s.segType) h8
        omega
    omega

/-- A mesh that loads. -/
theorem meshRequests_ok {b : Build} {ctx : ImportCtx} {bytes rest : List UInt8} {m : Mesh fo.F × List UInt8}
    (e : (importMesh fo fb b ctx).runSlice bytes = .ok (m, rest)) :
    (meshRequests fo fb b ctx bytes).2 = some rest ∧
      ((∀ s n, .array s n ∈ (meshRequests fo fb b ctx bytes).1 → TakesBits s.segType s.data) →
        totalBytes (meshRequests fo fb b ctx bytes).1 + 129 * rest.length ≤ 129 * bytes.length) := by
  simp only [importMesh, readString, Prog.runSlice_bind, Outcome.bind_eq_ok] at e
  obtain ⟨⟨name, rest₁⟩, e1, ⟨count, rest₂⟩, e2, ⟨segs, rest₃⟩, e3, ⟨mesh, rest₄⟩, e4, e5⟩ := e
  obtain ⟨⟨n, rest₀⟩, e0, ⟨name', restN⟩, en, e1⟩ := e1
  dsimp only at en e1 e2 e3 e4 e5
  cases e5
  rw [Prog.readBytes, Prog.runSlice_readExact] at en
  split at en
  swap
  · cases en
  next hn =>
  cases en
  split at e1
  swap
  · cases e1
  next hv =>
  cases e1
  have h3 := segmentRequests_ok e3
  have ha : assembleMesh fo fb b ctx.decode segs = .ok mesh ∧ rest₃ = rest := by
    cases hm : assembleMesh fo fb b ctx.decode segs with
    | ok x => rw [hm] at e4; cases e4; exact ⟨rfl, rfl⟩
    | err x => rw [hm] at e4; cases e4
    | panic => rw [hm] at e4; cases e4
  obtain ⟨ha, rfl⟩ := ha
  have hm : meshRequests fo fb b ctx bytes =
      (.name n :: (segmentRequests ctx count rest₂).1 ++ arrayRequests fo fb ctx.decode segs, some rest₃) := by
    simp only [meshRequests, e0]
    rw [if_pos ⟨hn, hv⟩]
    simp only [e2, h3, ha]
  rw [hm]
  refine ⟨rfl, fun ht => ?_⟩
  dsimp only at ht ⊢
  obtain ⟨t1, t2⟩ := segmentRequests_total h3
  have t3 := arrayRequests_total (fo := fo) (fb := fb) (b := b) (ctx := ctx.decode) (segs := segs)
    (fun s hs => by obtain ⟨v, hv⟩ := assembleMesh_ok_mem fo fb b ha s hs; exact ⟨v, hv⟩)
    (fun s k hs => ht s k (List.mem_append_right _ hs))
  have l0 := rest_le e0
  have l2 := rest_le e2
  rw [List.length_drop] at l2
  rw [List.cons_append, totalBytes_cons, totalBytes_append, t1]
  simp only [Request.bytes]
  omega

theorem meshesRequests_total {b : Build} {ctx : ImportCtx} : ∀ {n : Nat} {bytes rest : List UInt8}
    {l : List (Mesh fo.F × List UInt8)},
    (Prog.replicate n (importMesh fo fb b ctx)).runSlice bytes = .ok (l, rest) →
    (∀ s k, .array s k ∈ meshesRequests fo fb b ctx n bytes → TakesBits s.segType s.data) →
      totalBytes (meshesRequests fo fb b ctx n bytes) + 129 * rest.length ≤ 129 * bytes.length
  | 0, bytes, rest, _, e, _ => by
    cases e
    simp [meshesRequests, totalBytes]
  | n + 1, bytes, rest, l, e, ht => by
    rw [Prog.replicate, Prog.runSlice_bind, Outcome.bind_eq_ok] at e
    obtain ⟨⟨m, rest₁⟩, e1, e⟩ := e
    dsimp only at e
    rw [Prog.runSlice_bind, Outcome.bind_eq_ok] at e
    obtain ⟨⟨l', rest₂⟩, e2, e3⟩ := e
    cases e3
    obtain ⟨h1, h2⟩ := meshRequests_ok e1
    have hm : meshesRequests fo fb b ctx (n + 1) bytes =
        (meshRequests fo fb b ctx bytes).1 ++ meshesRequests fo fb b ctx n rest₁ := by
      simp only [meshesRequests, h1]
    rw [hm] at ht ⊢
    have := h2 fun s k hs => ht s k (List.mem_append_left _ hs)
    have := meshesRequests_total e2 fun s k hs => ht s k (List.mem_append_right _ hs)
    rw [totalBytes_append]
    dsimp only
    omega

/-! ### Every request -/

/-- What every request made while following a file satisfies. -/
def Request.Known (fo : FloatOps) (fb : F64Bytes fo) : Request → Prop
  | name n => n < 2 ^ 16
  | data n => n ≤ 2 ^ 31
  | array s n => ∃ ctx, s.arrayBytes fo fb ctx = some n

theorem known_segments {ctx : ImportCtx} : ∀ (n : Nat) (bytes : List UInt8), ∀ r ∈ (segmentRequests ctx n bytes).1,
    r.Known fo fb
  | 0, _, r, h => absurd h List.not_mem_nil
  | n + 1, bytes, r, h => by
    rw [segmentRequests] at h
    split at h
    · next e0 =>
      have hl := segmentHead_len e0
      split at h
      · rcases List.mem_cons.mp h with rfl | h
        · exact hl
        · exact known_segments n _ r h
      · rcases List.mem_singleton.mp h with rfl
        exact hl
    · exact absurd h List.not_mem_nil

theorem known_arrays {ctx : DecodeCtx} {segs : List EncodedSegment} {r : Request}
    (h : r ∈ arrayRequests fo fb ctx segs) : r.Known fo fb := by
  obtain ⟨s, _, h⟩ := List.mem_filterMap.mp h
  obtain ⟨n, hn, rfl⟩ := Option.map_eq_some_iff.mp h
  exact ⟨ctx, hn⟩

theorem known_mesh {b : Build} {ctx : ImportCtx} {bytes : List UInt8} : ∀ r ∈ (meshRequests fo fb b ctx bytes).1,
    r.Known fo fb := by
  intro r h
  unfold meshRequests at h
  split at h
  swap
  · exact absurd h List.not_mem_nil
  next n rest e0 =>
  have hn : (Request.name n).Known fo fb := (readU16_inv e0).1
  split at h
  · split at h
    · dsimp only at h
      split at h
      · rcases List.mem_append.mp h with h | h
        · rcases List.mem_cons.mp h with rfl | h
          · exact hn
          · exact known_segments _ _ r h
        · exact known_arrays h
      · rcases List.mem_cons.mp h with rfl | h
        · exact hn
        · exact known_segments _ _ r h
    · rcases List.mem_singleton.mp h with rfl
      exact hn
  · rcases List.mem_singleton.mp h with rfl
    exact hn

theorem known_meshes {b : Build} {ctx : ImportCtx} : ∀ (n : Nat) (bytes : List UInt8),
    ∀ r ∈ meshesRequests fo fb b ctx n bytes, r.Known fo fb
  | 0, _, r, h => absurd h List.not_mem_nil
  | n + 1, bytes, r, h => by
    rw [meshesRequests] at h
    rcases List.mem_append.mp h with h | h
    · exact known_mesh r h
    · split at h
      · exact known_meshes n _ r h
      · exact absurd h List.not_mem_nil

theorem known_file {b : Build} {bytes : List UInt8} : ∀ r ∈ fileRequests fo fb b bytes, r.Known fo fb := by
  intro r h
  unfold fileRequests at h
  split at h
  · exact known_meshes _ _ r h
  · exact absurd h List.not_mem_nil

end Tmf
