import Verif.Spec.Independent
import Verif.Lemmas.SegmentOrder
import Verif.Lemmas.FileRoundTrip
import Verif.Lemmas.IndexWidth
/-
The segments of an array depend on nothing but the array and its setting.
-/

namespace Tmf
open Spec DecodedSegment

variable {fo : FloatOps} {fb : F64Bytes fo} {b : Build}

/-- The same as `feeds`, before encoding. -/
def goesTo {F : Type} (a : MeshArray) : DecodedSegment F → Bool
  | vertex _ => a == .vertices
  | normal _ => a == .normals
  | uv _ => a == .uvs
  | tangent _ => a == .tangents
  | triVertex _ => a == .vertexTriangles
  | triNormal _ => a == .normalTriangles
  | triUv _ => a == .uvTriangles
  | triTangent _ => a == .tangentTriangles
  | custom _ => a == .custom
  | shared mask _ => match a with
    | .vertexTriangles => (mask % 256).testBit 0
    | .normalTriangles => (mask % 256).testBit 1
    | .uvTriangles => (mask % 256).testBit 2
    | _ => false
  | nothing => false

theorem optimize_goesTo (a : MeshArray) {d : DecodedSegment fo.F} {ps : List (DecodedSegment fo.F)} (h : d.optimize fo b = .ok ps) :
    ∀ p ∈ ps, goesTo a p = goesTo a d := by
  cases d <;> simp only [DecodedSegment.optimize, Outcome.bind_eq_ok] at h
  case triVertex | triUv | triNormal | triTangent | vertex | shared =>
    obtain ⟨qs, -, e⟩ := h
    cases e
    intro p hp
    obtain ⟨q, -, rfl⟩ := List.mem_map.mp hp
    rfl
  all_goals
    cases h
    intro p hp
    rw [List.mem_singleton.mp hp]

theorem encode_goesTo (a : MeshArray) {prec : PrecisionInfo fo.F} {edge : fo.F} {d : DecodedSegment fo.F} {e : EncodedSegment}
    (h : d.encode fo fb b prec edge = .ok e) : feeds a (rawOf e) = goesTo a d := by
  cases d <;> simp only [DecodedSegment.encode, Outcome.bind_eq_ok] at h
  case nothing => cases h; cases a <;> rfl
  case custom c =>
    obtain ⟨x, -, e⟩ := h
    cases e
    obtain ⟨name, data⟩ := c
    cases data <;> cases a <;> rfl
  case shared mask l =>
    obtain ⟨x, -, e⟩ := h
    cases e
    have hb : byteAt (leBytes 1 mask ++ x) 0 = mask % 256 := by
      simp [byteAt, leBytes]
    cases a <;> first | rfl | (show ((25 == _) || ((25 == 25) && (byteAt (leBytes 1 mask ++ x) 0).testBit _)) = _; rw [hb]; rfl)
  all_goals
    obtain ⟨x, -, e⟩ := h
    cases e
    cases a <;> rfl

theorem mapAll_filter {ε α β : Type} {f : α → Outcome ε β} {p : α → Bool} {q : β → Bool} (hq : ∀ x y, f x = .ok y → q y = p x) :
    ∀ {l : List α} {r : List β}, Outcome.mapAll f l = .ok r → Outcome.mapAll f (l.filter p) = .ok (r.filter q)
  | [], r, h => by cases h; rfl
  | x :: l, r, h => by
    simp only [Outcome.mapAll, Outcome.bind_eq_ok] at h
    obtain ⟨y, hy, r', hr, e⟩ := h
    cases e
    rw [List.filter_cons, List.filter_cons, hq x y hy]
    cases p x with
    | true => simp only [if_true, Outcome.mapAll, hy, Outcome.bind_ok, mapAll_filter hq hr]
    | false => simpa using mapAll_filter hq hr

theorem mapAll_filter_flatten {ε α β : Type} {f : α → Outcome ε (List β)} {p : α → Bool} {q : β → Bool}
    (hq : ∀ x ys, f x = .ok ys → ∀ y ∈ ys, q y = p x) : ∀ {l : List α} {r : List (List β)}, Outcome.mapAll f l = .ok r →
    ∃ r', Outcome.mapAll f (l.filter p) = .ok r' ∧ r'.flatten = r.flatten.filter q
  | [], r, h => by cases h; exact ⟨[], rfl, rfl⟩
  | x :: l, r, h => by
    simp only [Outcome.mapAll, Outcome.bind_eq_ok] at h
    obtain ⟨y, hy, r', hr, e⟩ := h
    cases e
    obtain ⟨r2, h2, hf⟩ := mapAll_filter_flatten hq hr
    rw [List.filter_cons, List.flatten_cons, List.filter_append]
    have hall := hq x y hy
    cases hp : p x with
    | true =>
      refine ⟨y :: r2, by simp only [if_true, Outcome.mapAll, hy, Outcome.bind_ok, h2], ?_⟩
      rw [List.flatten_cons, hf, List.filter_eq_self.mpr fun z hz => (hall z hz).trans hp]
    | false =>
      refine ⟨r2, by simpa using h2, ?_⟩
      rw [hf, List.filter_eq_nil_iff.mpr (fun z (hz : z ∈ y) => by rw [hall z hz, hp]; simp), List.nil_append]

theorem mergedTris_apart {F : Type} {a : MeshArray} (h1 : a ≠ .vertexTriangles) (h2 : a ≠ .normalTriangles) (h3 : a ≠ .uvTriangles)
    (u n v : Option (List Nat)) : (mergedTris (F := F) u n v).filter (goesTo a) = [] := by
  rw [List.filter_eq_nil_iff]
  intro s hs
  have : (∃ l, s = triVertex l) ∨ (∃ l, s = triNormal l) ∨ (∃ l, s = triUv l) ∨ ∃ k l, s = shared k l := by
    cases u <;> cases n <;> cases v <;> simp only [mergedTris, Option.map_some, Option.map_none, Option.toList_some, Option.toList_none] at hs <;>
      (repeat' split at hs) <;>
      simp only [List.mem_cons, List.not_mem_nil, or_false] at hs <;>
      (first | (rcases hs with rfl | rfl | rfl) | (rcases hs with rfl | rfl) | subst hs | exact hs.elim) <;> simp
  rcases this with ⟨l, rfl⟩ | ⟨l, rfl⟩ | ⟨l, rfl⟩ | ⟨k, l, rfl⟩
  · simpa [goesTo] using h1
  · simpa [goesTo] using h2
  · simpa [goesTo] using h3
  · cases a <;> simp_all [goesTo]

theorem filter_option {F α : Type} {a : MeshArray} {o : Option α} {c : α → DecodedSegment F} {t : Bool} (h : ∀ x, goesTo a (c x) = t) :
    ((o.map c).toList).filter (goesTo a) = if t then (o.map c).toList else [] := by
  cases o with
  | none => cases t <;> rfl
  | some x => cases t <;> simp [h x]

theorem filter_custom {F : Type} {a : MeshArray} (l : List (CustomSeg F)) :
    (l.map DecodedSegment.custom).filter (goesTo a) = if a == .custom then l.map .custom else [] := by
  induction l with
  | nil => simp
  | cons c l ih =>
    rw [List.map_cons, List.filter_cons, ih]
    cases h : a == .custom <;> simp [goesTo, h]

theorem merged_same {a : MeshArray} {prec prec' : PrecisionInfo fo.F} {m m' : Mesh fo.F} (h : SameSource a prec prec' m m') :
    (mergedSegs m').filter (goesTo a) = (mergedSegs m).filter (goesTo a) := by
  have tri : ∀ o : Option (List Nat), ((o.map (triTangent (F := fo.F))).toList).filter (goesTo a) = if a == .tangentTriangles then (o.map triTangent).toList else [] :=
    fun o => filter_option fun _ => rfl
  have tan : ∀ o : Option (List (Tangent fo.F)), ((o.map tangent).toList).filter (goesTo a) = if a == .tangents then (o.map tangent).toList else [] :=
    fun o => filter_option fun _ => rfl
  have uvs : ∀ o : Option (List (Vec2 fo.F)), ((o.map uv).toList).filter (goesTo a) = if a == .uvs then (o.map uv).toList else [] :=
    fun o => filter_option fun _ => rfl
  have nrm : ∀ o : Option (List (Vec3 fo.F)), ((o.map normal).toList).filter (goesTo a) = if a == .normals then (o.map normal).toList else [] :=
    fun o => filter_option fun _ => rfl
  have ver : ∀ o : Option (List (Vec3 fo.F)), ((o.map vertex).toList).filter (goesTo a) = if a == .vertices then (o.map vertex).toList else [] :=
    fun o => filter_option fun _ => rfl
  simp only [mergedSegs, List.filter_append, filter_custom, tri, tan, uvs, nrm, ver]
  cases a with
  | vertices => rw [mergedTris_apart (by decide) (by decide) (by decide), mergedTris_apart (by decide) (by decide) (by decide), h.1]; rfl
  | normals => rw [mergedTris_apart (by decide) (by decide) (by decide), mergedTris_apart (by decide) (by decide) (by decide), h.1]; rfl
  | uvs => rw [mergedTris_apart (by decide) (by decide) (by decide), mergedTris_apart (by decide) (by decide) (by decide), h.1]; rfl
  | tangents => rw [mergedTris_apart (by decide) (by decide) (by decide), mergedTris_apart (by decide) (by decide) (by decide), h.1]; rfl
  | vertexTriangles => rw [h.1, h.2.1, h.2.2]; rfl
  | normalTriangles => rw [h.1, h.2.1, h.2.2]; rfl
  | uvTriangles => rw [h.1, h.2.1, h.2.2]; rfl
  | tangentTriangles =>
    rw [mergedTris_apart (by decide) (by decide) (by decide), mergedTris_apart (by decide) (by decide) (by decide),
      show m'.tangentTriangles = m.tangentTriangles from h]; rfl
  | custom =>
    rw [mergedTris_apart (by decide) (by decide) (by decide), mergedTris_apart (by decide) (by decide) (by decide),
      show m'.customData = m.customData from h]; rfl

theorem encode_same {a : MeshArray} {prec prec' : PrecisionInfo fo.F} {m m' : Mesh fo.F} (h : SameSource a prec prec' m m') {edge edge' : fo.F}
    (he : calcShortestEdge fo m.vertexTriangles m.vertices = .ok edge) (he' : calcShortestEdge fo m'.vertexTriangles m'.vertices = .ok edge')
    {d : DecodedSegment fo.F} (hd : goesTo a d = true) : d.encode fo fb b prec' edge' = d.encode fo fb b prec edge := by
  cases d with
  | vertex l =>
    cases beq_iff_eq.mp hd
    obtain ⟨h1, h2, h3⟩ := h
    rw [h1, h2, he] at he'
    cases he'
    simp only [DecodedSegment.encode, h3]
  | normal l => cases beq_iff_eq.mp hd; simp only [DecodedSegment.encode, h.2]
  | uv l => cases beq_iff_eq.mp hd; simp only [DecodedSegment.encode, h.2]
  | tangent l => cases beq_iff_eq.mp hd; simp only [DecodedSegment.encode, h.2]
  | _ => rfl

/-- The segments of an array do not depend on the rest of the mesh. -/
theorem encodeMesh_same {a : MeshArray} {prec prec' : PrecisionInfo fo.F} {m m' : Mesh fo.F} (h : SameSource a prec prec' m m')
    {segs segs' : List EncodedSegment} (e : encodeMesh fo fb b prec m = .ok segs) (e' : encodeMesh fo fb b prec' m' = .ok segs') :
    (segs'.map rawOf).filter (feeds a) = (segs.map rawOf).filter (feeds a) := by
  simp only [encodeMesh, mergeSegments_eq, Outcome.bind_ok, Outcome.bind_eq_ok] at e e'
  obtain ⟨edge, he, pieces, hp, hs⟩ := e
  obtain ⟨edge', he', pieces', hp', hs'⟩ := e'
  obtain ⟨r, hr, hf⟩ := mapAll_filter_flatten (p := goesTo a) (q := goesTo a) (fun x ys hx => optimize_goesTo a hx) hp
  obtain ⟨r', hr', hf'⟩ := mapAll_filter_flatten (p := goesTo a) (q := goesTo a) (fun x ys hx => optimize_goesTo a hx) hp'
  rw [merged_same h, hr] at hr'
  cases hr'
  have x := mapAll_filter (p := goesTo a) (q := fun e => feeds a (rawOf e)) (fun x y hx => encode_goesTo a hx) hs
  have x' := mapAll_filter (p := goesTo a) (q := fun e => feeds a (rawOf e)) (fun x y hx => encode_goesTo a hx) hs'
  rw [← hf] at x
  rw [← hf', mapAll_congr (g := DecodedSegment.encode fo fb b prec edge) fun d hd => ?_, x] at x'
  · have hx := Outcome.ok.inj x'
    rw [List.filter_map, List.filter_map]
    exact congrArg (List.map rawOf) hx.symm
  · rw [hf] at hd
    exact encode_same h he he' (List.mem_filter.mp hd).2

theorem encodeMesh_uncompressed {prec : PrecisionInfo fo.F} {m : Mesh fo.F} {segs : List EncodedSegment}
    (e : encodeMesh fo fb b prec m = .ok segs) : ∀ x ∈ segs, x.compression = .none := by
  simp only [encodeMesh, Outcome.bind_eq_ok] at e
  obtain ⟨edge, -, merged, -, pieces, -, hs⟩ := e
  intro x hx
  obtain ⟨d, -, hd⟩ := mapAll_ok_mem' hs x hx
  cases d <;> simp only [DecodedSegment.encode, Outcome.bind_eq_ok] at hd <;> first | (obtain ⟨_, -, e⟩ := hd; cases e; rfl) | (cases hd; rfl)

theorem forall₂_both_at {α β : Type} {R : α → β → Prop} {l : List α} {l' : List β} (h : List.Forall₂ R l l') : ∀ {i : Nat} {x : α} {y : β},
    l[i]? = some x → l'[i]? = some y → R x y := by
  induction h with
  | nil => intro i x y hx; cases hx
  | cons h _ ih =>
    intro i x y hx hy
    cases i with
    | zero => cases hx; cases hy; exact h
    | succ i => exact ih (by simpa using hx) (by simpa using hy)

/-- What is loaded into an array comes from the segments for it. -/
theorem assembleMesh_same {ctx : DecodeCtx} {segs segs' : List RawSeg} {m m' : Mesh fo.F} {a : MeshArray}
    (hs : segs'.filter (feeds a) = segs.filter (feeds a))
    (e : assembleMesh fo fb b ctx (segs.map encodedOf) = .ok m) (e' : assembleMesh fo fb b ctx (segs'.map encodedOf) = .ok m') :
    EqualArray a m m' := by
  have ok : ∀ {segs : List RawSeg} {m : Mesh fo.F}, assembleMesh fo fb b ctx (segs.map encodedOf) = .ok m →
      ∀ s ∈ segs, ∃ d, (encodedOf s).decode fo fb b ctx = .ok d := fun e s hs =>
    assembleMesh_ok_mem fo fb b e _ (List.mem_map.mpr ⟨s, hs, rfl⟩)
  rw [assembleMesh_decoded fo fb b (ok e), applyAll_eq] at e
  rw [assembleMesh_decoded fo fb b (ok e'), applyAll_eq] at e'
  cases e
  cases e'
  cases a <;> dsimp only [EqualArray]
  · rw [flatMap_decoded fo fb b hs fun s => (decodedOr_onlyFeeds fo fb b ctx s).vertices]
  · rw [flatMap_decoded fo fb b hs fun s => (decodedOr_onlyFeeds fo fb b ctx s).normals]
  · rw [flatMap_decoded fo fb b hs fun s => (decodedOr_onlyFeeds fo fb b ctx s).uvs]
  · rw [flatMap_decoded fo fb b hs fun s => (decodedOr_onlyFeeds fo fb b ctx s).tangents]
  · rw [flatMap_decoded fo fb b hs fun s => (decodedOr_onlyFeeds fo fb b ctx s).vertexTriangles]
  · rw [flatMap_decoded fo fb b hs fun s => (decodedOr_onlyFeeds fo fb b ctx s).normalTriangles]
  · rw [flatMap_decoded fo fb b hs fun s => (decodedOr_onlyFeeds fo fb b ctx s).uvTriangles]
  · rw [flatMap_decoded fo fb b hs fun s => (decodedOr_onlyFeeds fo fb b ctx s).tangentTriangles]
  · rw [flatMap_decoded fo fb b hs fun s => (decodedOr_onlyFeeds fo fb b ctx s).custom]

end Tmf
