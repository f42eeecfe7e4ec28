import Verif.Lemmas.FileRoundTrip
import Verif.Lemmas.OptVertices
import Verif.Lemmas.Verify
import Verif.Spec.SaveOk
/-
Lemmas about saving without a panic.
-/

namespace Tmf
open Spec DecodedSegment
variable {fo : FloatOps} {fb : F64Bytes fo} {b : Build} {prec : PrecisionInfo fo.F}

theorem writeAll_runs (b : Build) : ∀ (l : List (Nat × Nat)) (w : BitWriter), (b = .checked → ∀ f ∈ l, f.1 ≤ 64) →
    ∃ w', BitWriter.writeAll b l w = .ok w' := by
  intro l
  induction l with
  | nil => intro w _; exact ⟨w, rfl⟩
  | cons f l ih =>
    intro w h
    have : ∃ w', w.write b f.1 f.2 = .ok w' := by
      unfold BitWriter.write
      split
      · exact ⟨_, rfl⟩
      · split
        · exact ⟨_, rfl⟩
        · next hc =>
          cases b with
          | checked => exact absurd (h rfl f (by simp)) hc
          | wrapping => exact ⟨_, rfl⟩
    obtain ⟨w', hw⟩ := this
    obtain ⟨w'', hw'⟩ := ih w' (fun hb g hg => h hb g (by simp [hg]))
    refine ⟨w'', ?_⟩
    rw [BitWriter.writeAll, hw, Outcome.bind_ok, hw']

theorem mulI32_runs {p : Nat} (h : b = .checked → p ≤ 30) : ∃ m, mulI32 b p = .ok m := by
  cases b with
  | checked => exact ⟨2 ^ p - 1, by simp [mulI32, h rfl]⟩
  | wrapping => exact ⟨_, rfl⟩

theorem saveTriangles_runs (l : List Nat) {k : Nat} (hk : k < 2 ^ 32) : ∃ d, saveTriangles b l k = .ok d := by
  have hp : calcPrec k ≤ 64 := (calcPrec_le (k := 32) (by omega) hk).trans (by decide)
  obtain ⟨w, hw⟩ := writeAll_runs b (l.map (fun i => (calcPrec k, i - minIndex l))) .new (by
    intro _ f hf
    obtain ⟨i, _, rfl⟩ := List.mem_map.mp hf
    exact hp)
  unfold saveTriangles
  simp only
  rw [hw, Outcome.bind_ok]
  exact ⟨_, rfl⟩

theorem saveUvs_ok (l : List (Vec2 fo.F)) {p : Nat} (h : b = .checked → p ≤ 30) : ∃ d, saveUvs fo b l p = .ok d := by
  obtain ⟨m, hm⟩ := mulI32_runs h
  obtain ⟨w, hw⟩ := writeAll_runs b (l.flatMap (uvFields fo p m)) .new (by
    intro hb f hf
    obtain ⟨u, _, hu⟩ := List.mem_flatMap.mp hf
    have hp := h hb
    simp only [uvFields, List.mem_cons, List.not_mem_nil, or_false] at hu
    rcases hu with rfl | rfl <;> (dsimp only; omega))
  unfold saveUvs
  rw [hm, Outcome.bind_ok, hw, Outcome.bind_ok]
  exact ⟨_, rfl⟩

theorem saveNormals_ok (l : List (Vec3 fo.F)) {p : Nat} (h : b = .checked → l ≠ [] → p ≤ 30) :
    ∃ d, saveNormals fo b l p = .ok d := by
  cases l with
  | nil => exact ⟨leBytes 8 0 ++ leBytes 1 p ++ [], rfl⟩
  | cons a l =>
    have h' : b = .checked → p ≤ 30 := fun hb => h hb (by simp)
    obtain ⟨m, hm⟩ := mulI32_runs h'
    have hn : ∀ n, normalFields fo b p n = .ok ((fun c : NormalCode =>
        [(1, c.sx.toNat), (1, c.sy.toNat), (1, c.sz.toNat), (p, c.asine), (p, c.z)]) (normalCode fo m n)) := by
      intro n
      simp [normalFields, normalToEncoding, hm]
    rw [saveNormals, mapAll_of_ok (fun n _ => hn n), Outcome.bind_ok]
    obtain ⟨w, hw⟩ := writeAll_runs b ((a :: l).map (fun n => (fun c : NormalCode =>
        [(1, c.sx.toNat), (1, c.sy.toNat), (1, c.sz.toNat), (p, c.asine), (p, c.z)]) (normalCode fo m n))).flatten .new (by
      intro hb f hf
      obtain ⟨g, hg, hf⟩ := List.mem_flatten.mp hf
      obtain ⟨n, _, rfl⟩ := List.mem_map.mp hg
      have hp := h' hb
      simp only [List.mem_cons, List.not_mem_nil, or_false] at hf
      rcases hf with rfl | rfl | rfl | rfl | rfl <;> (dsimp only; omega))
    rw [hw, Outcome.bind_ok]
    exact ⟨_, rfl⟩

theorem saveTangents_ok (l : List (Tangent fo.F)) {p : Nat} (h : b = .checked → l ≠ [] → p ≤ 30) :
    ∃ d, saveTangents fo b l p = .ok d := by
  cases l with
  | nil => exact ⟨leBytes 8 0 ++ leBytes 1 p ++ [], rfl⟩
  | cons a l =>
    have h' : b = .checked → p ≤ 30 := fun hb => h hb (by simp)
    obtain ⟨m, hm⟩ := mulI32_runs h'
    have hn : ∀ n, tangentFields fo b p n = .ok ((fun (hd : Bool) (c : NormalCode) =>
        [(1, hd.toNat), (1, c.sx.toNat), (1, c.sy.toNat), (1, c.sz.toNat), (p, c.asine), (p, c.z)])
          (fo.isSignNegative n.2) (normalCode fo m n.1)) := by
      intro n
      simp [tangentFields, normalToEncoding, hm]
    rw [saveTangents, mapAll_of_ok (fun n _ => hn n), Outcome.bind_ok]
    obtain ⟨w, hw⟩ := writeAll_runs b ((a :: l).map (fun n => (fun (hd : Bool) (c : NormalCode) =>
        [(1, hd.toNat), (1, c.sx.toNat), (1, c.sy.toNat), (1, c.sz.toNat), (p, c.asine), (p, c.z)])
          (fo.isSignNegative n.2) (normalCode fo m n.1))).flatten .new (by
      intro hb f hf
      obtain ⟨g, hg, hf⟩ := List.mem_flatten.mp hf
      obtain ⟨n, _, rfl⟩ := List.mem_map.mp hg
      have hp := h' hb
      simp only [List.mem_cons, List.not_mem_nil, or_false] at hf
      rcases hf with rfl | rfl | rfl | rfl | rfl | rfl <;> (dsimp only; omega))
    rw [hw, Outcome.bind_ok]
    exact ⟨_, rfl⟩

theorem vertexBox_ok {l : List (Vec3 fo.F)} (h : l ≠ []) : ∃ s, vertexBox fo l = .ok s := by
  cases l with
  | nil => exact absurd rfl h
  | cons v l => exact ⟨_, rfl⟩

theorem saveVertices_ok {l : List (Vec3 fo.F)} (hl : l ≠ []) {edge : fo.F}
    (h : b = .checked → VertexWidths fo prec edge l) : ∃ d, saveVertices fo fb b l prec.vertex edge = .ok d := by
  obtain ⟨s, hs⟩ := vertexBox_ok hl
  obtain ⟨mx, hx⟩ := mulI32_runs (b := b) (p := (s.precs fo prec.vertex edge).1) (fun hb => (h hb s hs).1)
  obtain ⟨my, hy⟩ := mulI32_runs (b := b) (p := (s.precs fo prec.vertex edge).2.1) (fun hb => (h hb s hs).2.1)
  obtain ⟨mz, hz⟩ := mulI32_runs (b := b) (p := (s.precs fo prec.vertex edge).2.2) (fun hb => (h hb s hs).2.2)
  obtain ⟨w, hw⟩ := writeAll_runs b (l.flatMap (vertexFields fo s (s.precs fo prec.vertex edge) (mx, my, mz))) .new (by
    intro hb f hf
    obtain ⟨u, _, hu⟩ := List.mem_flatMap.mp hf
    have hp := h hb s hs
    simp only [vertexFields, List.mem_cons, List.not_mem_nil, or_false] at hu
    rcases hu with rfl | rfl | rfl <;> (dsimp only; omega))
  unfold saveVertices
  rw [hs, Outcome.bind_ok]
  simp only
  rw [hx, Outcome.bind_ok, hy, Outcome.bind_ok, hz, Outcome.bind_ok, hw, Outcome.bind_ok]
  exact ⟨_, rfl⟩

theorem saveFloats_ok (l : List fo.F) (p : fo.F) (h : b = .checked → floatPrec fo l p ≤ 30) :
    ∃ d, saveFloats fo fb b l p = .ok d := by
  obtain ⟨m, hm⟩ := mulI32_runs h
  obtain ⟨w, hw⟩ := writeAll_runs b (l.map (fun x => (floatPrec fo l p, floatCode fo (floatRange fo l) m x))) .new (by
    intro hb f hf
    obtain ⟨u, _, rfl⟩ := List.mem_map.mp hf
    have hp := h hb
    dsimp only
    omega)
  unfold saveFloats
  simp only
  rw [hm, Outcome.bind_ok, hw, Outcome.bind_ok]
  exact ⟨_, rfl⟩

theorem saveColors_ok (l : List (Vec4 fo.F)) (p : fo.F) (h : b = .checked → colorPrec fo p ≤ 30) :
    ∃ d, saveColors fo b l p = .ok d := by
  obtain ⟨m, hm⟩ := mulI32_runs h
  obtain ⟨w, hw⟩ := writeAll_runs b (l.flatMap (colorFields fo (colorPrec fo p) m)) .new (by
    intro hb f hf
    obtain ⟨u, _, hu⟩ := List.mem_flatMap.mp hf
    have hp := h hb
    simp only [colorFields, List.mem_cons, List.not_mem_nil, or_false] at hu
    rcases hu with rfl | rfl | rfl | rfl <;> (dsimp only; omega))
  unfold saveColors
  simp only
  rw [hm, Outcome.bind_ok, hw, Outcome.bind_ok]
  exact ⟨_, rfl⟩

/-- A segment can be cut and encoded. -/
def SegOk (fo : FloatOps) (fb : F64Bytes fo) (b : Build) (prec : PrecisionInfo fo.F) (edge : fo.F) (s : DecodedSegment fo.F) : Prop :=
  ∃ ps, s.optimize fo b = .ok ps ∧ ∀ p ∈ ps, ∃ e, p.encode fo fb b prec edge = .ok e

theorem trisOk {edge : fo.F} {l : List Nat} (h : ∀ i ∈ l, i < 2 ^ 32) (mk : List Nat → DecodedSegment fo.F)
    (ho : ∀ l, (mk l).optimize fo b = (do let ps ← optTris b l; .ok (ps.map mk)))
    (he : ∀ l d, saveTriangles b l (maxIndex l) = .ok d → ∃ e, (mk l).encode fo fb b prec edge = .ok e) :
    SegOk fo fb b prec edge (mk l) := by
  obtain ⟨ps, e, hf, _⟩ := optTris_ok b l h
  refine ⟨ps.map mk, by rw [ho, e, Outcome.bind_ok], fun p hp => ?_⟩
  obtain ⟨q, hq, rfl⟩ := List.mem_map.mp hp
  have hq' : ∀ i ∈ q, i < 2 ^ 32 := fun i hi => h i (by rw [← hf]; exact List.mem_flatten.mpr ⟨q, hq, hi⟩)
  obtain ⟨d, hd⟩ := saveTriangles_runs (b := b) q (maxIndex_lt (by positivity) hq')
  exact he q d hd

theorem triVertexOk {edge : fo.F} {l : List Nat} (h : ∀ i ∈ l, i < 2 ^ 32) : SegOk fo fb b prec edge (triVertex l) :=
  trisOk h triVertex (fun _ => rfl) (fun _ _ hd => ⟨_, by rw [encode, hd, Outcome.bind_ok]⟩)

theorem triNormalOk {edge : fo.F} {l : List Nat} (h : ∀ i ∈ l, i < 2 ^ 32) : SegOk fo fb b prec edge (triNormal l) :=
  trisOk h triNormal (fun _ => rfl) (fun _ _ hd => ⟨_, by rw [encode, hd, Outcome.bind_ok]⟩)

theorem triUvOk {edge : fo.F} {l : List Nat} (h : ∀ i ∈ l, i < 2 ^ 32) : SegOk fo fb b prec edge (triUv l) :=
  trisOk h triUv (fun _ => rfl) (fun _ _ hd => ⟨_, by rw [encode, hd, Outcome.bind_ok]⟩)

theorem triTangentOk {edge : fo.F} {l : List Nat} (h : ∀ i ∈ l, i < 2 ^ 32) : SegOk fo fb b prec edge (triTangent l) :=
  trisOk h triTangent (fun _ => rfl) (fun _ _ hd => ⟨_, by rw [encode, hd, Outcome.bind_ok]⟩)

theorem sharedOk {edge : fo.F} {l : List Nat} (k : Nat) (h : ∀ i ∈ l, i < 2 ^ 32) : SegOk fo fb b prec edge (shared k l) :=
  trisOk h (shared k) (fun _ => rfl) (fun _ _ hd => ⟨_, by rw [encode, hd, Outcome.bind_ok]⟩)

theorem mergedTris_ok {edge : fo.F} {u n v : Option (List Nat)} (hu : ∀ t, u = some t → ∀ i ∈ t, i < 2 ^ 32)
    (hn : ∀ t, n = some t → ∀ i ∈ t, i < 2 ^ 32) (hv : ∀ t, v = some t → ∀ i ∈ t, i < 2 ^ 32) :
    ∀ s ∈ (mergedTris u n v : List (DecodedSegment fo.F)), SegOk fo fb b prec edge s := by
  intro s hs
  have hN : ∀ s, s ∈ (n.map (triNormal (F := fo.F))).toList → SegOk fo fb b prec edge s := by
    intro s hs
    simp only [Option.mem_toList, Option.mem_def, Option.map_eq_some_iff] at hs
    obtain ⟨l, rfl, rfl⟩ := hs
    exact triNormalOk (hn l rfl)
  have hV : ∀ s, s ∈ (v.map (triVertex (F := fo.F))).toList → SegOk fo fb b prec edge s := by
    intro s hs
    simp only [Option.mem_toList, Option.mem_def, Option.map_eq_some_iff] at hs
    obtain ⟨l, rfl, rfl⟩ := hs
    exact triVertexOk (hv l rfl)
  cases u with
  | none =>
    cases n with
    | none => exact hV s hs
    | some n =>
      simp only [mergedTris] at hs
      split at hs
      · simp only [List.mem_singleton] at hs
        subst hs
        exact sharedOk 3 (hn n rfl)
      · rcases List.mem_cons.mp hs with rfl | hs
        · exact triNormalOk (hn n rfl)
        · exact hV s hs
  | some u =>
    simp only [mergedTris] at hs
    split at hs
    · simp only [List.mem_singleton] at hs
      subst hs
      exact sharedOk 7 (hu u rfl)
    · split at hs
      · rcases List.mem_cons.mp hs with rfl | hs
        · exact sharedOk 5 (hu u rfl)
        · exact hN s hs
      · split at hs
        · rcases List.mem_cons.mp hs with rfl | hs
          · exact sharedOk 6 (hu u rfl)
          · exact hV s hs
        · rcases List.mem_cons.mp hs with rfl | hs
          · exact triUvOk (hu u rfl)
          · cases n with
            | none => exact hV s hs
            | some n =>
              simp only at hs
              split at hs
              · simp only [List.mem_singleton] at hs
                subst hs
                exact sharedOk 3 (hn n rfl)
              · rcases List.mem_cons.mp hs with rfl | hs
                · exact triNormalOk (hn n rfl)
                · exact hV s hs

theorem shortestEdgeLoop_ok (fo : FloatOps) (vs : List (Vec3 fo.F)) : ∀ (t : List Nat) (acc : fo.F), (∀ i ∈ t, i < vs.length) →
    shortestEdgeLoop fo vs t acc = .ok (edgeMin fo vs t acc) := by
  intro t acc
  induction t, acc using edgeMin.induct fo vs with
  | case1 i j k rest acc a c d ha hc hd ih =>
    intro h
    rw [edgeMin, ha, hc, hd]
    simp only
    rw [← ih (fun x hx => h x (by simp [hx])), shortestEdgeLoop]
    simp [index, ha, hc, hd]
  | case2 i j k rest acc hno =>
    intro h
    have hi := h i (by simp)
    have hj := h j (by simp)
    have hk := h k (by simp)
    exact absurd (List.getElem?_eq_getElem hk) (hno _ _ _ (List.getElem?_eq_getElem hi) (List.getElem?_eq_getElem hj))
  | case3 t acc hno =>
    intro _
    rcases t with - | ⟨i, - | ⟨j, - | ⟨k, t⟩⟩⟩
    · rfl
    · rfl
    · rfl
    · exact absurd rfl (hno i j k t)

theorem calcShortestEdge_ok {m : Mesh fo.F} (he : EdgeFinite fo m)
    (hi : ∀ vs t, m.vertices = some vs → m.vertexTriangles = some t → ∀ i ∈ t, i < vs.length) :
    ∃ e, calcShortestEdge fo m.getVertexTriangles m.getVertices = .ok e := by
  show ∃ e, calcShortestEdge fo m.vertexTriangles m.vertices = .ok e
  cases ht : m.vertexTriangles with
  | none => exact ⟨fo.lit 1 1, by simp [calcShortestEdge, assertFinite, he.1]⟩
  | some t =>
    cases t with
    | nil => exact ⟨_, rfl⟩
    | cons i t =>
      cases hv : m.vertices with
      | none => exact ⟨_, rfl⟩
      | some vs =>
        refine ⟨edgeMin fo vs (i :: t) fo.infinity, ?_⟩
        simp only [calcShortestEdge]
        rw [shortestEdgeLoop_ok fo vs (i :: t) fo.infinity (hi vs _ hv ht), Outcome.bind_ok]
        simp [assertFinite, he.2 vs _ hv ht (by simp)]

theorem encodeMesh_ok (laws : OrderLaws fo) (m : Mesh fo.F) (hne : m.vertices ≠ some []) (he : EdgeFinite fo m)
    (hi : ∀ vs t, m.vertices = some vs → m.vertexTriangles = some t → ∀ i ∈ t, i < vs.length)
    (hu : U32Mesh m) (hw : b = .checked → WidthsFit fo prec m) :
    ∃ enc, encodeMesh fo fb b prec m = .ok enc := by
  obtain ⟨edge, hedge⟩ := calcShortestEdge_ok he hi
  have seg : ∀ s ∈ mergedSegs m, SegOk fo fb b prec edge s := by
    intro s hs
    simp only [mergedSegs, List.mem_append, List.mem_map, Option.mem_toList, Option.map_eq_some_iff] at hs
    rcases hs with ((⟨c, hc, rfl⟩ | ⟨a, ha, rfl⟩) | ⟨a, ha, rfl⟩) | (hs | (⟨a, ha, rfl⟩ | ⟨a, ha, rfl⟩) | ⟨a, ha, rfl⟩)
    · have hc := List.mem_reverse.mp hc
      refine ⟨[.custom c], rfl, fun p hp => ?_⟩
      simp only [List.mem_singleton] at hp
      subst hp
      have : ∃ d, c.data.write fo fb b = .ok d := by
        cases hd : c.data with
        | index l k => exact saveTriangles_runs l (hu.custom c hc l k (.inl hd))
        | integer l k => exact saveTriangles_runs l (hu.custom c hc l k (.inr hd))
        | float l p => exact saveFloats_ok l p (fun hb => (hw hb).floats c hc l p hd)
        | color l p => exact saveColors_ok l p (fun hb => (hw hb).colors c hc l p hd)
      obtain ⟨d, hd⟩ := this
      refine ⟨⟨c.data.sectionType, .none, leBytes 1 c.name.length ++ c.name ++ d⟩, ?_⟩
      simp [encode, CustomSeg.encode, hd]
    · exact triTangentOk (hu.tangentTriangles a ha)
    · obtain ⟨d, hd⟩ := saveTangents_ok (b := b) a (p := prec.tangent) (fun hb hne => (hw hb).tangents a ha hne)
      refine ⟨[.tangent a], rfl, fun p hp => ?_⟩
      simp only [List.mem_singleton] at hp
      subst hp
      exact ⟨_, by rw [encode, hd, Outcome.bind_ok]⟩
    · exact mergedTris_ok hu.uvTriangles hu.normalTriangles hu.vertexTriangles s hs
    · obtain ⟨d, hd⟩ := saveUvs_ok (b := b) a (p := prec.uv) (fun hb => (hw hb).uvs a ha)
      refine ⟨[.uv a], rfl, fun p hp => ?_⟩
      simp only [List.mem_singleton] at hp
      subst hp
      exact ⟨_, by rw [encode, hd, Outcome.bind_ok]⟩
    · obtain ⟨d, hd⟩ := saveNormals_ok (b := b) a (p := prec.normal) (fun hb hne => (hw hb).normals a ha hne)
      refine ⟨[.normal a], rfl, fun p hp => ?_⟩
      simp only [List.mem_singleton] at hp
      subst hp
      exact ⟨_, by rw [encode, hd, Outcome.bind_ok]⟩
    · have hane : a ≠ [] := by rintro rfl; exact hne ha
      have : ∃ ps, optVertices fo b a = .ok ps ∧ Cuts a ps := by
        cases b with
        | wrapping =>
          exact optVerticesFuel_ok laws .wrapping (a.length + 1) a (by omega) (fun _ _ => bitCount_wrapping _ _)
            (fun _ _ _ _ total n _ _ => subU8_wrapping total n)
        | checked =>
          have hc := (hw rfl).counts a ha
          refine optVerticesFuel_ok laws .checked (a.length + 1) a (by omega) hc.total ?_
          intro l p hl hp total n ht hn
          have := hc.mono l p hl hp total n ht hn
          exact ⟨total - n, by simp [subU8, this]⟩
      obtain ⟨ps, hps, hf, _, hnn⟩ := this
      refine ⟨ps.map vertex, by rw [optimize, hps, Outcome.bind_ok], fun p hp => ?_⟩
      obtain ⟨q, hq, rfl⟩ := List.mem_map.mp hp
      have hin : q <:+: a := by
        rw [← hf]
        obtain ⟨s, t, rfl⟩ := List.append_of_mem hq
        exact ⟨s.flatten, t.flatten, by simp⟩
      obtain ⟨d, hd⟩ := saveVertices_ok (fb := fb) (b := b) (prec := prec) (edge := edge) (hnn hane q hq)
        (fun hb => (hw hb).vertices a ha edge hedge q hin)
      exact ⟨_, by rw [encode, hd, Outcome.bind_ok]⟩
  unfold encodeMesh
  rw [hedge, Outcome.bind_ok, mergeSegments_eq, Outcome.bind_ok]
  obtain ⟨pieces, hp⟩ := mapAll_exists (f := DecodedSegment.optimize fo b) (l := mergedSegs m)
    (fun s hs => ⟨_, (seg s hs).choose_spec.1⟩)
  rw [hp, Outcome.bind_ok]
  refine mapAll_exists (fun p hpp => ?_)
  obtain ⟨ps, hps, hpp⟩ := List.mem_flatten.mp hpp
  obtain ⟨s, hs, e⟩ := mapAll_ok_mem' hp ps hps
  obtain ⟨ps', e', h'⟩ := seg s hs
  rw [e] at e'
  cases e'
  exact h' p hpp

end Tmf
