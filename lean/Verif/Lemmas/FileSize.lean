import Verif.Lemmas.SegmentCount
import Verif.Lemmas.Saving
import Verif.Spec.AnyBuild
import Verif.Spec.FileSize
/-
Lemmas about the size of what is written.
-/

namespace Tmf
open Spec DecodedSegment
variable {fo : FloatOps} {fb : F64Bytes fo} {b : Build} {prec : PrecisionInfo fo.F} {edge : fo.F}

/-- The bits written so far. -/
def BitWriter.count (w : BitWriter) : Nat := 8 * w.out.length + w.written

theorem writeLoop_count : ∀ (fuel total data : Nat) (w : BitWriter), total ≤ fuel → w.written < 8 →
    (BitWriter.writeLoop fuel total data w).count = w.count + total ∧ (BitWriter.writeLoop fuel total data w).written < 8 := by
  intro fuel
  induction fuel with
  | zero => intro total data w h hw; exact ⟨by simp [BitWriter.writeLoop]; omega, hw⟩
  | succ fuel ih =>
    intro total data w h hw
    rw [BitWriter.writeLoop]
    split
    · exact ⟨by omega, hw⟩
    · have key : ∀ w' : BitWriter, w'.written < 8 → w'.count = w.count + min total (8 - w.written) →
          ∀ data', (BitWriter.writeLoop fuel (total - min total (8 - w.written)) data' w').count = w.count + total ∧
            (BitWriter.writeLoop fuel (total - min total (8 - w.written)) data' w').written < 8 := by
        intro w' h1 h2 data'
        obtain ⟨e1, e2⟩ := ih (total - min total (8 - w.written)) data' w' (by omega) h1
        exact ⟨by omega, e2⟩
      dsimp only
      split
      · exact key _ (by simp) (by simp [BitWriter.count]; omega) _
      · exact key _ (by simp; omega) (by simp [BitWriter.count]; omega) _

theorem write_count {k v : Nat} {w w' : BitWriter} (hw : w.written < 8) (h : w.write b k v = .ok w') :
    w'.count = w.count + k ∧ w'.written < 8 := by
  unfold BitWriter.write at h
  split at h
  · next h0 => cases h; exact ⟨by omega, hw⟩
  split at h
  · cases h; exact writeLoop_count _ _ _ _ (le_refl _) hw
  · cases b with
    | checked => cases h
    | wrapping => cases h; exact writeLoop_count _ _ _ _ (le_refl _) hw

theorem writeAll_count : ∀ {fields : List (Nat × Nat)} {w w' : BitWriter}, w.written < 8 →
    BitWriter.writeAll b fields w = .ok w' → w'.count = w.count + fieldWidth fields ∧ w'.written < 8
  | [], w, w', hw, h => by cases h; exact ⟨rfl, hw⟩
  | (k, v) :: l, w, w', hw, h => by
    rw [BitWriter.writeAll, Outcome.bind_eq_ok] at h
    obtain ⟨w1, h1, h⟩ := h
    obtain ⟨e1, hw1⟩ := write_count hw h1
    obtain ⟨e2, hw2⟩ := writeAll_count hw1 h
    refine ⟨?_, hw2⟩
    unfold fieldWidth at *
    simp only [List.map_cons, List.sum_cons]
    omega

/-- What is packed takes the sum of the widths, in bytes. -/
theorem finish_size {fields : List (Nat × Nat)} {w : BitWriter} (h : BitWriter.writeAll b fields .new = .ok w) :
    w.finish.length = packed (fieldWidth fields) := by
  obtain ⟨e, hw⟩ := writeAll_count (w := .new) (by decide) h
  have e0 : BitWriter.count .new = 0 := rfl
  rw [e0] at e
  unfold BitWriter.count at e
  unfold packed BitWriter.finish
  split
  · rw [List.length_append, List.length_singleton]; omega
  · omega

theorem fieldWidth_flatMap {α : Type} {f : α → List (Nat × Nat)} {k : Nat} (hf : ∀ a, fieldWidth (f a) = k) (l : List α) :
    fieldWidth (l.flatMap f) = l.length * k := by
  induction l with
  | nil => simp [fieldWidth]
  | cons a l ih =>
    have : fieldWidth (f a ++ l.flatMap f) = fieldWidth (f a) + fieldWidth (l.flatMap f) := by simp [fieldWidth]
    rw [List.flatMap_cons, this, hf, ih, List.length_cons]
    ring

theorem fieldWidth_mapAll {α : Type} {f : α → Outcome ExportError (List (Nat × Nat))} {k : Nat}
    (hf : ∀ a fs, f a = .ok fs → fieldWidth fs = k) : ∀ {l : List α} {fields : List (List (Nat × Nat))},
    Outcome.mapAll f l = .ok fields → fieldWidth fields.flatten = l.length * k := by
  intro l
  induction l with
  | nil => intro fields h; cases h; simp [fieldWidth]
  | cons a l ih =>
    intro fields h
    obtain ⟨fs, h1, h⟩ := Outcome.bind_eq_ok.mp h
    obtain ⟨rest, h2, h⟩ := Outcome.bind_eq_ok.mp h
    cases h
    have : fieldWidth (fs ++ rest.flatten) = fieldWidth fs + fieldWidth rest.flatten := by simp [fieldWidth]
    rw [List.flatten_cons, this, hf a fs h1, ih h2, List.length_cons]
    ring

theorem saveVertices_size {l : List (Vec3 fo.F)} {pr : fo.F} {d : List UInt8} (h : saveVertices fo fb b l pr edge = .ok d) :
    d.length = 59 + packed (l.length * vertexWidth fo pr edge l) := by
  simp only [saveVertices, Outcome.bind_eq_ok] at h
  obtain ⟨s, hs, mx, _, my, _, mz, _, w, hw, h⟩ := h
  cases h
  have e := finish_size hw
  rw [fieldWidth_flatMap (k := (s.precs fo pr edge).1 + (s.precs fo pr edge).2.1 + (s.precs fo pr edge).2.2)
    (fun v => by simp [fieldWidth, vertexFields]; ring)] at e
  simp only [List.length_append, length_leBytes, f64Bytes, fb.enc_length, e, vertexWidth, hs]

theorem saveTriangles_size {l : List Nat} {m : Nat} {d : List UInt8} (h : saveTriangles b l m = .ok d) :
    d.length = indexSize m l.length := by
  simp only [saveTriangles, Outcome.bind_eq_ok] at h
  obtain ⟨w, hw, h⟩ := h
  cases h
  have e := finish_size hw
  rw [show l.map (fun i => (calcPrec m, i - minIndex l)) = l.flatMap (fun i => [(calcPrec m, i - minIndex l)]) by
    rw [List.map_eq_flatMap], fieldWidth_flatMap (k := calcPrec m) (fun v => by simp [fieldWidth])] at e
  simp only [List.length_append, length_leBytes, e, indexSize]

theorem saveNormals_size {l : List (Vec3 fo.F)} {p : Nat} {d : List UInt8} (h : saveNormals fo b l p = .ok d) :
    d.length = 9 + packed (l.length * (3 + 2 * p)) := by
  simp only [saveNormals, Outcome.bind_eq_ok] at h
  obtain ⟨fields, hf, w, hw, h⟩ := h
  cases h
  have e := finish_size hw
  rw [fieldWidth_mapAll (k := 3 + 2 * p) (by
    intro a fs h
    obtain ⟨c, _, h⟩ := Outcome.bind_eq_ok.mp h
    cases h
    simp [fieldWidth]; ring) hf] at e
  simp only [List.length_append, length_leBytes, e]

theorem saveTangents_size {l : List (Tangent fo.F)} {p : Nat} {d : List UInt8} (h : saveTangents fo b l p = .ok d) :
    d.length = 9 + packed (l.length * (4 + 2 * p)) := by
  simp only [saveTangents, Outcome.bind_eq_ok] at h
  obtain ⟨fields, hf, w, hw, h⟩ := h
  cases h
  have e := finish_size hw
  rw [fieldWidth_mapAll (k := 4 + 2 * p) (by
    intro a fs h
    obtain ⟨c, _, h⟩ := Outcome.bind_eq_ok.mp h
    cases h
    simp [fieldWidth]; ring) hf] at e
  simp only [List.length_append, length_leBytes, e]

theorem saveUvs_size {l : List (Vec2 fo.F)} {p : Nat} {d : List UInt8} (h : saveUvs fo b l p = .ok d) :
    d.length = 9 + packed (l.length * (2 * p)) := by
  simp only [saveUvs, Outcome.bind_eq_ok] at h
  obtain ⟨m, _, w, hw, h⟩ := h
  cases h
  have e := finish_size hw
  rw [fieldWidth_flatMap (k := 2 * p) (fun v => by simp [fieldWidth, uvFields]; ring)] at e
  simp only [List.length_append, length_leBytes, e]

theorem customWrite_size {c : CustomData fo.F} {d : List UInt8} (h : c.write fo fb b = .ok d) : d.length = customSize fo c := by
  cases c with
  | index l m => exact saveTriangles_size h
  | integer l m => exact saveTriangles_size h
  | float l p =>
    simp only [CustomData.write, saveFloats, Outcome.bind_eq_ok] at h
    obtain ⟨mul, _, w, hw, h⟩ := h
    cases h
    have e := finish_size hw
    rw [List.map_eq_flatMap, fieldWidth_flatMap (k := floatPrec fo l p) (fun v => by simp [fieldWidth])] at e
    simp only [List.length_append, length_leBytes, f64Bytes, fb.enc_length, e, customSize]
  | color l p =>
    simp only [CustomData.write, saveColors, Outcome.bind_eq_ok] at h
    obtain ⟨mul, _, w, hw, h⟩ := h
    cases h
    have e := finish_size hw
    rw [fieldWidth_flatMap (k := 4 * colorPrec fo p) (fun v => by simp [fieldWidth, colorFields]; ring)] at e
    simp only [List.length_append, length_leBytes, e, customSize]

theorem encode_dataSize {s : DecodedSegment fo.F} {e : EncodedSegment} (h : encode fo fb b prec edge s = .ok e) :
    e.data.length = dataSize fo prec edge s := by
  cases s <;> simp only [encode, Outcome.bind_eq_ok] at h
  case vertex => obtain ⟨d, hd, h⟩ := h; cases h; exact saveVertices_size hd
  case tangent => obtain ⟨d, hd, h⟩ := h; cases h; exact saveTangents_size hd
  case normal => obtain ⟨d, hd, h⟩ := h; cases h; exact saveNormals_size hd
  case uv => obtain ⟨d, hd, h⟩ := h; cases h; exact saveUvs_size hd
  case triVertex => obtain ⟨d, hd, h⟩ := h; cases h; exact saveTriangles_size hd
  case triNormal => obtain ⟨d, hd, h⟩ := h; cases h; exact saveTriangles_size hd
  case triUv => obtain ⟨d, hd, h⟩ := h; cases h; exact saveTriangles_size hd
  case triTangent => obtain ⟨d, hd, h⟩ := h; cases h; exact saveTriangles_size hd
  case custom c =>
    obtain ⟨d, hd, h⟩ := h
    cases h
    rw [CustomSeg.encode, Outcome.bind_eq_ok] at hd
    obtain ⟨d', hd', hd⟩ := hd
    cases hd
    simp only [List.length_append, length_leBytes, customWrite_size hd', dataSize]
  case shared m l =>
    obtain ⟨d, hd, h⟩ := h
    cases h
    simp only [List.length_append, length_leBytes, saveTriangles_size hd, dataSize]
  case nothing => cases h; rfl

/-! ### Whole files -/

theorem encodeAll_size : ∀ {l : List (DecodedSegment fo.F)} {segs : List EncodedSegment},
    Outcome.mapAll (encode fo fb b prec edge) l = .ok segs →
    (segs.flatMap EncodedSegment.bytes).length = (l.map fun s => 6 + dataSize fo prec edge s).sum := by
  intro l
  induction l with
  | nil => intro segs h; cases h; rfl
  | cons s l ih =>
    intro segs h
    obtain ⟨e, h1, h⟩ := Outcome.bind_eq_ok.mp h
    obtain ⟨rest, h2, h⟩ := Outcome.bind_eq_ok.mp h
    cases h
    rw [List.flatMap_cons, List.length_append, ih h2, List.map_cons, List.sum_cons, ← encode_dataSize h1]
    simp only [EncodedSegment.bytes, List.length_append, length_leBytes]

theorem meshBytes_size {mn : Mesh fo.F × List UInt8} {segs : List EncodedSegment}
    (h : encodeMesh fo fb b prec mn.1 = .ok segs) : MeshSize fo b prec mn (meshBytes mn.2 segs).length := by
  unfold encodeMesh at h
  obtain ⟨edge, he, h⟩ := Outcome.bind_eq_ok.mp h
  obtain ⟨merged, hm, h⟩ := Outcome.bind_eq_ok.mp h
  obtain ⟨pieces, hp, h⟩ := Outcome.bind_eq_ok.mp h
  refine ⟨edge, merged, pieces, he, hm, hp, ?_⟩
  rw [← encodeAll_size h]
  simp only [meshBytes, List.length_append, length_leBytes]
  omega

theorem meshes_size : ∀ {meshes : List (Mesh fo.F × List UInt8)} {enc : List (List EncodedSegment)},
    Outcome.mapAll (fun mn => encodeMesh fo fb b prec mn.1) meshes = .ok enc →
    ∃ sizes, List.Forall₂ (MeshSize fo b prec) meshes sizes ∧
      ((meshes.zip enc).flatMap (fun p => meshBytes p.1.2 p.2)).length = sizes.sum := by
  intro meshes
  induction meshes with
  | nil => intro enc h; cases h; exact ⟨[], .nil, rfl⟩
  | cons mn meshes ih =>
    intro enc h
    obtain ⟨segs, h1, h⟩ := Outcome.bind_eq_ok.mp h
    obtain ⟨rest, h2, h⟩ := Outcome.bind_eq_ok.mp h
    cases h
    obtain ⟨sizes, hf, e⟩ := ih h2
    refine ⟨_ :: sizes, .cons (meshBytes_size h1) hf, ?_⟩
    rw [List.zip_cons_cons, List.flatMap_cons, List.length_append, e, List.sum_cons]

theorem tmfBytes_size {meshes : List (Mesh fo.F × List UInt8)} {bytes : List UInt8}
    (h : tmfBytes fo fb b prec meshes = .ok bytes) :
    ∃ sizes, List.Forall₂ (MeshSize fo b prec) meshes sizes ∧ bytes.length = 15 + sizes.sum := by
  obtain ⟨enc, he, rfl⟩ := tmfBytes_ok fo fb b prec h
  obtain ⟨sizes, hf, e⟩ := meshes_size he
  refine ⟨sizes, hf, ?_⟩
  rw [List.length_append, e]
  simp only [List.length_append, length_leBytes, List.length_cons, List.length_nil]

/-! ### A bound -/

/-- Elements and name bytes of a segment. -/
def loadOf {F : Type} : DecodedSegment F → Nat × Nat
  | vertex l => (l.length, 0)
  | normal l => (l.length, 0)
  | tangent l => (l.length, 0)
  | uv l => (l.length, 0)
  | triVertex l | triNormal l | triUv l | triTangent l | shared _ l => (l.length, 0)
  | custom s => (customCount s.data, s.name.length)
  | nothing => (0, 0)

theorem packed_le {n k : Nat} (hk : k ≤ 1024) : packed (n * k) ≤ 128 * n := by
  have := Nat.mul_le_mul_left n hk
  unfold packed
  omega

theorem indexSize_le {m n : Nat} (h : m < 2 ^ 64) : indexSize m n ≤ 17 + 128 * n := by
  have : calcPrec m ≤ 64 := calcPrec_le h h
  have := packed_le (n := n) (k := calcPrec m) (by omega)
  unfold indexSize
  omega

theorem customSize_le {c : CustomSeg fo.F} (hc : CustomFits c) : customSize fo c.data ≤ 25 + 128 * customCount c.data := by
  cases hc with
  | index name l m hn hl hi hm =>
    have := indexSize_le (m := m) (n := l.length) (by omega)
    simp only [customSize, customCount]; omega
  | integer name l m hn hl hi hm =>
    have := indexSize_le (m := m) (n := l.length) (by omega)
    simp only [customSize, customCount]; omega
  | float name l p hn hl =>
    have h1 : floatPrec fo l p < 256 := max_lt (fo.log2CeilU8_lt _) (by decide)
    have := packed_le (n := l.length) (k := floatPrec fo l p) (by omega)
    simp only [customSize, customCount]; omega
  | color name l p hn hl =>
    have h1 : colorPrec fo p < 256 := by unfold colorPrec; exact fo.log2CeilU8_lt _
    have := packed_le (n := l.length) (k := 4 * colorPrec fo p) (by omega)
    simp only [customSize, customCount]; omega

theorem dataSize_le (hS : ByteSettings prec) {s : DecodedSegment fo.F} (hs : SegFits prec s) :
    dataSize fo prec edge s ≤ 60 + 128 * (loadOf s).1 + (loadOf s).2 := by
  have tri : ∀ l : List Nat, (∀ i ∈ l, i < 2 ^ 31) → indexSize (maxIndex l) l.length ≤ 17 + 128 * l.length := fun l hl =>
    indexSize_le (lt_trans (maxIndex_lt (by positivity) hl) (by decide))
  cases s with
  | vertex l =>
    have hw : vertexWidth fo prec.vertex edge l ≤ 1024 := by
      unfold vertexWidth
      split
      · next s _ =>
        have : ∀ x, max (fo.log2CeilU8 x) 1 < 256 := fun x => max_lt (fo.log2CeilU8_lt x) (by decide)
        have h1 : (s.precs fo prec.vertex edge).1 < 256 := this _
        have h2 : (s.precs fo prec.vertex edge).2.1 < 256 := this _
        have h3 : (s.precs fo prec.vertex edge).2.2 < 256 := this _
        omega
      · omega
    have := packed_le (n := l.length) hw
    simp only [dataSize, loadOf]; omega
  | normal l =>
    have := hS.normal
    have := packed_le (n := l.length) (k := 3 + 2 * prec.normal) (by omega)
    simp only [dataSize, loadOf]; omega
  | uv l =>
    have := hS.uv
    have := packed_le (n := l.length) (k := 2 * prec.uv) (by omega)
    simp only [dataSize, loadOf]; omega
  | tangent l =>
    have := hS.tangent
    have := packed_le (n := l.length) (k := 4 + 2 * prec.tangent) (by omega)
    simp only [dataSize, loadOf]; omega
  | triVertex l => have := tri l hs.2; simp only [dataSize, loadOf]; omega
  | triNormal l => have := tri l hs.2; simp only [dataSize, loadOf]; omega
  | triUv l => have := tri l hs.2; simp only [dataSize, loadOf]; omega
  | triTangent l => have := tri l hs.2; simp only [dataSize, loadOf]; omega
  | shared m l => have := tri l hs.2.2; simp only [dataSize, loadOf]; omega
  | custom c => have := customSize_le hs; simp only [dataSize, loadOf]; omega
  | nothing => simp [dataSize, loadOf]

/-- The sizes of pieces, bounded by their number and what is in them. -/
def sumLoad {F : Type} (l : List (DecodedSegment F)) : Nat := (l.map fun s => 128 * (loadOf s).1 + (loadOf s).2).sum

theorem sumLoad_append {F : Type} (l l' : List (DecodedSegment F)) : sumLoad (l ++ l') = sumLoad l + sumLoad l' := by
  rw [sumLoad, List.map_append, List.sum_append]; rfl

theorem sizes_le (hS : ByteSettings prec) : ∀ {l : List (DecodedSegment fo.F)}, (∀ s ∈ l, SegFits prec s) →
    (l.map fun s => 6 + dataSize fo prec edge s).sum ≤ 66 * l.length + sumLoad l := by
  intro l
  induction l with
  | nil => intro _; exact Nat.le_refl 0
  | cons s l ih =>
    intro h
    have h1 := dataSize_le (edge := edge) hS (h s List.mem_cons_self)
    have h2 := ih fun t ht => h t (List.mem_cons_of_mem _ ht)
    unfold sumLoad at *
    simp only [List.map_cons, List.sum_cons, List.length_cons]
    omega

theorem sumLoad_pieces {α : Type} (f : List α → DecodedSegment fo.F) (hf : ∀ l, loadOf (f l) = (l.length, 0)) :
    ∀ ps : List (List α), sumLoad (ps.map f) = 128 * ps.flatten.length
  | [] => rfl
  | p :: ps => by
    have := sumLoad_pieces f hf ps
    unfold sumLoad at *
    simp only [List.map_cons, List.sum_cons, hf, List.flatten_cons, List.length_append]
    omega

theorem optimize_load {s : DecodedSegment fo.F} (hs : SegFits prec s) {ps : List (DecodedSegment fo.F)}
    (h : optimize fo b s = .ok ps) : sumLoad ps = 128 * (loadOf s).1 + (loadOf s).2 ∧ ∀ p ∈ ps, SegFits prec p := by
  have key : ∀ {l : List Nat} {ps : List (DecodedSegment fo.F)} (f : List Nat → DecodedSegment fo.F)
      (_ : ∀ l, loadOf (f l) = (l.length, 0)), (l.length ≤ 2 ^ 31 ∧ ∀ i ∈ l, i < 2 ^ 31) →
      (∀ l : List Nat, l.length ≤ 2 ^ 31 ∧ (∀ i ∈ l, i < 2 ^ 31) → SegFits prec (f l)) →
      (do let ps ← optTris b l; .ok (ps.map f)) = Outcome.ok (ε := ExportError) ps →
      sumLoad ps = 128 * l.length ∧ ∀ p ∈ ps, SegFits prec p := by
    intro l ps f hf hl hfit h
    obtain ⟨qs, hq, h⟩ := Outcome.bind_eq_ok.mp h
    cases h
    obtain ⟨qs', e, hc, _⟩ := optTris_ok b l fun i hi => lt_trans (hl.2 i hi) (by decide)
    rw [hq] at e
    cases e
    refine ⟨by rw [sumLoad_pieces f hf, hc], fun p hp => ?_⟩
    obtain ⟨q, hqm, rfl⟩ := List.mem_map.mp hp
    have hsub := List.sublist_flatten_of_mem hqm
    rw [hc] at hsub
    exact hfit q ⟨le_trans hsub.length_le hl.1, fun i hi => hl.2 i (hsub.subset hi)⟩
  have one : ∀ {s : DecodedSegment fo.F} {ps : List (DecodedSegment fo.F)}, SegFits prec s →
      Outcome.ok (ε := ExportError) [s] = .ok ps →
      sumLoad ps = 128 * (loadOf s).1 + (loadOf s).2 ∧ ∀ p ∈ ps, SegFits prec p := by
    intro s ps hs h
    cases h
    refine ⟨by simp [sumLoad], fun p hp => ?_⟩
    cases List.mem_singleton.mp hp
    exact hs
  cases s with
  | triVertex l => exact key triVertex (fun _ => rfl) hs (fun _ h => h) h
  | triUv l => exact key triUv (fun _ => rfl) hs (fun _ h => h) h
  | triNormal l => exact key triNormal (fun _ => rfl) hs (fun _ h => h) h
  | triTangent l => exact key triTangent (fun _ => rfl) hs (fun _ h => h) h
  | shared m l => exact key (shared m) (fun _ => rfl) hs.2 (fun _ h => ⟨hs.1, h⟩) h
  | vertex l =>
    obtain ⟨qs, hq, h⟩ := Outcome.bind_eq_ok.mp h
    cases h
    have hc := (optVerticesFuel_flatten hq).1
    refine ⟨by rw [sumLoad_pieces vertex (fun _ => rfl), hc]; rfl, fun p hp => ?_⟩
    obtain ⟨q, hqm, rfl⟩ := List.mem_map.mp hp
    have hsub := List.sublist_flatten_of_mem hqm
    rw [hc] at hsub
    exact le_trans hsub.length_le hs
  | normal l => exact one hs h
  | uv l => exact one hs h
  | tangent l => exact one hs h
  | custom l => exact one hs h
  | nothing => exact one hs h

theorem optimizeAll_load : ∀ {l : List (DecodedSegment fo.F)} {pieces : List (List (DecodedSegment fo.F))},
    (∀ s ∈ l, SegFits prec s) → Outcome.mapAll (optimize fo b) l = .ok pieces →
    sumLoad pieces.flatten = sumLoad l ∧ ∀ p ∈ pieces.flatten, SegFits prec p := by
  intro l
  induction l with
  | nil => intro pieces _ h; cases h; exact ⟨rfl, fun p hp => by cases hp⟩
  | cons s l ih =>
    intro pieces hs h
    obtain ⟨ps, h1, h⟩ := Outcome.bind_eq_ok.mp h
    obtain ⟨rest, h2, h⟩ := Outcome.bind_eq_ok.mp h
    cases h
    obtain ⟨e1, f1⟩ := optimize_load (hs s List.mem_cons_self) h1
    obtain ⟨e2, f2⟩ := ih (fun t ht => hs t (List.mem_cons_of_mem _ ht)) h2
    refine ⟨?_, fun p hp => ?_⟩
    · rw [List.flatten_cons, sumLoad_append, e1, e2]
      simp [sumLoad]
    · rw [List.flatten_cons] at hp
      exact (List.mem_append.mp hp).elim (f1 p) (f2 p)

theorem sumLoad_option {F α : Type} (f : List α → DecodedSegment F) (hf : ∀ l, loadOf (f l) = (l.length, 0))
    (o : Option (List α)) : sumLoad (o.map f).toList = 128 * elementCount o := by
  cases o with
  | none => rfl
  | some l => simp [sumLoad, hf, elementCount]

theorem sumLoad_custom {F : Type} (l : List (CustomSeg F)) : sumLoad (l.map DecodedSegment.custom) =
    (l.map fun c => 128 * customCount c.data + c.name.length).sum := by
  rw [sumLoad, List.map_map]; rfl

theorem sumLoad_tris {F : Type} (u n v : Option (List Nat)) :
    sumLoad (mergedTris (F := F) u n v) ≤ 128 * (elementCount u + elementCount n + elementCount v) := by
  cases u <;> cases n <;> cases v <;> simp only [mergedTris, Option.map_none, Option.map_some, Option.toList, elementCount] <;>
    (repeat' split) <;> simp_all [sumLoad, loadOf] <;> omega

theorem mergedSegs_load {F : Type} (m : Mesh F) : sumLoad (mergedSegs m) ≤ 128 * elements m + customLoad m := by
  have := sumLoad_tris (F := F) m.uvTriangles m.normalTriangles m.vertexTriangles
  have hc := sumLoad_custom m.customData.reverse
  have hr : (m.customData.reverse.map fun c => 128 * customCount c.data + c.name.length).sum = customLoad m := by
    rw [List.map_reverse, List.sum_reverse]; rfl
  rw [hr] at hc
  simp only [mergedSegs, sumLoad_append, hc, sumLoad_option triTangent (fun _ => rfl),
    sumLoad_option tangent (fun _ => rfl), sumLoad_option uv (fun _ => rfl), sumLoad_option normal (fun _ => rfl),
    sumLoad_option vertex (fun _ => rfl), elements]
  omega

theorem meshSize_le (laws : OrderLaws fo) (hS : ByteSettings prec) {mn : Mesh fo.F × List UInt8} (hm : MeshFits prec mn.1) {n : Nat}
    (h : MeshSize fo b prec mn n) : n ≤ meshSizeBound mn := by
  obtain ⟨edge, merged, pieces, _, hmg, hp, rfl⟩ := h
  rw [mergeSegments_eq] at hmg
  cases hmg
  have h1 := optimizeAll_count laws (mergedSegs_fits hm) hp
  have h2 := mergedSegs_count mn.1
  obtain ⟨h3, h4⟩ := optimizeAll_load (mergedSegs_fits hm) hp
  have h5 := mergedSegs_load mn.1
  have h6 := sizes_le (edge := edge) hS h4
  unfold meshSizeBound
  omega

end Tmf
