import Verif.Lemmas.Loaded
import Verif.Lemmas.MeshApi
import Verif.Props.CustomPrecision
import Verif.Spec.CustomApi
/-
C63: custom data handed in as slices, saved, loaded, looked up and looked into.
-/

set_option exponentiation.threshold 2000

namespace Tmf.Props
open Spec Ieee

section
variable {fo : FloatOps}

theorem max?_getD (l : List Nat) : l.max?.getD 0 = maxIndex l := by
  cases l with
  | nil => rfl
  | cons x l => rw [List.max?_cons', Option.getD_some, maxIndex, List.foldl_cons, Nat.zero_max]

/-- C63, `into()` and the constructors: the maximum attached to index and integer data is the one given, or else
its largest entry. -/
theorem C63_into_largest (l : List Nat) :
    (∃ m, (Slice.indices (F := fo.F) l).into fo = .index l m ∧ IsLargest l m) ∧
    (∃ m, (Slice.indicesUpTo (F := fo.F) l none).into fo = .index l m ∧ IsLargest l m) ∧
    (∃ m, (Slice.integersUpTo (F := fo.F) l none).into fo = .integer l m ∧ IsLargest l m) ∧
    ∀ k, (Slice.indicesUpTo (F := fo.F) l (some k)).into fo = .index l k ∧
      (Slice.integersUpTo (F := fo.F) l (some k)).into fo = .integer l k := by
  have h : IsLargest l (l.max?.getD 0) := by
    rw [max?_getD]
    exact maxIndex_largest l
  exact ⟨⟨_, rfl, h⟩, ⟨_, rfl, h⟩, ⟨_, rfl, h⟩, fun k => ⟨rfl, rfl⟩⟩

/-- What is in a mesh after additions. -/
theorem addAll_custom {F : Type} (adds : List (CustomData F × List UInt8)) : ∀ m : Mesh F, (addAll m adds).customData =
    m.customData ++ (adds.filter fun p => decide (p.2 ≠ [] ∧ p.2.length ≤ 255)).map fun p => ⟨p.2, p.1⟩ := by
  induction adds with
  | nil => intro m; simp [addAll]
  | cons p adds ih =>
    intro m
    have : addAll m (p :: adds) = addAll (m.addCustomData p.1 p.2).1 adds := rfl
    rw [this, ih, List.filter_cons]
    unfold Mesh.addCustomData CustomSeg.new
    by_cases h1 : p.2.length > 255
    · have : ¬ (p.2 ≠ [] ∧ p.2.length ≤ 255) := by omega
      simp [h1, this]
    · by_cases h2 : p.2 = []
      · simp [h2]
      · have : p.2 ≠ [] ∧ p.2.length ≤ 255 := ⟨h2, by omega⟩
        simp [h1, this, Mesh.addCustomDataSeg]

/-- Additions do not touch the rest of a mesh. -/
theorem addAll_rest {F : Type} (adds : List (CustomData F × List UInt8)) : ∀ m : Mesh F,
    addAll m adds = { m with customData := (addAll m adds).customData } := by
  induction adds with
  | nil => intro m; rfl
  | cons p adds ih =>
    intro m
    have h : addAll m (p :: adds) = addAll (m.addCustomData p.1 p.2).1 adds := rfl
    rw [h, ih]
    unfold Mesh.addCustomData
    cases CustomSeg.new p.1 p.2 <;> rfl

theorem into_fits {g : Slice fo.F} {name : List UInt8} (hg : SliceFits g) (hn : name.length ≤ 255) :
    CustomFits ⟨name, g.into fo⟩ := by
  have hm : ∀ l : List Nat, l.max?.getD 0 = maxIndex l := max?_getD
  have hi : ∀ (l : List Nat) (k : Option Nat), NumbersFit l k →
      (∀ i ∈ l, i ≤ (match k with | some m => m | none => l.max?.getD 0) ∧ i < 2 ^ 32) ∧
        (match k with | some m => m | none => l.max?.getD 0) < 2 ^ 31 := by
    rintro l k ⟨-, h2, h3⟩
    cases k with
    | none =>
      dsimp only
      rw [hm]
      exact ⟨fun i hi => ⟨le_maxIndex hi, lt_trans (h2 i hi) (by decide)⟩, maxIndex_lt (by decide) h2⟩
    | some m => exact ⟨fun i hi => ⟨(h3 m rfl).2 i hi, lt_trans (h2 i hi) (by decide)⟩, (h3 m rfl).1⟩
  cases g with
  | indices l => exact .index _ _ _ (by omega) hg.1 (hi l none hg).1 (.inl (hi l none hg).2)
  | indicesUpTo l k => exact .index _ _ _ (by omega) hg.1 (hi l k hg).1 (.inl (hi l k hg).2)
  | integersUpTo l k => exact .integer _ _ _ (by omega) hg.1 (hi l k hg).1 (.inl (hi l k hg).2)
  | floats l => exact .float _ _ _ (by omega) hg
  | colors l => exact .color _ _ _ (by omega) hg

/-- C63, limits: additions of slices inside the limits keep a mesh inside the limits of the format,
whatever the names are. -/
theorem C63_fits {prec : PrecisionInfo fo.F} {m : Mesh fo.F} {adds : List (Slice fo.F × List UInt8)} (hm : MeshFits prec m)
    (ha : ∀ p ∈ adds, SliceFits p.1) : MeshFits prec (addSlices fo m adds) := by
  have hc : ∀ c ∈ (addSlices fo m adds).customData, CustomFits c := by
    intro c hc
    rw [addSlices, addAll_custom, List.mem_append] at hc
    rcases hc with hc | hc
    · exact hm.custom c hc
    · obtain ⟨p, hp, rfl⟩ := List.mem_map.mp hc
      rw [List.mem_filter, List.mem_map] at hp
      obtain ⟨⟨q, hq, rfl⟩, hp⟩ := hp
      exact into_fits (ha q hq) (of_decide_eq_true hp).2
  have hr := addAll_rest (adds.map fun p => (p.1.into fo, p.2)) m
  rw [← addSlices] at hr
  rw [hr]
  exact ⟨hm.vertices, hm.normals, hm.uvs, hm.tangents, hm.vertexTriangles, hm.normalTriangles, hm.uvTriangles,
    hm.tangentTriangles, hc, hm.normalPrec, hm.tangentPrec⟩

theorem lookupLoop_find {F : Type} (name : List UInt8) (l : List (CustomSeg F)) :
    Mesh.lookupLoop name l = (l.find? fun s => s.name == name).map CustomSeg.data := by
  induction l with
  | nil => rfl
  | cons s l ih =>
    rw [Mesh.lookupLoop, List.find?_cons, ih]
    by_cases h : s.name = name
    · simp [h]
    · have : ¬ (s.name.length = name.length ∧ name = s.name) := fun e => h e.2.symm
      rw [if_neg this, beq_eq_false_iff_ne.mpr h]

end

variable {lib : Libm} {fb : F64Bytes (ops lib)} {b b' : Build} {prec : PrecisionInfo (Val b32)}
  {meshes : List (Mesh (Val b32) × List UInt8)} {bytes : List UInt8}

theorem hundredth : isFinite (lit 1 2 : Val b32) = true ∧ valueOf (lit 1 2 : Val b32) = 10737418 / 2 ^ 30 := by
  have hv : (lit 1 2 : Val b32) = .fin false (10737418 * 2 ^ 119) (by decide +kernel) := by decide +kernel
  constructor
  · rw [hv]; rfl
  · rw [hv, valueOf_fin, show b32.scale = 149 from rfl]; norm_num [sgn]

/-- What slices come back as. -/
theorem answers_loaded (hlog : AccurateLog2 lib) (fb : F64Bytes (ops lib)) {g : Slice (Val b32)} {name : List UInt8}
    (hc : CustomFits ⟨name, g.into (ops lib)⟩) : Answers g ((g.into (ops lib)).loaded (ops lib)) := by
  obtain ⟨hf, hv⟩ := hundredth
  cases g with
  | indices l => exact .indices l _ _ rfl (maxIndex_largest l) rfl rfl rfl
  | indicesUpTo l k => exact .indicesUpTo l k _ _ rfl (maxIndex_largest l) rfl rfl rfl
  | integersUpTo l k => exact .integersUpTo l k _ _ rfl (maxIndex_largest l) rfl rfl rfl
  | floats l =>
    have hl : l.length ≤ 2 ^ 31 := by cases hc; assumption
    refine .floats l _ _ _ rfl (by rw [List.length_map]) (fun lo hi he hlt hs hlo hhi => ?_) rfl rfl rfl
    obtain ⟨bytes, data', p', hw, hr, hk1, hk2⟩ := C60_float_partial hlog (fb := fb) (b := .wrapping) (prec := lit 1 2) he hlt hlo hhi hf
      (by rw [hv]; norm_num) (by rw [hv, div_le_iff₀ (by norm_num)]; exact le_trans hs (by norm_num)) hl rfl
    have hp : floatPrec (ops lib) l (lit 1 2) ≤ 30 := by
      obtain ⟨h1, h2, h3⟩ := float_bits hlog he hlt hlo hhi hf (by rw [hv]; norm_num)
        (by rw [hv, div_le_iff₀ (by norm_num)]; exact le_trans hs (by norm_num))
      by_contra hc
      have h4 := h3 (by omega)
      rw [hv, lt_div_iff₀ (by norm_num)] at h4
      have : (2 : ℚ) ^ 30 ≤ 2 ^ (floatPrec (ops lib) l (lit 1 2) - 1) := pow_le_pow_right₀ (by norm_num) (by omega)
      generalize (2 : ℚ) ^ (floatPrec (ops lib) l (lit 1 2) - 1) = P at *
      norm_num at h4 this hs
      linarith
    obtain ⟨bytes', hw', hr'⟩ := readFloats_saved (fo := ops lib) (fb := fb) (b := .wrapping) (data := l) (prec := lit 1 2) hp hl
    rw [hw] at hw'
    cases hw'
    have := hr' []
    rw [List.append_nil, hr, quantFloats] at this
    cases this
    refine ⟨hk1.imp fun _ _ h => ⟨h.1, le_trans h.2 ?_⟩, fun hone => (hk2 ?_).imp fun _ _ h => ⟨h.1, le_trans h.2 ?_⟩⟩
    · rw [hv]; norm_num; linarith
    · rw [hv]; norm_num; linarith
    · rw [hv]
      have : (10737418 / 2 ^ 30 * (1 + 1 / 2 ^ 16) : ℚ) * ((hi - lo) / (hi - lo - 10737418 / 2 ^ 30 * (1 + 1 / 2 ^ 16))) + 1 / 2 ^ 148 ≤ 1 / 98 := by
        have h0 : (0 : ℚ) < hi - lo - 10737418 / 2 ^ 30 * (1 + 1 / 2 ^ 16) := by norm_num; linarith
        rw [← le_sub_iff_add_le, ← mul_div_assoc, div_le_iff₀ h0]
        norm_num
        linarith
      linarith
  | colors l =>
    have hl : l.length ≤ 2 ^ 31 := by cases hc; assumption
    refine .colors l _ _ _ rfl (by rw [List.length_map]) (fun hu => ?_) rfl rfl rfl
    obtain ⟨bytes, data', p', hw, hr, hk⟩ := C60_color_partial hlog (b := .wrapping) (b' := .wrapping) (prec := lit 1 2) hf
      (by rw [hv]; norm_num) (by rw [hv]; norm_num) hl hu rfl
    have hp : colorPrec (ops lib) (lit 1 2) ≤ 30 := by
      obtain ⟨h1, h3⟩ := color_bits hlog hf (by rw [hv]; norm_num) (by rw [hv]; norm_num)
      by_contra hc
      have h4 := h3 (by omega)
      rw [hv, lt_div_iff₀ (by norm_num)] at h4
      have : (2 : ℚ) ^ 30 ≤ 2 ^ (colorPrec (ops lib) (lit 1 2) - 1) := pow_le_pow_right₀ (by norm_num) (by omega)
      generalize (2 : ℚ) ^ (colorPrec (ops lib) (lit 1 2) - 1) = P at *
      norm_num at h4 this
      linarith
    obtain ⟨bytes', hw', hr'⟩ := readColors_saved (fo := ops lib) (b := .wrapping) (b' := .wrapping) (data := l) (prec := lit 1 2) hp hl
    rw [hw] at hw'
    cases hw'
    have := hr' []
    rw [List.append_nil, hr, quantColors] at this
    cases this
    have up : ∀ {x y : Val b32}, Below (valueOf (lit 1 2 : Val b32) * (1 + 1 / 2 ^ 16) / (1 - valueOf (lit 1 2 : Val b32) * (1 + 1 / 2 ^ 16))) x y →
        Below (1 / 98) x y := fun h => ⟨h.1, h.2.1, lt_of_lt_of_le h.2.2 (by rw [hv]; norm_num)⟩
    exact hk.imp fun c c' h => ⟨up h.1, up h.2.1, up h.2.2.1, up h.2.2.2⟩

/-- C63. Slices added to a mesh without custom data, saved and loaded: looking up a name finds what was
added last under it (of the calls with that name; it is what was added if the name was used once), and
the accessors answer as they should. Names never used, empty or too long are not found. -/
theorem C63_answers (hlog : AccurateLog2 lib) (h : tmfBytes (ops lib) fb b prec meshes = .ok bytes)
    (hl : LimitsLow (ops lib) fb b prec meshes) (hb : bytes.length ≤ 2 ^ 31) (junk : List UInt8) (sched : List Nat) :
    ∃ out, readTmf (ops lib) fb b' ⟨bytes ++ junk, sched, false⟩ = .ok out ∧
      List.Forall₂ (fun mn mn' => ∀ m adds, m.customData = [] → mn.1 = addSlices (ops lib) m adds →
        (∀ pre g name post, adds = pre ++ (g, name) :: post → (∀ p ∈ post, p.2 ≠ name) → name ≠ [] → name.length ≤ 255 →
          ∃ d, mn'.1.lookupCustomData name = some d ∧ Answers g d) ∧
        (∀ name, (∀ p ∈ adds, p.2 ≠ name) ∨ name = [] ∨ 255 < name.length → mn'.1.lookupCustomData name = none)) meshes out := by
  obtain ⟨out, e, hf⟩ := readTmf_low (b' := b') h hl hb junk sched
  refine ⟨out, e, forall₂_imp hf ?_⟩
  rintro mn hmn mn' ⟨_, edge, _, hm, _⟩ m adds hm0 ha
  have hcs : mn.1.customData = (adds.filter fun p => decide (p.2 ≠ [] ∧ p.2.length ≤ 255)).map fun p =>
      ⟨p.2, p.1.into (ops lib)⟩ := by
    rw [ha, addSlices, addAll_custom, hm0, List.nil_append, List.filter_map, List.map_map]
    rfl
  have hlook : ∀ name : List UInt8, name.length ≤ 255 → mn'.1.lookupCustomData name =
      (mn.1.customData.reverse.find? fun s => s.name == name).map fun s => s.data.loaded (ops lib) := by
    intro name hn
    rw [Mesh.lookupCustomData, if_neg (by omega), lookupLoop_find, hm]
    show Option.map CustomSeg.data ((mn.1.customData.reverse.map (CustomSeg.loaded (ops lib))).find? _) = _
    rw [List.find?_map, Option.map_map]
    rfl
  constructor
  · intro pre g name post hadds hpost h0 h255
    refine ⟨_, ?_, answers_loaded hlog fb (g := g) (name := name) ((hl.fits mn hmn).custom _ ?_)⟩
    · rw [hlook name h255, hcs, hadds, List.filter_append, List.filter_cons, if_pos (decide_eq_true ⟨h0, h255⟩), List.map_append,
        List.map_cons, List.reverse_append, List.reverse_cons, List.append_assoc, List.singleton_append, List.find?_append]
      rw [show List.find? _ ((List.map _ (List.filter _ post)).reverse) = none from ?_]
      · simp
      · rw [List.find?_eq_none]
        intro s hs
        rw [List.mem_reverse, List.mem_map] at hs
        obtain ⟨p, hp, rfl⟩ := hs
        simpa using hpost p (List.mem_filter.mp hp).1
    · rw [hcs, hadds]
      refine List.mem_map.mpr ⟨(g, name), List.mem_filter.mpr ⟨by simp, decide_eq_true ⟨h0, h255⟩⟩, rfl⟩
  · intro name hn
    by_cases h255 : 255 < name.length
    · rw [Mesh.lookupCustomData, if_pos h255]
    · rw [hlook name (by omega), Option.map_eq_none_iff, List.find?_eq_none]
      intro s hs
      rw [List.mem_reverse, hcs, List.mem_map] at hs
      obtain ⟨p, hp, rfl⟩ := hs
      obtain ⟨h1, h2⟩ := List.mem_filter.mp hp
      have h2 := of_decide_eq_true h2
      rcases hn with hn | rfl | hn
      · simpa using hn p h1
      · simpa using h2.1
      · omega

/-! ### An example -/

section Example

/-- Four arrays, one of which takes a name twice; the call with the empty name is refused. -/
def bagAdds : List (Slice (Val b32) × List UInt8) :=
  [(.floats [vOne, nine64, threeHalves], [102]), (.indices [7], [105]), (.indices [3], []),
    (.colors [(nine64, nine64, nine64, threeQ)], [99]), (.integersUpTo [4, 2] (some 6), [110]), (.indices [5, 9, 5], [105])]

def bag (lib : Libm) : Mesh (Val b32) := addSlices (ops lib) Mesh.empty bagAdds

theorem bag_eq : bag lib = { (Mesh.empty : Mesh (Val b32)) with
    customData := [⟨[102], .float [vOne, nine64, threeHalves] (lit 1 2)⟩, ⟨[105], .index [7] 7⟩,
      ⟨[99], .color [(nine64, nine64, nine64, threeQ)] (lit 1 2)⟩, ⟨[110], .integer [4, 2] 6⟩, ⟨[105], .index [5, 9, 5] 9⟩] } := rfl

theorem bag_fits : MeshFits kitPrec (bag lib) := by
  refine C63_fits (fo := ops lib) ?_ ?_
  · refine ⟨?_, ?_, ?_, ?_, ?_, ?_, ?_, ?_, ?_, ?_, ?_⟩ <;> simp [LengthFits, IndicesFit, Mesh.empty]
  · intro p hp
    simp only [bagAdds, List.mem_cons, List.not_mem_nil, or_false] at hp
    rcases hp with rfl | rfl | rfl | rfl | rfl | rfl <;> simp [SliceFits, NumbersFit]

theorem bag_color (hlog : AccurateLog2 lib) : colorPrec (ops lib) (lit 1 2) ≤ 30 := by
  rw [colorPrec_ops lib, colorBits_clear lib hlog] <;> decide +kernel

theorem bag_limits (hlog : AccurateLog2 lib) (fb : F64Bytes (ops lib)) :
    LimitsLow (ops lib) fb .wrapping kitPrec [(bag lib, [65])] where
  count := show 1 < 2 ^ 32 by decide
  names := by
    intro mn h
    rcases List.mem_singleton.mp h with rfl
    exact ⟨show 1 < 2 ^ 16 by decide, ⟨['A'], rfl⟩⟩
  fits := by
    intro mn h
    rcases List.mem_singleton.mp h with rfl
    exact bag_fits
  segments := by
    intro mn h segs hs
    rcases List.mem_singleton.mp h with rfl
    refine lt_of_le_of_lt (encodeMesh_count (orderLaws lib) bag_fits hs) ?_
    rw [bag_eq]
    norm_num [segmentBound, mostPieces, indexPieces, onePiece, Mesh.empty]
  low := .inr (by
    intro mn h
    rcases List.mem_singleton.mp h with rfl
    refine ⟨(fun h => by cases h), (fun h => by cases h), (fun h => by cases h), ?_, (fun l _ _ _ _ h => by cases h)⟩
    intro c hc
    rw [bag_eq] at hc
    simp only [List.mem_cons, List.not_mem_nil, or_false] at hc
    rcases hc with rfl | rfl | rfl | rfl | rfl
    · show floatPrec (ops lib) [vOne, nine64, threeHalves] (lit 1 2) ≤ 30
      rw [kit_float hlog]; decide
    · trivial
    · exact bag_color hlog
    · trivial
    · trivial)

theorem bag_saved (fb : F64Bytes (ops lib)) :
    ∃ bytes, tmfBytes (ops lib) fb .wrapping kitPrec [(bag lib, [65])] = .ok bytes ∧ bytes.length ≤ 2 ^ 31 := by
  have : ∃ bytes, tmfBytes (ops lib) fb .wrapping kitPrec [(bag lib, [65])] = .ok bytes := by
    refine C29_saved_partial (orderLaws lib) .wrapping _ _ ?_ ?_ ?_ ?_ ?_
    · intro mn hm
      cases List.mem_singleton.mp hm
      refine ⟨rfl, ⟨?_, ?_, ?_⟩, ?_, ?_, ?_, ?_, ?_⟩
      · intro l hl; cases hl
      · intro l hl; cases hl
      · intro l hl; cases hl
      · intro t ht; cases ht
      · intro t ht; cases ht
      · intro t ht; cases ht
      · intro t ht; cases ht
      · intro c hc
        rw [bag_eq] at hc
        simp only [List.mem_cons, List.not_mem_nil, or_false] at hc
        rcases hc with rfl | rfl | rfl | rfl | rfl <;> (intro l k h; rcases h with h | h <;> cases h) <;> decide
    · intro mn hm; cases List.mem_singleton.mp hm; intro h; cases h
    · intro mn hm vs t hv ht
      cases List.mem_singleton.mp hm
      cases hv
    · intro mn hm
      cases List.mem_singleton.mp hm
      refine ⟨show isFinite (lit 1 1 : Val b32) = true by decide +kernel, fun vs t hv ht _ => ?_⟩
      cases hv
    · intro h; cases h
  obtain ⟨bytes, h⟩ := this
  refine ⟨bytes, h, le_trans (C56_linear (orderLaws lib) kit_bytes (fun mn hm => ?_) h) ?_⟩
  · cases List.mem_singleton.mp hm
    exact bag_fits
  · rw [bag_eq]
    norm_num [meshSizeBound, segmentBound, mostPieces, indexPieces, onePiece, elements, elementCount, customLoad, customCount, Mesh.empty]

/-- The later indices are found under the name used twice, with their largest; the floats come back
within 1/98 and rounding; the integers come back with their largest instead of the announced one; the name never
used is not found. -/
example (hlog : AccurateLog2 lib) (fb : F64Bytes (ops lib)) (b' : Build) : ∃ bytes mn d d' d'' l',
    tmfBytes (ops lib) fb .wrapping kitPrec [(bag lib, [65])] = .ok bytes ∧
    readTmf (ops lib) fb b' ⟨bytes ++ [], [], false⟩ = .ok [mn] ∧
    mn.1.lookupCustomData [105] = some d ∧ d.asIndex = some ([5, 9, 5], 9) ∧
    mn.1.lookupCustomData [102] = some d' ∧ d'.asFloat.map Prod.fst = some l' ∧
    List.Forall₂ (Within (1 / 98 + 3 / 2 / 2 ^ 19)) [vOne, nine64, threeHalves] l' ∧
    mn.1.lookupCustomData [110] = some d'' ∧ d''.asInteger = some ([4, 2], 4) ∧ d''.asIndex = none ∧
    mn.1.lookupCustomData [70] = none := by
  obtain ⟨bytes, h, hb⟩ := bag_saved (lib := lib) fb
  obtain ⟨out, e, hf⟩ := C63_answers (b' := b') hlog h (bag_limits hlog fb) hb [] []
  obtain ⟨mn, rfl, hm⟩ := forall₂_one hf
  obtain ⟨h1, h2⟩ := hm Mesh.empty bagAdds rfl rfl
  obtain ⟨d, e1, a1⟩ := h1 (bagAdds.take 5) (.indices [5, 9, 5]) [105] [] rfl (by simp) (by simp) (by simp)
  obtain ⟨d', e2, a2⟩ := h1 [] (.floats [vOne, nine64, threeHalves]) [102] (bagAdds.drop 1) rfl (by simp [bagAdds]) (by simp) (by simp)
  cases a2 with
  | floats _ l' p _ hl' hlen hv =>
    have hk := (hv _ _ extent_example (by norm_num) (by norm_num) (by rw [abs_of_nonneg] <;> norm_num)
      (by rw [abs_of_nonneg] <;> norm_num)).2 (by norm_num)
    rw [abs_of_nonneg (by norm_num : (0 : ℚ) ≤ 9 / 64), abs_of_nonneg (by norm_num : (0 : ℚ) ≤ 3 / 2),
      max_eq_right (by norm_num : (9 / 64 : ℚ) ≤ 3 / 2)] at hk
    cases a1 with
    | indices _ m _ hm hlarge =>
      have : m = 9 := by
        rcases hlarge with ⟨h1, h2⟩
        simp at h1 h2
        omega
      subst this
      obtain ⟨d'', e3, a3⟩ := h1 (bagAdds.take 4) (.integersUpTo [4, 2] (some 6)) [110] [(.indices [5, 9, 5], [105])] rfl (by simp)
        (by simp) (by simp)
      cases a3 with
      | integersUpTo _ _ m _ hm' hlarge no =>
        have : m = 4 := by
          rcases hlarge with ⟨h1, h2⟩
          simp at h1 h2
          omega
        subst this
        exact ⟨bytes, mn, d, d', d'', l', h, e, e1, hm, e2, by rw [hl']; rfl, hk, e3, hm', no, h2 [70] (.inl (by simp [bagAdds]))⟩

end Example

end Tmf.Props
