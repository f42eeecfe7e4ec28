import Verif.Lemmas.Arrays
import Verif.Lemmas.Saving
import Verif.Lemmas.OptTris
import Verif.Spec.RoundTrip
/-
Saving and loading whole meshes: merging, splitting, encoding, decoding and assembling.
-/

namespace Tmf
open Spec DecodedSegment

section
variable (fo : FloatOps) (fb : F64Bytes fo) (prec : PrecisionInfo fo.F) (edge : fo.F)

/-- Custom data after saving and loading. -/
def CustomData.loaded : CustomData fo.F → CustomData fo.F
  | .index l _ => .index l (maxIndex l)
  | .integer l _ => .integer l (maxIndex l)
  | .float l p => quantFloats fo l p
  | .color l p => quantColors fo l p

def CustomSeg.loaded (s : CustomSeg fo.F) : CustomSeg fo.F := ⟨s.name, s.data.loaded fo⟩

/-- A segment after encoding and decoding. -/
def DecodedSegment.loaded : DecodedSegment fo.F → DecodedSegment fo.F
  | vertex l => vertex (quantVertices fo prec.vertex edge l)
  | normal l => normal (l.map (quantNormal fo prec.normal))
  | uv l => uv (l.map (quantUv fo prec.uv))
  | tangent l => tangent (l.map (quantTangent fo prec.tangent))
  | custom s => custom (s.loaded fo)
  | s => s

end

/-- A segment that can be written and read. -/
def SegFits {F : Type} (prec : PrecisionInfo F) : DecodedSegment F → Prop
  | vertex l => l.length ≤ 2 ^ 31
  | normal l => l.length ≤ 2 ^ 31 ∧ (l = [] → prec.normal < 64)
  | uv l => l.length ≤ 2 ^ 31
  | tangent l => l.length ≤ 2 ^ 31 ∧ (l = [] → prec.tangent < 64)
  | triVertex l | triNormal l | triUv l | triTangent l => l.length ≤ 2 ^ 31 ∧ ∀ i ∈ l, i < 2 ^ 31
  | shared mask l => mask < 256 ∧ l.length ≤ 2 ^ 31 ∧ ∀ i ∈ l, i < 2 ^ 31
  | custom s => CustomFits s
  | nothing => True

/-- A segment whose quantised numbers take at most 30 bits. -/
def SegLow (fo : FloatOps) (prec : PrecisionInfo fo.F) (edge : fo.F) : DecodedSegment fo.F → Prop
  | vertex l => ∀ s, vertexBox fo l = .ok s → (s.precs fo prec.vertex edge).1 ≤ 30 ∧ (s.precs fo prec.vertex edge).2.1 ≤ 30 ∧
      (s.precs fo prec.vertex edge).2.2 ≤ 30
  | normal l => l = [] ∨ prec.normal ≤ 30
  | uv _ => prec.uv ≤ 30
  | tangent l => l = [] ∨ prec.tangent ≤ 30
  | custom s => LowCustom fo s.data
  | _ => True

section
variable {fo : FloatOps} {fb : F64Bytes fo} {prec : PrecisionInfo fo.F} {edge : fo.F}

theorem decode_tri {b b' : Build} {l : List Nat} (h : l.length ≤ 2 ^ 31 ∧ ∀ i ∈ l, i < 2 ^ 31) {d : List UInt8}
    (hd : saveTriangles b l (maxIndex l) = .ok d) : readDefaultTriangles b' ⟨true⟩ d = .ok l := by
  obtain ⟨bytes, e, hr⟩ := readDefaultTriangles_saved b b' l h.2 h.1
  rw [e] at hd
  cases hd
  simpa using hr []

theorem custom_max {m : Nat} (hm : m < 2 ^ 31 ∨ 2 ^ 32 ≤ m ∧ m < 2 ^ 63) : calcPrec m ≠ 32 := by
  rcases hm with hm | hm
  · have := calcPrec_le (m := m) (k := 31) (by omega) hm
    omega
  · have := lt_calcPrec (m := m) (k := 32) (by omega) hm.1
    omega

theorem mapAll_checked_normal {l : List (Vec3 fo.F)} {p : Nat} {d : List UInt8}
    (h : saveNormals fo .checked l p = .ok d) : l = [] ∨ p ≤ 30 := by
  cases l with
  | nil => exact .inl rfl
  | cons a l =>
    right
    simp only [saveNormals, Outcome.mapAll, normalFields, normalToEncoding] at h
    cases hm : mulI32 .checked p with
    | ok m => exact (mulI32_checked hm).1
    | err e => rw [hm] at h; simp at h
    | panic => rw [hm] at h; simp at h

theorem mapAll_checked_tangent {l : List (Tangent fo.F)} {p : Nat} {d : List UInt8}
    (h : saveTangents fo .checked l p = .ok d) : l = [] ∨ p ≤ 30 := by
  cases l with
  | nil => exact .inl rfl
  | cons a l =>
    right
    simp only [saveTangents, Outcome.mapAll, tangentFields, normalToEncoding] at h
    cases hm : mulI32 .checked p with
    | ok m => exact (mulI32_checked hm).1
    | err e => rw [hm] at h; simp at h
    | panic => rw [hm] at h; simp at h

theorem readCustom_index {b' : Build} {name rest : List UInt8} {l : List Nat} (hn : name.length < 256)
    (h : readTriangles b' ⟨true⟩ rest = .ok l) :
    CustomSeg.read fo fb b' ⟨true⟩ .customIndex (leBytes 1 name.length ++ name ++ rest) =
      .ok ⟨name, .index l (maxIndex l)⟩ := by
  simp only [CustomSeg.read]
  rw [readCustomName_ok hn]
  simp [h]

theorem readCustom_integer {b' : Build} {name rest : List UInt8} {l : List Nat} (hn : name.length < 256)
    (h : readTriangles b' ⟨true⟩ rest = .ok l) :
    CustomSeg.read fo fb b' ⟨true⟩ .customInteger (leBytes 1 name.length ++ name ++ rest) =
      .ok ⟨name, .integer l (maxIndex l)⟩ := by
  simp only [CustomSeg.read]
  rw [readCustomName_ok hn]
  simp [h]

theorem readCustom_float {b' : Build} {name rest : List UInt8} {d : CustomData fo.F} (hn : name.length < 256)
    (h : readFloats fo fb rest = .ok d) :
    CustomSeg.read fo fb b' ⟨true⟩ .customFloat (leBytes 1 name.length ++ name ++ rest) = .ok ⟨name, d⟩ := by
  simp only [CustomSeg.read]
  rw [readCustomName_ok hn]
  simp [h]

theorem readCustom_color {b' : Build} {name rest : List UInt8} {d : CustomData fo.F} (hn : name.length < 256)
    (h : readColors fo b' rest = .ok d) :
    CustomSeg.read fo fb b' ⟨true⟩ .customColor (leBytes 1 name.length ++ name ++ rest) = .ok ⟨name, d⟩ := by
  simp only [CustomSeg.read]
  rw [readCustomName_ok hn]
  simp [h]

theorem low_of_checked_custom {s : CustomSeg fo.F} {d : List UInt8} (h : s.encode fo fb .checked = .ok d) :
    LowCustom fo s.data := by
  rw [CustomSeg.encode, Outcome.bind_eq_ok] at h
  obtain ⟨data, hd, h⟩ := h
  obtain ⟨name, c⟩ := s
  cases c with
  | index l m => trivial
  | integer l m => trivial
  | float l p =>
    show floatPrec fo l p ≤ 30
    simp only [CustomData.write, saveFloats] at hd
    cases hm : mulI32 .checked (floatPrec fo l p) with
    | ok m => exact (mulI32_checked hm).1
    | err e => rw [hm] at hd; simp at hd
    | panic => rw [hm] at hd; simp at hd
  | color l p =>
    show colorPrec fo p ≤ 30
    simp only [CustomData.write, saveColors] at hd
    cases hm : mulI32 .checked (colorPrec fo p) with
    | ok m => exact (mulI32_checked hm).1
    | err e => rw [hm] at hd; simp at hd
    | panic => rw [hm] at hd; simp at hd

theorem read_encoded_custom {b b' : Build} {s : CustomSeg fo.F} (hs : CustomFits s) (hq : LowCustom fo s.data) {d : List UInt8}
    (h : s.encode fo fb b = .ok d) :
    CustomSeg.read fo fb b' ⟨true⟩ s.data.sectionType d = .ok (s.loaded fo) := by
  rw [CustomSeg.encode, Outcome.bind_eq_ok] at h
  obtain ⟨data, hd, h⟩ := h
  cases h
  cases hs with
  | index name l m hn hl hi hm =>
    obtain ⟨bytes, e, hr⟩ := readTriangles_saved b b' l (m := m) (by omega) (custom_max hm)
      (fun i h => (hi i h).1) (fun i h => (hi i h).2) hl
    simp only [CustomData.write] at hd
    rw [e] at hd
    cases hd
    exact readCustom_index hn (by simpa using hr [])
  | integer name l m hn hl hi hm =>
    obtain ⟨bytes, e, hr⟩ := readTriangles_saved b b' l (m := m) (by omega) (custom_max hm)
      (fun i h => (hi i h).1) (fun i h => (hi i h).2) hl
    simp only [CustomData.write] at hd
    rw [e] at hd
    cases hd
    exact readCustom_integer hn (by simpa using hr [])
  | float name l p hn hl =>
    simp only [CustomData.write] at hd
    obtain ⟨bytes, e, hr⟩ := readFloats_saved (fb := fb) (b := b) (show floatPrec fo l p ≤ 30 from hq) hl
    rw [e] at hd
    cases hd
    have := hr []
    rw [List.append_nil] at this
    exact readCustom_float hn this
  | color name l p hn hl =>
    simp only [CustomData.write] at hd
    obtain ⟨bytes, e, hr⟩ := readColors_saved (b := b) (b' := b') (show colorPrec fo p ≤ 30 from hq) hl
    rw [e] at hd
    cases hd
    have := hr []
    rw [List.append_nil] at this
    exact readCustom_color hn this

/-- The widths of a vertex array that was written with overflow checks. -/
theorem saveVertices_checked {l : List (Vec3 fo.F)} {precision edge : fo.F} {d : List UInt8}
    (h : saveVertices fo fb .checked l precision edge = .ok d) :
    ∃ s, vertexBox fo l = .ok s ∧ (s.precs fo precision edge).1 ≤ 30 ∧ (s.precs fo precision edge).2.1 ≤ 30 ∧
      (s.precs fo precision edge).2.2 ≤ 30 := by
  simp only [saveVertices, Outcome.bind_eq_ok] at h
  obtain ⟨s, hs, mx, hx, my, hy, mz, hz, _⟩ := h
  exact ⟨s, hs, (mulI32_checked hx).1, (mulI32_checked hy).1, (mulI32_checked hz).1⟩

/-- What was written with overflow checks takes at most 30 bits per number. -/
theorem segLow_of_checked {s : DecodedSegment fo.F} {e : EncodedSegment} (h : s.encode fo fb .checked prec edge = .ok e) :
    SegLow fo prec edge s := by
  cases s with
  | vertex l =>
    rw [encode, Outcome.bind_eq_ok] at h
    obtain ⟨d, hd, _⟩ := h
    obtain ⟨s, hs, hw⟩ := saveVertices_checked hd
    intro s' hs'
    rw [hs] at hs'
    cases hs'
    exact hw
  | normal l =>
    rw [encode, Outcome.bind_eq_ok] at h
    obtain ⟨d, hd, _⟩ := h
    exact mapAll_checked_normal hd
  | uv l =>
    rw [encode, Outcome.bind_eq_ok] at h
    obtain ⟨d, hd, _⟩ := h
    show prec.uv ≤ 30
    simp only [saveUvs] at hd
    cases hm : mulI32 .checked prec.uv with
    | ok m => exact (mulI32_checked hm).1
    | err e => rw [hm] at hd; simp at hd
    | panic => rw [hm] at hd; simp at hd
  | tangent l =>
    rw [encode, Outcome.bind_eq_ok] at h
    obtain ⟨d, hd, _⟩ := h
    exact mapAll_checked_tangent hd
  | custom c =>
    rw [encode, Outcome.bind_eq_ok] at h
    obtain ⟨d, hd, _⟩ := h
    exact low_of_checked_custom hd
  | _ => trivial

theorem decode_encoded {b b' : Build} {s : DecodedSegment fo.F} (hs : SegFits prec s) (hq : SegLow fo prec edge s)
    {e : EncodedSegment} (h : s.encode fo fb b prec edge = .ok e) :
    e.decode fo fb b' ⟨true⟩ = .ok (s.loaded fo prec edge) ∧ e.compression = .none := by
  cases s with
  | nothing => simp only [encode] at h; cases h; exact ⟨rfl, rfl⟩
  | vertex l =>
    rw [encode, Outcome.bind_eq_ok] at h
    obtain ⟨d, hd, h⟩ := h
    cases h
    obtain ⟨s, hs'⟩ : ∃ s, vertexBox fo l = .ok s := by
      simp only [saveVertices, Outcome.bind_eq_ok] at hd
      obtain ⟨s, hs, _⟩ := hd
      exact ⟨s, hs⟩
    obtain ⟨hx, hy, hz⟩ := hq s hs'
    obtain ⟨bytes, e, hr⟩ := readVertices_saved (fb := fb) (b := b) hs' hx hy hz hs
    rw [e] at hd
    cases hd
    have := hr []
    rw [List.append_nil] at this
    refine ⟨?_, rfl⟩
    simp only [EncodedSegment.decode]
    rw [this]
    rfl
  | normal l =>
    rw [encode, Outcome.bind_eq_ok] at h
    obtain ⟨d, hd, h⟩ := h
    cases h
    have hp : l = [] ∨ prec.normal ≤ 30 := hq
    obtain ⟨bytes, e, hr⟩ := readNormals_saved (b := b)
      (by rcases hp with h | h; exacts [hs.2 h, by omega]) hp hs.1
    rw [e] at hd
    cases hd
    have := hr []
    rw [List.append_nil] at this
    refine ⟨?_, rfl⟩
    simp only [EncodedSegment.decode]
    rw [this]
    rfl
  | uv l =>
    rw [encode, Outcome.bind_eq_ok] at h
    obtain ⟨d, hd, h⟩ := h
    cases h
    have hp : prec.uv ≤ 30 := hq
    obtain ⟨bytes, e, hr⟩ := readUvs_saved (b := b) hp hs
    rw [e] at hd
    cases hd
    have := hr []
    rw [List.append_nil] at this
    refine ⟨?_, rfl⟩
    simp only [EncodedSegment.decode]
    rw [this]
    rfl
  | tangent l =>
    rw [encode, Outcome.bind_eq_ok] at h
    obtain ⟨d, hd, h⟩ := h
    cases h
    have hp : l = [] ∨ prec.tangent ≤ 30 := hq
    obtain ⟨bytes, e, hr⟩ := readTangents_saved (b := b)
      (by rcases hp with h | h; exacts [hs.2 h, by omega]) hp hs.1
    rw [e] at hd
    cases hd
    have := hr []
    rw [List.append_nil] at this
    refine ⟨?_, rfl⟩
    simp only [EncodedSegment.decode]
    rw [this]
    rfl
  | triVertex l =>
    rw [encode, Outcome.bind_eq_ok] at h
    obtain ⟨d, hd, h⟩ := h
    cases h
    refine ⟨?_, rfl⟩
    simp only [EncodedSegment.decode, decodeIndices]
    rw [decode_tri hs hd]
    rfl
  | triNormal l =>
    rw [encode, Outcome.bind_eq_ok] at h
    obtain ⟨d, hd, h⟩ := h
    cases h
    refine ⟨?_, rfl⟩
    simp only [EncodedSegment.decode, decodeIndices]
    rw [decode_tri hs hd]
    rfl
  | triUv l =>
    rw [encode, Outcome.bind_eq_ok] at h
    obtain ⟨d, hd, h⟩ := h
    cases h
    refine ⟨?_, rfl⟩
    simp only [EncodedSegment.decode, decodeIndices]
    rw [decode_tri hs hd]
    rfl
  | triTangent l =>
    rw [encode, Outcome.bind_eq_ok] at h
    obtain ⟨d, hd, h⟩ := h
    cases h
    refine ⟨?_, rfl⟩
    simp only [EncodedSegment.decode, decodeIndices]
    rw [decode_tri hs hd]
    rfl
  | shared mask l =>
    rw [encode, Outcome.bind_eq_ok] at h
    obtain ⟨d, hd, h⟩ := h
    cases h
    refine ⟨?_, rfl⟩
    have hmask : leBytes 1 mask ++ d = UInt8.ofNat mask :: d := by
      simp [leBytes]
    simp only [EncodedSegment.decode, decodeShared, hmask]
    rw [decode_tri hs.2 hd]
    simp only [Outcome.bind_ok, DecodedSegment.loaded]
    rw [toNat_ofNat_lt hs.1]
  | custom c =>
    rw [encode, Outcome.bind_eq_ok] at h
    obtain ⟨d, hd, h⟩ := h
    cases h
    refine ⟨?_, rfl⟩
    have := read_encoded_custom (b' := b') hs hq hd
    cases hc : c.data <;> simp only [hc, CustomData.sectionType] at this ⊢ <;>
      · simp only [EncodedSegment.decode]
        rw [this]
        rfl

end

/-! ### Merging -/

section Merge
variable {F : Type}

/-- Segments that absorb nothing. -/
def Inert (s : DecodedSegment F) : Prop := ∀ o, s.merge o = .ok (s, o)
/-- Segments that cannot be absorbed. -/
def Stays (o : DecodedSegment F) : Prop := ∀ s : DecodedSegment F, s.merge o = .ok (s, o)

theorem stays_of {o : DecodedSegment F} (h : o.asTriangles = Option.none) : Stays o := by
  intro s; rw [DecodedSegment.merge, h]

theorem inert_of {s : DecodedSegment F} (h : match s with
    | shared .. | triVertex _ | triNormal _ | triUv _ => False | _ => True) : Inert s := by
  intro o
  rw [DecodedSegment.merge]
  cases o.asTriangles with
  | none => rfl
  | some t => cases s <;> simp_all

theorem mergeInto_inert {s : DecodedSegment F} (h : Inert s) : ∀ (l : List (DecodedSegment F)), mergeInto s l = .ok (s, l) := by
  intro l
  induction l with
  | nil => rfl
  | cons o l ih => simp [mergeInto, ih, h o]

theorem mergeInto_stays {s : DecodedSegment F} : ∀ {l : List (DecodedSegment F)}, (∀ o ∈ l, Stays o) →
    mergeInto s l = .ok (s, l) := by
  intro l
  induction l with
  | nil => intro _; rfl
  | cons o l ih =>
    intro h
    simp [mergeInto, ih (fun x hx => h x (List.mem_cons_of_mem _ hx)), h o List.mem_cons_self s]

theorem mergeLoop_inert : ∀ {l : List (DecodedSegment F)} {rest out : List (DecodedSegment F)} {fuel : Nat},
    (∀ s ∈ l, Inert s ∧ s.isSomething = true) → mergeLoop fuel rest = .ok out →
    mergeLoop (l.length + fuel) (l ++ rest) = .ok (l ++ out) := by
  intro l
  induction l with
  | nil => intro rest out fuel _ h; simpa using h
  | cons s l ih =>
    intro rest out fuel hl h
    have hs := hl s List.mem_cons_self
    have := ih (fun x hx => hl x (List.mem_cons_of_mem _ hx)) h
    rw [List.length_cons, show l.length + 1 + fuel = (l.length + fuel) + 1 by omega, List.cons_append, mergeLoop,
      if_pos hs.2, mergeInto_inert hs.1]
    simp only [Outcome.bind_ok]
    rw [this]
    rfl

/-- What becomes of the three index arrays that can be shared (uv, normal, vertex). -/
def mergedTris : Option (List Nat) → Option (List Nat) → Option (List Nat) → List (DecodedSegment F)
  | some u, n, v =>
    if n = some u ∧ v = some u then [shared 7 u]
    else if v = some u then shared 5 u :: (n.map triNormal).toList
    else if n = some u then shared 6 u :: (v.map triVertex).toList
    else triUv u :: (match n with
      | some n => if v = some n then [shared 3 n] else triNormal n :: (v.map triVertex).toList
      | Option.none => (v.map triVertex).toList)
  | Option.none, some n, v => if v = some n then [shared 3 n] else triNormal n :: (v.map triVertex).toList
  | Option.none, Option.none, v => (v.map triVertex).toList

theorem mergeLoop_tris (u n v : Option (List Nat)) {rest : List (DecodedSegment F)}
    (hr : ∀ s ∈ rest, Stays s ∧ Inert s ∧ s.isSomething = true) :
    ∃ fuel, fuel = ((u.map triUv).toList ++ (n.map triNormal).toList ++ (v.map triVertex).toList ++ rest).length ∧
      mergeLoop fuel ((u.map triUv).toList ++ (n.map triNormal).toList ++ (v.map triVertex).toList ++ rest) =
      .ok (mergedTris u n v ++ rest) := by
  refine ⟨_, rfl, ?_⟩
  have hm : ∀ s : DecodedSegment F, mergeInto s rest = .ok (s, rest) := fun s => mergeInto_stays (fun o ho => (hr o ho).1)
  have hl : ∀ fuel, rest.length ≤ fuel → mergeLoop fuel rest = .ok rest := by
    intro fuel hf
    have := mergeLoop_inert (l := rest) (rest := []) (out := []) (fuel := fuel - rest.length)
      (fun s hs => (hr s hs).2) (by cases fuel - rest.length <;> rfl)
    rw [Nat.add_sub_of_le hf] at this
    simpa using this
  have hl0 := hl rest.length le_rfl
  cases u with
  | none =>
    cases n with
    | none =>
      cases v with
      | none => simp [mergedTris, hl0]
      | some v => simp [mergedTris, mergeLoop, hm, hl0, isSomething]
    | some n =>
      cases v with
      | none => simp [mergedTris, mergeLoop, hm, hl0, isSomething]
      | some v =>
        by_cases h : n = v
        · subst h
          simp [mergedTris, mergeLoop, mergeInto, hm, hl0, isSomething, DecodedSegment.merge, asTriangles, mergeArm, sharedKind]
        · have h' : ¬ v = n := fun e => h e.symm
          simp [mergedTris, mergeLoop, mergeInto, hm, hl0, isSomething, DecodedSegment.merge, asTriangles, mergeArm, sharedKind, h, h']
  | some u =>
    cases n with
    | none =>
      cases v with
      | none => simp [mergedTris, mergeLoop, hm, hl0, isSomething]
      | some v =>
        by_cases h : u = v
        · subst h
          simp [mergedTris, mergeLoop, mergeInto, hm, hl0, isSomething, DecodedSegment.merge, asTriangles, mergeArm, sharedKind]
        · have h' : ¬ v = u := fun e => h e.symm
          simp [mergedTris, mergeLoop, mergeInto, hm, hl0, isSomething, DecodedSegment.merge, asTriangles, mergeArm, sharedKind, h, h']
    | some n =>
      cases v with
      | none =>
        by_cases h : u = n
        · subst h
          simp [mergedTris, mergeLoop, mergeInto, hm, hl0, isSomething, DecodedSegment.merge, asTriangles, mergeArm, sharedKind]
        · have h' : ¬ n = u := fun e => h e.symm
          simp [mergedTris, mergeLoop, mergeInto, hm, hl0, isSomething, DecodedSegment.merge, asTriangles, mergeArm, sharedKind, h, h']
      | some v =>
        by_cases h1 : u = v
        · subst h1
          by_cases h2 : u = n
          · subst h2
            simp [mergedTris, mergeLoop, mergeInto, hm, hl0, isSomething, DecodedSegment.merge, asTriangles, mergeArm, sharedKind]
          · have h2' : ¬ n = u := fun e => h2 e.symm
            simp [mergedTris, mergeLoop, mergeInto, hm, hl0, isSomething, DecodedSegment.merge, asTriangles, mergeArm, sharedKind, h2, h2']
        · have h1' : ¬ v = u := fun e => h1 e.symm
          by_cases h2 : u = n
          · subst h2
            simp [mergedTris, mergeLoop, mergeInto, hm, hl0, isSomething, DecodedSegment.merge, asTriangles, mergeArm, sharedKind, h1, h1']
          · have h2' : ¬ n = u := fun e => h2 e.symm
            by_cases h3 : n = v
            · subst h3
              simp [mergedTris, mergeLoop, mergeInto, hm, hl0, isSomething, DecodedSegment.merge, asTriangles, mergeArm, sharedKind, h1, h1']
            · have h3' : ¬ v = n := fun e => h3 e.symm
              simp [mergedTris, mergeLoop, mergeInto, hm, hl0, isSomething, DecodedSegment.merge, asTriangles, mergeArm, sharedKind, h1, h1', h2, h2', h3, h3']

/-- The segments of a mesh after merging. -/
def mergedSegs (m : Mesh F) : List (DecodedSegment F) :=
  (m.customData.reverse.map .custom ++ (m.tangentTriangles.map triTangent).toList ++ (m.tangents.map tangent).toList) ++
    (mergedTris m.uvTriangles m.normalTriangles m.vertexTriangles ++
      ((m.uvs.map uv).toList ++ (m.normals.map normal).toList ++ (m.vertices.map vertex).toList))

theorem reverse_toList {α : Type} (o : Option α) : o.toList.reverse = o.toList := by cases o <;> rfl

theorem mergeSegments_eq (m : Mesh F) : mergeSegments (meshSegs m) = .ok (mergedSegs m) := by
  have hrev : (meshSegs m).reverse =
      (m.customData.reverse.map .custom ++ (m.tangentTriangles.map triTangent).toList ++ (m.tangents.map tangent).toList) ++
      ((m.uvTriangles.map triUv).toList ++ (m.normalTriangles.map triNormal).toList ++
        (m.vertexTriangles.map triVertex).toList ++
        ((m.uvs.map uv).toList ++ (m.normals.map normal).toList ++ (m.vertices.map vertex).toList)) := by
    simp only [meshSegs, List.reverse_append, reverse_toList, List.append_assoc, List.map_reverse, Mesh.getVertices,
      Mesh.getNormals, Mesh.getUvs, Mesh.getTangents, Mesh.getVertexTriangles, Mesh.getNormalTriangles,
      Mesh.getUvTriangles, Mesh.getTangentTriangles]
  obtain ⟨fuel, hf, hl⟩ := mergeLoop_tris (F := F) m.uvTriangles m.normalTriangles m.vertexTriangles
    (rest := (m.uvs.map uv).toList ++ (m.normals.map normal).toList ++ (m.vertices.map vertex).toList) (by
      intro s hs
      simp only [List.mem_append, Option.mem_toList, Option.map_eq_some_iff] at hs
      rcases hs with (⟨a, _, rfl⟩ | ⟨a, _, rfl⟩) | ⟨a, _, rfl⟩ <;> exact ⟨stays_of rfl, inert_of trivial, rfl⟩)
  have := mergeLoop_inert
    (l := m.customData.reverse.map .custom ++ (m.tangentTriangles.map triTangent).toList ++ (m.tangents.map tangent).toList)
    (by
      intro s hs
      simp only [List.mem_append, Option.mem_toList, Option.map_eq_some_iff, List.mem_map] at hs
      rcases hs with (⟨a, _, rfl⟩ | ⟨a, _, rfl⟩) | ⟨a, _, rfl⟩ <;> exact ⟨inert_of trivial, rfl⟩) hl
  unfold mergeSegments
  rw [hrev, ← List.length_reverse, hrev, List.length_append, ← hf, this]
  rfl

end Merge

end Tmf
