import Verif.Spec.Layout
import Verif.Lemmas.FileRoundTrip
/-
What the writer puts into the segments of a file, in terms of `Lies` and `Holds`.
-/

namespace Tmf
open Spec DecodedSegment

theorem fieldBits_map_mod {α : Type} (l : List α) (w : Nat) (f : α → Nat) :
    fieldBits (l.map fun a => (w, f a % 2 ^ w)) = fieldBits (l.map fun a => (w, f a)) := by
  simp only [fieldBits, List.flatMap_map, bits_mod]

theorem fieldBits_flatMap {α : Type} (l : List α) {f g : α → List (Nat × Nat)} (h : ∀ a ∈ l, fieldBits (f a) = fieldBits (g a)) :
    fieldBits (l.flatMap f) = fieldBits (l.flatMap g) := by
  induction l with
  | nil => rfl
  | cons a l ih =>
    rw [List.flatMap_cons, List.flatMap_cons, fieldBits_append, fieldBits_append, h a List.mem_cons_self,
      ih (fun x hx => h x (List.mem_cons_of_mem _ hx))]

/-- What the writer has after the fields, up to bits beyond their widths. -/
theorem written_packed {b : Build} {fields fields' : List (Nat × Nat)} (h : ∀ p ∈ fields, p.1 ≤ 64)
    (he : fieldBits fields = fieldBits fields') : ∃ w, BitWriter.writeAll b fields .new = .ok w ∧ PackedAs w.finish fields' := by
  obtain ⟨w, e, hi, hc⟩ := BitWriter.writeAll_spec b fields h BitWriter.inv_new
  obtain ⟨pad, hp, hf⟩ := BitWriter.finish_bits hi
  have hc' : w.content = fieldBits fields := by simpa using hc
  exact ⟨w, e, pad, hp, by rw [hf, hc', he]⟩

section Codes
variable (fo : FloatOps) (fb : F64Bytes fo)

def uvCodes (p : Nat) (uv : Vec2 fo.F) : Nat × Nat :=
  (fo.toU64 (fo.mul uv.1 (fo.ofNat (2 ^ p - 1))) % 2 ^ p, fo.toU64 (fo.mul uv.2 (fo.ofNat (2 ^ p - 1))) % 2 ^ p)

def normalBits (p : Nat) (n : Vec3 fo.F) : NormalBits :=
  let c := normalCode fo (2 ^ p - 1) n
  ⟨c.sx, c.sy, c.sz, c.asine % 2 ^ p, c.z % 2 ^ p⟩

def tangentBits (p : Nat) (t : Tangent fo.F) : Bool × NormalBits := (fo.isSignNegative t.2, normalBits fo p t.1)

def boxBytes (s : VBox fo.F) : BoxBytes :=
  ⟨f64Bytes fb s.minX, f64Bytes fb s.maxX, f64Bytes fb s.minY, f64Bytes fb s.maxY, f64Bytes fb s.minZ, f64Bytes fb s.maxZ⟩

def vertexCodes (s : VBox fo.F) (p : Nat × Nat × Nat) (v : Vec3 fo.F) : Nat × Nat × Nat :=
  let sz := s.sizes fo
  (coordCode fo v.1 s.minX sz.1 (2 ^ p.1 - 1) % 2 ^ p.1, coordCode fo v.2.1 s.minY sz.2.1 (2 ^ p.2.1 - 1) % 2 ^ p.2.1,
    coordCode fo v.2.2 s.minZ sz.2.2 (2 ^ p.2.2 - 1) % 2 ^ p.2.2)

def channelCode (p : Nat) (x : fo.F) : Nat := fo.toU64 (fo.mul x (fo.ofNat (2 ^ p - 1))) % 2 ^ p

def colorCodes (p : Nat) (c : Vec4 fo.F) : Nat × Nat × Nat × Nat :=
  (channelCode fo p c.1, channelCode fo p c.2.1, channelCode fo p c.2.2.1, channelCode fo p c.2.2.2)

def customContent : CustomData fo.F → CustomContent
  | .index l _ => .index l
  | .integer l _ => .integer l
  | .float l prec =>
    let r := floatRange fo l
    let p := floatPrec fo l prec
    .float (f64Bytes fb r.1) (f64Bytes fb r.2) p (l.map fun x => floatCode fo r (2 ^ p - 1) x % 2 ^ p)
  | .color l prec => .color (colorPrec fo prec) (l.map (colorCodes fo (colorPrec fo prec)))

/-- What a segment looks like in the file. -/
def contentOf (prec : PrecisionInfo fo.F) (edge : fo.F) : DecodedSegment fo.F → Content
  | vertex l =>
    match vertexBox fo l with
    | .ok s =>
      .vertices (boxBytes fo fb s) (s.precs fo prec.vertex edge) (l.map (vertexCodes fo s (s.precs fo prec.vertex edge)))
    | _ => .sharedIndices 0 []
  | normal l => .normals prec.normal (l.map (normalBits fo prec.normal))
  | uv l => .uvs prec.uv (l.map (uvCodes fo prec.uv))
  | tangent l => .tangents prec.tangent (l.map (tangentBits fo prec.tangent))
  | triVertex l => .vertexIndices l
  | triNormal l => .normalIndices l
  | triUv l => .uvIndices l
  | triTangent l => .tangentIndices l
  | shared mask l => .sharedIndices mask l
  | custom s => .custom s.name (customContent fo fb s.data)
  | nothing => .sharedIndices 0 []

end Codes

section
variable {fo : FloatOps} {fb : F64Bytes fo} {prec : PrecisionInfo fo.F} {edge : fo.F} {b : Build}

theorem len_lt64 {n : Nat} (h : n ≤ 2 ^ 31) : n < 2 ^ 64 := lt_of_le_of_lt h (by decide)

theorem two_pow_pos' (n : Nat) : 0 < 2 ^ n := by positivity

theorem saveTriangles_lies {l : List Nat} {m : Nat} (hl : l.length ≤ 2 ^ 31) (hm : m < 2 ^ 64) (hi : ∀ i ∈ l, i ≤ m)
    {d : List UInt8} (hd : saveTriangles b l m = .ok d) : IndexData d l := by
  obtain ⟨payload, e, _, pad, hpad, hp⟩ := saveTriangles_ok b l hm
  rw [e] at hd
  cases hd
  have hmin : ∀ i ∈ l, minIndex l ≤ i := fun i hi => minIndex_le hi
  refine .mk (calcPrec m) (minIndex l) payload l (lt_of_le_of_lt (calcPrec_le hm hm) (by decide)) ?_ (len_lt64 hl)
    (fun i h => ⟨hmin i h, ?_⟩) ⟨pad, hpad, hp⟩
  · exact minIndex_lt (by positivity) (fun i h => lt_of_le_of_lt (hi i h) hm)
  · exact lt_of_le_of_lt (le_trans (Nat.sub_le _ _) (hi i h)) (calcPrec_spec hm).1

theorem saveUvs_lies {l : List (Vec2 fo.F)} {p : Nat} (hp : p ≤ 30) (hl : l.length ≤ 2 ^ 31) {d : List UInt8}
    (hd : saveUvs fo b l p = .ok d) : Lies ⟨5, 0, d⟩ (.uvs p (l.map (uvCodes fo p))) := by
  obtain ⟨w, e, hpk⟩ := written_packed (b := b) (fields := l.flatMap (uvFields fo p (2 ^ p - 1)))
    (fields' := (l.map (uvCodes fo p)).flatMap fun c => [(p, c.1), (p, c.2)]) (by
      intro q hq
      obtain ⟨x, _, hx⟩ := List.mem_flatMap.mp hq
      simp only [uvFields, List.mem_cons, List.not_mem_nil, or_false] at hx
      rcases hx with rfl | rfl <;> dsimp only <;> omega) (by
      rw [List.flatMap_map]
      exact fieldBits_flatMap l fun a _ => by
        simp only [uvFields, uvCodes, fieldBits_cons, fieldBits_nil, bits_mod])
  simp only [saveUvs, mulI32_ok hp, e, Outcome.bind_ok] at hd
  cases hd
  have := Lies.uvs p (l.map (uvCodes fo p)) w.finish (by omega) (by rw [List.length_map]; exact len_lt64 hl) (by
    intro c hc
    obtain ⟨a, _, rfl⟩ := List.mem_map.mp hc
    exact ⟨Nat.mod_lt _ (two_pow_pos' _), Nat.mod_lt _ (two_pow_pos' _)⟩) hpk
  rw [List.length_map] at this
  exact this

theorem normalBits_fields (p : Nat) (n : Vec3 fo.F) :
    fieldBits (normalFieldsPure fo p n) = fieldBits ((normalBits fo p n).fields p) := by
  simp only [normalFieldsPure, NormalBits.fields, normalBits, fieldBits_cons, fieldBits_nil, bits_mod]

theorem saveNormals_lies {l : List (Vec3 fo.F)} {p : Nat} (hp : p < 64) (hp' : l = [] ∨ p ≤ 30) (hl : l.length ≤ 2 ^ 31)
    {d : List UInt8} (hd : saveNormals fo b l p = .ok d) : Lies ⟨3, 0, d⟩ (.normals p (l.map (normalBits fo p))) := by
  have hp30 : ∀ a ∈ l, p ≤ 30 := by
    intro a ha
    rcases hp' with rfl | h
    · cases ha
    · exact h
  obtain ⟨w, e, hpk⟩ := written_packed (b := b) (fields := l.flatMap (normalFieldsPure fo p))
    (fields' := (l.map (normalBits fo p)).flatMap (NormalBits.fields p)) (by
      intro q hq
      obtain ⟨x, hx, hq⟩ := List.mem_flatMap.mp hq
      simp only [normalFieldsPure, List.mem_cons, List.not_mem_nil, or_false] at hq
      rcases hq with rfl | rfl | rfl | rfl | rfl <;> dsimp only <;> omega) (by
      rw [List.flatMap_map]
      exact fieldBits_flatMap l fun a _ => normalBits_fields p a)
  have hm : Outcome.mapAll (normalFields fo b p) l = .ok (l.map (normalFieldsPure fo p)) :=
    mapAll_of_ok (fun a ha => by simp [normalFields, normalToEncoding, mulI32_ok (hp30 a ha), normalFieldsPure])
  simp only [saveNormals, hm, ← List.flatMap_def, e, Outcome.bind_ok] at hd
  cases hd
  have := Lies.normals p (l.map (normalBits fo p)) w.finish (by omega) (by rw [List.length_map]; exact len_lt64 hl) (by
    intro c hc
    obtain ⟨a, _, rfl⟩ := List.mem_map.mp hc
    exact ⟨Nat.mod_lt _ (two_pow_pos' _), Nat.mod_lt _ (two_pow_pos' _)⟩) hpk
  rw [List.length_map] at this
  exact this

theorem saveTangents_lies {l : List (Tangent fo.F)} {p : Nat} (hp : p < 64) (hp' : l = [] ∨ p ≤ 30) (hl : l.length ≤ 2 ^ 31)
    {d : List UInt8} (hd : saveTangents fo b l p = .ok d) : Lies ⟨9, 0, d⟩ (.tangents p (l.map (tangentBits fo p))) := by
  have hp30 : ∀ a ∈ l, p ≤ 30 := by
    intro a ha
    rcases hp' with rfl | h
    · cases ha
    · exact h
  obtain ⟨w, e, hpk⟩ := written_packed (b := b) (fields := l.flatMap (tangentFieldsPure fo p))
    (fields' := (l.map (tangentBits fo p)).flatMap fun c => (1, c.1.toNat) :: c.2.fields p) (by
      intro q hq
      obtain ⟨x, hx, hq⟩ := List.mem_flatMap.mp hq
      simp only [tangentFieldsPure, normalFieldsPure, List.mem_cons, List.not_mem_nil, or_false] at hq
      rcases hq with rfl | rfl | rfl | rfl | rfl | rfl <;> dsimp only <;> omega) (by
      rw [List.flatMap_map]
      exact fieldBits_flatMap l fun a _ => by
        rw [tangentFieldsPure, fieldBits_cons, fieldBits_cons, normalBits_fields]
        rfl)
  have hm : Outcome.mapAll (tangentFields fo b p) l = .ok (l.map (tangentFieldsPure fo p)) :=
    mapAll_of_ok (fun a ha => by
      simp [tangentFields, normalToEncoding, mulI32_ok (hp30 a ha), tangentFieldsPure, normalFieldsPure])
  simp only [saveTangents, hm, ← List.flatMap_def, e, Outcome.bind_ok] at hd
  cases hd
  have := Lies.tangents p (l.map (tangentBits fo p)) w.finish (by omega) (by rw [List.length_map]; exact len_lt64 hl) (by
    intro c hc
    obtain ⟨a, _, rfl⟩ := List.mem_map.mp hc
    exact ⟨Nat.mod_lt _ (two_pow_pos' _), Nat.mod_lt _ (two_pow_pos' _)⟩) hpk
  rw [List.length_map] at this
  exact this

theorem saveVertices_lies {l : List (Vec3 fo.F)} {precision : fo.F} {s : VBox fo.F} (hs : vertexBox fo l = .ok s)
    (hx : (s.precs fo precision edge).1 ≤ 30) (hy : (s.precs fo precision edge).2.1 ≤ 30)
    (hz : (s.precs fo precision edge).2.2 ≤ 30) (hl : l.length ≤ 2 ^ 31) {d : List UInt8}
    (hd : saveVertices fo fb b l precision edge = .ok d) :
    Lies ⟨1, 0, d⟩ (.vertices (boxBytes fo fb s) (s.precs fo precision edge)
      (l.map (vertexCodes fo s (s.precs fo precision edge)))) := by
  set p := s.precs fo precision edge with hpdef
  obtain ⟨w, e, hpk⟩ := written_packed (b := b)
    (fields := l.flatMap (vertexFields fo s p (2 ^ p.1 - 1, 2 ^ p.2.1 - 1, 2 ^ p.2.2 - 1)))
    (fields' := (l.map (vertexCodes fo s p)).flatMap fun c => [(p.1, c.1), (p.2.1, c.2.1), (p.2.2, c.2.2)]) (by
      intro q hq
      obtain ⟨x, hx, hq⟩ := List.mem_flatMap.mp hq
      simp only [vertexFields, List.mem_cons, List.not_mem_nil, or_false] at hq
      rcases hq with rfl | rfl | rfl <;> dsimp only <;> omega) (by
      rw [List.flatMap_map]
      exact fieldBits_flatMap l fun a _ => by
        simp only [vertexFields, vertexCodes, fieldBits_cons, fieldBits_nil, bits_mod])
  simp only [saveVertices, hs, Outcome.bind_ok, ← hpdef, mulI32_ok hx, mulI32_ok hy, mulI32_ok hz, e] at hd
  cases hd
  have := Lies.vertices (boxBytes fo fb s) p.1 p.2.1 p.2.2 (l.map (vertexCodes fo s p)) w.finish
    ⟨fb.enc_length _, fb.enc_length _, fb.enc_length _, fb.enc_length _, fb.enc_length _, fb.enc_length _⟩
    (by omega) (by omega) (by omega) (by rw [List.length_map]; exact len_lt64 hl) (by
    intro c hc
    obtain ⟨a, _, rfl⟩ := List.mem_map.mp hc
    exact ⟨Nat.mod_lt _ (two_pow_pos' _), Nat.mod_lt _ (two_pow_pos' _), Nat.mod_lt _ (two_pow_pos' _)⟩) hpk
  rw [List.length_map] at this
  simpa only [BoxBytes.bytes, boxBytes, List.append_assoc] using this

theorem saveFloats_lies {l : List fo.F} {pr : fo.F} (hp : floatPrec fo l pr ≤ 30) (hl : l.length ≤ 2 ^ 31) {d : List UInt8}
    (hd : saveFloats fo fb b l pr = .ok d) : CustomLies 16 d (customContent fo fb (.float l pr)) := by
  set p := floatPrec fo l pr with hpdef
  set r := floatRange fo l with hr
  obtain ⟨w, e, hpk⟩ := written_packed (b := b) (fields := l.map fun x => (p, floatCode fo r (2 ^ p - 1) x))
    (fields' := (l.map fun x => floatCode fo r (2 ^ p - 1) x % 2 ^ p).map fun c => (p, c)) (by
      intro q hq
      obtain ⟨x, hx, rfl⟩ := List.mem_map.mp hq
      dsimp only
      omega) (by
      rw [List.map_map]
      exact (fieldBits_map_mod l p _).symm)
  simp only [saveFloats, ← hpdef, mulI32_ok hp, ← hr, e, Outcome.bind_ok] at hd
  cases hd
  have := CustomLies.float (f64Bytes fb r.1) (f64Bytes fb r.2) w.finish p (l.map fun x => floatCode fo r (2 ^ p - 1) x % 2 ^ p)
    (fb.enc_length _) (fb.enc_length _) (by omega) (by rw [List.length_map]; exact len_lt64 hl) (by
    intro c hc
    obtain ⟨a, _, rfl⟩ := List.mem_map.mp hc
    exact Nat.mod_lt _ (two_pow_pos' _)) hpk
  rw [List.length_map] at this
  exact this

theorem saveColors_lies {l : List (Vec4 fo.F)} {pr : fo.F} (hp : colorPrec fo pr ≤ 30) (hl : l.length ≤ 2 ^ 31) {d : List UInt8}
    (hd : saveColors fo b l pr = .ok d) : CustomLies 23 d (customContent fo fb (.color l pr)) := by
  set p := colorPrec fo pr with hpdef
  obtain ⟨w, e, hpk⟩ := written_packed (b := b) (fields := l.flatMap (colorFields fo p (2 ^ p - 1)))
    (fields' := (l.map (colorCodes fo p)).flatMap fun c => [(p, c.1), (p, c.2.1), (p, c.2.2.1), (p, c.2.2.2)]) (by
      intro q hq
      obtain ⟨x, hx, hq⟩ := List.mem_flatMap.mp hq
      simp only [colorFields, List.mem_cons, List.not_mem_nil, or_false] at hq
      rcases hq with rfl | rfl | rfl | rfl <;> dsimp only <;> omega) (by
      rw [List.flatMap_map]
      exact fieldBits_flatMap l fun a _ => by
        simp only [colorFields, colorCodes, channelCode, fieldBits_cons, fieldBits_nil, bits_mod])
  simp only [saveColors, ← hpdef, mulI32_ok hp, e, Outcome.bind_ok] at hd
  cases hd
  have := CustomLies.color w.finish p (l.map (colorCodes fo p)) (by omega) (by rw [List.length_map]; exact len_lt64 hl) (by
    intro c hc
    obtain ⟨a, _, rfl⟩ := List.mem_map.mp hc
    exact ⟨Nat.mod_lt _ (two_pow_pos' _), Nat.mod_lt _ (two_pow_pos' _), Nat.mod_lt _ (two_pow_pos' _),
      Nat.mod_lt _ (two_pow_pos' _)⟩) hpk
  rw [List.length_map] at this
  exact this

theorem custom_lies {s : CustomSeg fo.F} (hs : CustomFits s) (hq : LowCustom fo s.data) {d : List UInt8}
    (hd : s.encode fo fb b = .ok d) :
    Lies ⟨s.data.sectionType.toU8, 0, d⟩ (.custom s.name (customContent fo fb s.data)) := by
  rw [CustomSeg.encode, Outcome.bind_eq_ok] at hd
  obtain ⟨data, hdata, hd⟩ := hd
  cases hd
  cases hs with
  | index name l m hn hl hi hm =>
    exact .custom 15 name data _ hn (.index data l (saveTriangles_lies hl (by omega) (fun i h => (hi i h).1) hdata))
  | integer name l m hn hl hi hm =>
    exact .custom 24 name data _ hn (.integer data l (saveTriangles_lies hl (by omega) (fun i h => (hi i h).1) hdata))
  | float name l p hn hl => exact .custom 16 name data _ hn (saveFloats_lies hq hl hdata)
  | color name l p hn hl => exact .custom 23 name data _ hn (saveColors_lies hq hl hdata)

theorem tri_lies {l : List Nat} (h : l.length ≤ 2 ^ 31 ∧ ∀ i ∈ l, i < 2 ^ 31) {d : List UInt8}
    (hd : saveTriangles b l (maxIndex l) = .ok d) : IndexData d l :=
  saveTriangles_lies h.1 (lt_trans (maxIndex_lt (n := 2 ^ 31) (by positivity) h.2) (by decide)) (fun _ hi => le_maxIndex hi) hd

/-- An encoded segment lies in the file as described. -/
theorem encode_lies {s : DecodedSegment fo.F} (hs : SegFits prec s) (hq : SegLow fo prec edge s)
    (hn : s.isSomething = true) {e : EncodedSegment} (h : s.encode fo fb b prec edge = .ok e) :
    Lies (rawOf e) (contentOf fo fb prec edge s) := by
  cases s with
  | nothing => cases hn
  | vertex l =>
    rw [encode, Outcome.bind_eq_ok] at h
    obtain ⟨d, hd, h⟩ := h
    cases h
    obtain ⟨s, hs'⟩ : ∃ s, vertexBox fo l = .ok s := by
      simp only [saveVertices, Outcome.bind_eq_ok] at hd
      obtain ⟨s, hs, _⟩ := hd
      exact ⟨s, hs⟩
    obtain ⟨hx, hy, hz⟩ := hq s hs'
    simp only [contentOf, hs']
    exact saveVertices_lies hs' hx hy hz hs hd
  | normal l =>
    rw [encode, Outcome.bind_eq_ok] at h
    obtain ⟨d, hd, h⟩ := h
    cases h
    refine saveNormals_lies ?_ hq hs.1 hd
    rcases hq with hq | hq
    · exact hs.2 hq
    · omega
  | uv l =>
    rw [encode, Outcome.bind_eq_ok] at h
    obtain ⟨d, hd, h⟩ := h
    cases h
    exact saveUvs_lies hq hs hd
  | tangent l =>
    rw [encode, Outcome.bind_eq_ok] at h
    obtain ⟨d, hd, h⟩ := h
    cases h
    refine saveTangents_lies ?_ hq hs.1 hd
    rcases hq with hq | hq
    · exact hs.2 hq
    · omega
  | triVertex l =>
    rw [encode, Outcome.bind_eq_ok] at h
    obtain ⟨d, hd, h⟩ := h
    cases h
    exact .vertexIndices d l (tri_lies hs hd)
  | triNormal l =>
    rw [encode, Outcome.bind_eq_ok] at h
    obtain ⟨d, hd, h⟩ := h
    cases h
    exact .normalIndices d l (tri_lies hs hd)
  | triUv l =>
    rw [encode, Outcome.bind_eq_ok] at h
    obtain ⟨d, hd, h⟩ := h
    cases h
    exact .uvIndices d l (tri_lies hs hd)
  | triTangent l =>
    rw [encode, Outcome.bind_eq_ok] at h
    obtain ⟨d, hd, h⟩ := h
    cases h
    exact .tangentIndices d l (tri_lies hs hd)
  | shared mask l =>
    rw [encode, Outcome.bind_eq_ok] at h
    obtain ⟨d, hd, h⟩ := h
    cases h
    exact .sharedIndices mask d l hs.1 (tri_lies hs.2 hd)
  | custom c =>
    rw [encode, Outcome.bind_eq_ok] at h
    obtain ⟨d, hd, h⟩ := h
    cases h
    exact custom_lies hs hq hd

/-! ### Meshes -/

/-- The pieces of one segment before they are encoded. -/
structure RawPieces (s : DecodedSegment fo.F) (ps : List (DecodedSegment fo.F)) : Prop where
  normals : ps.flatMap pNormals = s.pNormals
  uvs : ps.flatMap pUvs = s.pUvs
  tangents : ps.flatMap pTangents = s.pTangents
  custom : ps.flatMap pCustom = s.pCustom
  vertices : SamePieces (ps.flatMap pVertices) s.pVertices
  something : s.isSomething = true → ∀ p ∈ ps, p.isSomething = true

theorem rawPieces_map {mk : List Nat → DecodedSegment fo.F} {s : DecodedSegment fo.F} (qs : List (List Nat))
    (h1 : ∀ q, (mk q).pNormals = []) (h2 : ∀ q, (mk q).pUvs = []) (h3 : ∀ q, (mk q).pTangents = [])
    (h4 : ∀ q, (mk q).pCustom = []) (h5 : ∀ q, (mk q).pVertices = []) (h6 : ∀ q, (mk q).isSomething = true)
    (hs : s.pNormals = [] ∧ s.pUvs = [] ∧ s.pTangents = [] ∧ s.pCustom = [] ∧ s.pVertices = []) :
    RawPieces s (qs.map mk) := by
  obtain ⟨s1, s2, s3, s4, s5⟩ := hs
  constructor
  · simp [List.flatMap_map, h1, s1]
  · simp [List.flatMap_map, h2, s2]
  · simp [List.flatMap_map, h3, s3]
  · simp [List.flatMap_map, h4, s4]
  · rw [s5]; simp only [List.flatMap_map, h5, flatMap_nil']; exact samePieces_nil
  · intro _ p hp
    obtain ⟨q, _, rfl⟩ := List.mem_map.mp hp
    exact h6 q

theorem optimize_raw {s : DecodedSegment fo.F} {ps : List (DecodedSegment fo.F)} (h : s.optimize fo b = .ok ps) :
    RawPieces s ps := by
  have tri : ∀ {l : List Nat} {mk : List Nat → DecodedSegment fo.F}
      (_ : ∀ q, (mk q).pNormals = []) (_ : ∀ q, (mk q).pUvs = []) (_ : ∀ q, (mk q).pTangents = [])
      (_ : ∀ q, (mk q).pCustom = []) (_ : ∀ q, (mk q).pVertices = []) (_ : ∀ q, (mk q).isSomething = true)
      (_ : s.pNormals = [] ∧ s.pUvs = [] ∧ s.pTangents = [] ∧ s.pCustom = [] ∧ s.pVertices = []),
      (optTris b l >>= fun ps => Outcome.ok (ps.map mk)) = .ok ps → RawPieces s ps := by
    intro l mk h1 h2 h3 h4 h5 h6 hs h
    rw [Outcome.bind_eq_ok] at h
    obtain ⟨qs, _, h⟩ := h
    cases h
    exact rawPieces_map qs h1 h2 h3 h4 h5 h6 hs
  have single : ps = [s] → RawPieces s ps := by
    rintro rfl
    constructor <;> first
      | (simp only [List.flatMap_cons, List.flatMap_nil, List.append_nil]; exact SamePieces.rfl' _)
      | simp
  cases s with
  | nothing => cases h; exact single rfl
  | normal l => cases h; exact single rfl
  | uv l => cases h; exact single rfl
  | tangent l => cases h; exact single rfl
  | custom l => cases h; exact single rfl
  | triVertex l =>
    exact tri (mk := .triVertex) (fun _ => rfl) (fun _ => rfl) (fun _ => rfl) (fun _ => rfl) (fun _ => rfl)
      (fun _ => rfl) ⟨rfl, rfl, rfl, rfl, rfl⟩ h
  | triNormal l =>
    exact tri (mk := .triNormal) (fun _ => rfl) (fun _ => rfl) (fun _ => rfl) (fun _ => rfl) (fun _ => rfl)
      (fun _ => rfl) ⟨rfl, rfl, rfl, rfl, rfl⟩ h
  | triUv l =>
    exact tri (mk := .triUv) (fun _ => rfl) (fun _ => rfl) (fun _ => rfl) (fun _ => rfl) (fun _ => rfl)
      (fun _ => rfl) ⟨rfl, rfl, rfl, rfl, rfl⟩ h
  | triTangent l =>
    exact tri (mk := .triTangent) (fun _ => rfl) (fun _ => rfl) (fun _ => rfl) (fun _ => rfl) (fun _ => rfl)
      (fun _ => rfl) ⟨rfl, rfl, rfl, rfl, rfl⟩ h
  | shared k l =>
    exact tri (mk := .shared k) (fun _ => rfl) (fun _ => rfl) (fun _ => rfl) (fun _ => rfl) (fun _ => rfl)
      (fun _ => rfl) ⟨rfl, rfl, rfl, rfl, rfl⟩ h
  | vertex l =>
    simp only [optimize, Outcome.bind_eq_ok] at h
    obtain ⟨qs, hq, h⟩ := h
    cases h
    obtain ⟨hc, hn⟩ := optVerticesFuel_flatten hq
    constructor
    · simp [List.flatMap_map, pNormals]
    · simp [List.flatMap_map, pUvs]
    · simp [List.flatMap_map, pTangents]
    · simp [List.flatMap_map, pCustom]
    · simp only [List.flatMap_map, pVertices, flatMap_wrap]
      rw [← hc]; exact samePieces_cut hn
    · intro _ p hp
      obtain ⟨q, _, rfl⟩ := List.mem_map.mp hp
      rfl

theorem flatMap_forall₂ {S T : Type} {f : S → List T} : ∀ {l : List S} {pieces : List (List S)},
    List.Forall₂ (fun s ps => ps.flatMap f = f s) l pieces → pieces.flatten.flatMap f = l.flatMap f := by
  intro l pieces h
  induction h with
  | nil => rfl
  | cons h _ ih => rw [List.flatten_cons, List.flatMap_append, h, ih, List.flatMap_cons]

theorem flatMap_map_list {S T U : Type} (l : List S) (f : S → List T) (g : T → U) :
    l.flatMap (fun s => (f s).map g) = (l.flatMap f).map g := by
  induction l with
  | nil => rfl
  | cons a l ih => rw [List.flatMap_cons, List.flatMap_cons, ih, List.map_append]

theorem forall₂_map_right {α β : Type} {R : α → β → Prop} {f : α → β} {l : List α} (h : ∀ a ∈ l, R a (f a)) :
    List.Forall₂ R l (l.map f) := by
  induction l with
  | nil => exact .nil
  | cons a l ih => exact .cons (h a List.mem_cons_self) (ih fun x hx => h x (List.mem_cons_of_mem _ hx))

theorem and_two_pow_ne (m i : Nat) : (m &&& 2 ^ i != 0) = m.testBit i := by
  cases h : m.testBit i with
  | false =>
    have : m &&& 2 ^ i = 0 := Nat.eq_of_testBit_eq fun j => by
      rw [Nat.testBit_and, Nat.testBit_two_pow, Nat.zero_testBit]
      by_cases hj : i = j
      · subst hj; simp [h]
      · simp [hj]
    simp [this]
  | true =>
    simp only [bne_iff_ne, ne_eq]
    intro h0
    have := congrArg (fun n => n.testBit i) h0
    simp [Nat.testBit_and, h] at this

theorem testBit_vertex (mask : Nat) : mask.testBit 0 = hasVertex mask := (and_two_pow_ne mask 0).symm
theorem testBit_normal (mask : Nat) : mask.testBit 1 = hasNormal mask := (and_two_pow_ne mask 1).symm
theorem testBit_uv (mask : Nat) : mask.testBit 2 = hasUv mask := (and_two_pow_ne mask 2).symm

theorem mergedSegs_vertexTriangles (m : Mesh fo.F) : (mergedSegs m).flatMap pVertexTriangles = m.vertexTriangles.toList := by
  simp only [mergedSegs, List.flatMap_append]
  rw [list_flatMap_nil _ _ _ (fun _ => rfl), opt_flatMap_nil _ _ _ (fun _ => rfl), opt_flatMap_nil _ _ _ (fun _ => rfl),
    opt_flatMap_nil _ _ _ (fun _ => rfl), opt_flatMap_nil _ _ _ (fun _ => rfl), opt_flatMap_nil _ _ _ (fun _ => rfl),
    mergedTris_vertex]
  simp

theorem mergedSegs_normalTriangles (m : Mesh fo.F) : (mergedSegs m).flatMap pNormalTriangles = m.normalTriangles.toList := by
  simp only [mergedSegs, List.flatMap_append]
  rw [list_flatMap_nil _ _ _ (fun _ => rfl), opt_flatMap_nil _ _ _ (fun _ => rfl), opt_flatMap_nil _ _ _ (fun _ => rfl),
    opt_flatMap_nil _ _ _ (fun _ => rfl), opt_flatMap_nil _ _ _ (fun _ => rfl), opt_flatMap_nil _ _ _ (fun _ => rfl),
    mergedTris_normal]
  simp

theorem mergedSegs_uvTriangles (m : Mesh fo.F) : (mergedSegs m).flatMap pUvTriangles = m.uvTriangles.toList := by
  simp only [mergedSegs, List.flatMap_append]
  rw [list_flatMap_nil _ _ _ (fun _ => rfl), opt_flatMap_nil _ _ _ (fun _ => rfl), opt_flatMap_nil _ _ _ (fun _ => rfl),
    opt_flatMap_nil _ _ _ (fun _ => rfl), opt_flatMap_nil _ _ _ (fun _ => rfl), opt_flatMap_nil _ _ _ (fun _ => rfl),
    mergedTris_uv]
  simp

theorem mergedSegs_tangentTriangles (m : Mesh fo.F) : (mergedSegs m).flatMap pTangentTriangles = m.tangentTriangles.toList := by
  simp only [mergedSegs, List.flatMap_append]
  rw [list_flatMap_nil _ _ _ (fun _ => rfl), opt_flatMap _ _ _ id (fun _ => rfl), opt_flatMap_nil _ _ _ (fun _ => rfl),
    opt_flatMap_nil _ _ _ (fun _ => rfl), opt_flatMap_nil _ _ _ (fun _ => rfl), opt_flatMap_nil _ _ _ (fun _ => rfl),
    mergedTris_other (fun _ => rfl) (fun _ => rfl) (fun _ => rfl) (fun _ _ => rfl)]
  simp

variable (fo fb b prec edge) in
/-- The codes the writer computes have the meaning. -/
structure Exact (m : Mesh fo.F) (μ : Meaning fo.F) : Prop where
  vertex : ∀ l qs q s, m.vertices = some l → optVertices fo b l = .ok qs → q ∈ qs → vertexBox fo q = .ok s → ∀ v ∈ q,
    μ.vertex (boxBytes fo fb s) (s.precs fo prec.vertex edge) v (vertexCodes fo s (s.precs fo prec.vertex edge) v)
  normal : ∀ l, m.normals = some l → ∀ n ∈ l, μ.normal prec.normal n (normalBits fo prec.normal n)
  uv : ∀ l, m.uvs = some l → ∀ x ∈ l, μ.uv prec.uv x (uvCodes fo prec.uv x)
  tangent : ∀ l, m.tangents = some l → ∀ t ∈ l, μ.hand t.2 (fo.isSignNegative t.2) ∧
    μ.normal prec.tangent t.1 (normalBits fo prec.tangent t.1)
  float : ∀ name l p, ⟨name, .float l p⟩ ∈ m.customData → ∀ x ∈ l, μ.float (f64Bytes fb (floatRange fo l).1)
    (f64Bytes fb (floatRange fo l).2) (floatPrec fo l p) x
      (floatCode fo (floatRange fo l) (2 ^ floatPrec fo l p - 1) x % 2 ^ floatPrec fo l p)
  color : ∀ name l p, ⟨name, .color l p⟩ ∈ m.customData → ∀ c ∈ l,
    μ.channel (colorPrec fo p) c.1 (channelCode fo (colorPrec fo p) c.1) ∧
    μ.channel (colorPrec fo p) c.2.1 (channelCode fo (colorPrec fo p) c.2.1) ∧
    μ.channel (colorPrec fo p) c.2.2.1 (channelCode fo (colorPrec fo p) c.2.2.1) ∧
    μ.channel (colorPrec fo p) c.2.2.2 (channelCode fo (colorPrec fo p) c.2.2.2)

theorem exact_none (m : Mesh fo.F) : Exact fo fb prec edge b m (.none fo.F) :=
  ⟨fun _ _ _ _ _ _ _ _ _ _ => trivial, fun _ _ _ _ => trivial, fun _ _ _ _ => trivial, fun _ _ _ _ => ⟨trivial, trivial⟩,
    fun _ _ _ _ _ _ => trivial, fun _ _ _ _ _ _ => ⟨trivial, trivial, trivial, trivial⟩⟩

theorem content_vertex (p : DecodedSegment fo.F) :
    (contentOf fo fb prec edge p).vertexIndexPieces = (p.loaded fo prec edge).pVertexTriangles := by
  cases p <;> simp only [contentOf, DecodedSegment.loaded, Content.vertexIndexPieces, pVertexTriangles, testBit_vertex]
  · rfl
  · next l => cases vertexBox fo l <;> rfl

theorem content_normal (p : DecodedSegment fo.F) :
    (contentOf fo fb prec edge p).normalIndexPieces = (p.loaded fo prec edge).pNormalTriangles := by
  cases p <;> simp only [contentOf, DecodedSegment.loaded, Content.normalIndexPieces, pNormalTriangles, testBit_normal]
  · rfl
  · next l => cases vertexBox fo l <;> rfl

theorem content_uv (p : DecodedSegment fo.F) :
    (contentOf fo fb prec edge p).uvIndexPieces = (p.loaded fo prec edge).pUvTriangles := by
  cases p <;> simp only [contentOf, DecodedSegment.loaded, Content.uvIndexPieces, pUvTriangles, testBit_uv]
  · rfl
  · next l => cases vertexBox fo l <;> rfl

theorem content_tangent (p : DecodedSegment fo.F) :
    (contentOf fo fb prec edge p).tangentIndexPieces = (p.loaded fo prec edge).pTangentTriangles := by
  cases p <;> simp only [contentOf, DecodedSegment.loaded, Content.tangentIndexPieces, pTangentTriangles]
  next l => cases vertexBox fo l <;> rfl

theorem content_normals (p : DecodedSegment fo.F) : (contentOf fo fb prec edge p).normalPieces =
    p.pNormals.map fun l => (prec.normal, l.map (normalBits fo prec.normal)) := by
  cases p <;> simp only [contentOf, Content.normalPieces, pNormals, List.map_nil, List.map_cons]
  next l => cases vertexBox fo l <;> rfl

theorem content_uvs (p : DecodedSegment fo.F) : (contentOf fo fb prec edge p).uvPieces =
    p.pUvs.map fun l => (prec.uv, l.map (uvCodes fo prec.uv)) := by
  cases p <;> simp only [contentOf, Content.uvPieces, pUvs, List.map_nil, List.map_cons]
  next l => cases vertexBox fo l <;> rfl

theorem content_tangents (p : DecodedSegment fo.F) : (contentOf fo fb prec edge p).tangentPieces =
    p.pTangents.map fun l => (prec.tangent, l.map (tangentBits fo prec.tangent)) := by
  cases p <;> simp only [contentOf, Content.tangentPieces, pTangents, List.map_nil, List.map_cons]
  next l => cases vertexBox fo l <;> rfl

theorem content_custom (p : DecodedSegment fo.F) : (contentOf fo fb prec edge p).customPieces =
    p.pCustom.map fun s => (s.name, customContent fo fb s.data) := by
  cases p <;> simp only [contentOf, Content.customPieces, pCustom, List.map_nil, List.map_cons]
  next l => cases vertexBox fo l <;> rfl

theorem customHolds_exact {m : Mesh fo.F} {μ : Meaning fo.F} (h : Exact fo fb prec edge b m μ) {c : CustomSeg fo.F}
    (hc : c ∈ m.customData) : CustomHolds μ c (c.name, customContent fo fb c.data) := by
  obtain ⟨name, d⟩ := c
  cases d with
  | index l mx => exact .index name l mx
  | integer l mx => exact .integer name l mx
  | float l p => exact .float name l p _ _ _ _ (forall₂_map_right (h.float name l p hc))
  | color l p => exact .color name l p _ _ (forall₂_map_right (h.color name l p hc))

theorem vertexPieces_exact {μ : Meaning fo.F} : ∀ {ps : List (DecodedSegment fo.F)}
    (_ : ∀ q, vertex q ∈ ps → ∃ s, vertexBox fo q = .ok s ∧ ∀ v ∈ q,
      μ.vertex (boxBytes fo fb s) (s.precs fo prec.vertex edge) v (vertexCodes fo s (s.precs fo prec.vertex edge) v)),
    List.Forall₂ (fun l c => List.Forall₂ (μ.vertex c.1 c.2.1) l c.2.2) (ps.flatMap pVertices)
      ((ps.map (contentOf fo fb prec edge)).flatMap Content.vertexPieces) := by
  intro ps h
  induction ps with
  | nil => exact .nil
  | cons p ps ih =>
    have ih := ih fun q hq => h q (List.mem_cons_of_mem _ hq)
    rw [List.flatMap_cons, List.map_cons, List.flatMap_cons]
    cases p with
    | vertex q =>
      obtain ⟨s, hs, hv⟩ := h q List.mem_cons_self
      simp only [pVertices, contentOf, hs, Content.vertexPieces]
      exact .cons (forall₂_map_right hv) ih
    | _ => simpa only [pVertices, contentOf, Content.vertexPieces, List.nil_append] using ih

theorem mergedTris_something (u n v : Option (List Nat)) :
    ∀ s ∈ (mergedTris u n v : List (DecodedSegment fo.F)), s.isSomething = true := by
  intro s hs
  cases u <;> cases n <;> cases v <;> simp only [mergedTris] at hs <;> (repeat' split at hs) <;>
    simp only [Option.map_none, Option.map_some, Option.toList_none, Option.toList_some, List.mem_cons, List.not_mem_nil,
      or_false] at hs <;> first | (cases hs; done) | (rcases hs with rfl | rfl | rfl <;> rfl)

theorem mergedSegs_something (m : Mesh fo.F) : ∀ s ∈ mergedSegs m, s.isSomething = true := by
  intro s hs
  simp only [mergedSegs, List.mem_append, List.mem_map, Option.mem_toList, Option.map_eq_some_iff] at hs
  rcases hs with ((⟨c, _, rfl⟩ | ⟨c, _, rfl⟩) | ⟨c, _, rfl⟩) | h | (⟨c, _, rfl⟩ | ⟨c, _, rfl⟩) | ⟨c, _, rfl⟩
  all_goals first | rfl | exact mergedTris_something _ _ _ s h

/-- The segments of a saved mesh. -/
theorem encodeMesh_holds {m : Mesh fo.F} {segs : List EncodedSegment} (hm : MeshFits prec m)
    (hq : b = .checked ∨ Low fo b prec m) (h : encodeMesh fo fb b prec m = .ok segs) :
    ∃ edge, calcShortestEdge fo m.vertexTriangles m.vertices = .ok edge ∧ ∃ cs, List.Forall₂ Lies (segs.map rawOf) cs ∧
      ∀ μ, Exact fo fb prec edge b m μ → Holds μ prec m cs := by
  rw [encodeMesh, Outcome.bind_eq_ok] at h
  obtain ⟨edge, he, h⟩ := h
  rw [mergeSegments_eq] at h
  simp only [Outcome.bind_ok, Outcome.bind_eq_ok] at h
  obtain ⟨pieces, hp, hs⟩ := h
  have hF : List.Forall₂ (PiecesOf fo b prec edge) (mergedSegs m) pieces :=
    forall₂_imp (mapAll_forall₂ hp) (fun s hs ps h => optimize_pieces (mergedSegs_fits hm s hs) h)
  have hR : List.Forall₂ RawPieces (mergedSegs m) pieces :=
    forall₂_imp (mapAll_forall₂ hp) (fun s hs ps h => optimize_raw h)
  have hsome : ∀ p ∈ pieces.flatten, p.isSomething = true := by
    intro p hp'
    obtain ⟨ps, hps, hpp⟩ := List.mem_flatten.mp hp'
    obtain ⟨s, hs, e⟩ := mapAll_ok_mem' hp ps hps
    exact (optimize_raw e).something (mergedSegs_something m s hs) p hpp
  have hfits : ∀ p ∈ pieces.flatten, SegFits prec p := by
    intro p hp'
    obtain ⟨ps, hps, hpp⟩ := List.mem_flatten.mp hp'
    obtain ⟨s, hs, e⟩ := mapAll_ok_mem' hp ps hps
    exact (optimize_pieces (edge := edge) (mergedSegs_fits hm s hs) e).fits p hpp
  have hlow : ∀ p ∈ pieces.flatten, SegLow fo prec edge p := by
    rcases hq with rfl | hq
    · intro p hp'
      obtain ⟨e, _, h⟩ := forall₂_mem (mapAll_forall₂ hs) p hp'
      exact segLow_of_checked h
    · intro p hp'
      obtain ⟨ps, hps, hpp⟩ := List.mem_flatten.mp hp'
      obtain ⟨s, hs, e⟩ := mapAll_ok_mem' hp ps hps
      exact low_piece hq he hs e p hpp
  have hE := mapAll_forall₂ hs
  refine ⟨edge, he, pieces.flatten.map (contentOf fo fb prec edge), ?_, ?_⟩
  · clear hs hF hR hp
    generalize pieces.flatten = ps at *
    induction hE with
    | nil => exact .nil
    | @cons p e _ _ h _ ih =>
      exact .cons (encode_lies (hfits p List.mem_cons_self) (hlow p List.mem_cons_self) (hsome p List.mem_cons_self) h)
        (ih (fun q hq => hsome q (List.mem_cons_of_mem _ hq)) (fun q hq => hfits q (List.mem_cons_of_mem _ hq))
          (fun q hq => hlow q (List.mem_cons_of_mem _ hq)))
  · intro μ hμ
    have e1 := (samePieces_flatMap (g := fun p => (p.loaded fo prec edge).pVertexTriangles) (fun s ps h => h.vertexTriangles) hF).joined
    have e2 := (samePieces_flatMap (g := fun p => (p.loaded fo prec edge).pNormalTriangles) (fun s ps h => h.normalTriangles) hF).joined
    have e3 := (samePieces_flatMap (g := fun p => (p.loaded fo prec edge).pUvTriangles) (fun s ps h => h.uvTriangles) hF).joined
    have e4 := (samePieces_flatMap (g := fun p => (p.loaded fo prec edge).pTangentTriangles) (fun s ps h => h.tangentTriangles) hF).joined
    constructor
    · simp only [List.flatMap_map, content_vertex]
      rw [e1, mergedSegs_vertexTriangles, joined_toList]
    · simp only [List.flatMap_map, content_normal]
      rw [e2, mergedSegs_normalTriangles, joined_toList]
    · simp only [List.flatMap_map, content_uv]
      rw [e3, mergedSegs_uvTriangles, joined_toList]
    · simp only [List.flatMap_map, content_tangent]
      rw [e4, mergedSegs_tangentTriangles, joined_toList]
    · refine ⟨pieces.flatten.flatMap pVertices, ?_, ?_⟩
      · rw [(samePieces_flatMap (g := pVertices) (fun s ps h => h.vertices) hR).joined, mergedSegs_vertices, joined_toList]
      · refine vertexPieces_exact fun q hq' => ?_
        obtain ⟨ps, hps, hpp⟩ := List.mem_flatten.mp hq'
        obtain ⟨s, hs', e⟩ := mapAll_ok_mem' hp ps hps
        obtain ⟨enc, _, henc⟩ := forall₂_mem hE _ hq'
        obtain ⟨box, hbox⟩ : ∃ s, vertexBox fo q = .ok s := by
          rw [encode, Outcome.bind_eq_ok] at henc
          obtain ⟨d, hd, _⟩ := henc
          simp only [saveVertices, Outcome.bind_eq_ok] at hd
          obtain ⟨s, hs, _⟩ := hd
          exact ⟨s, hs⟩
        refine ⟨box, hbox, ?_⟩
        have hlist : ∀ {l : List Nat} {mk : List Nat → DecodedSegment fo.F} (_ : ∀ l, mk l ≠ vertex q),
            (optTris b l >>= fun ps => Outcome.ok (ps.map mk)) = .ok ps → False := by
          intro l mk hne h
          rw [Outcome.bind_eq_ok] at h
          obtain ⟨qs, _, h⟩ := h
          cases h
          obtain ⟨x, _, hx⟩ := List.mem_map.mp hpp
          exact hne x hx
        cases s with
        | vertex l =>
          have hl : l ∈ m.vertices.toList := by
            rw [← mergedSegs_vertices m]; exact List.mem_flatMap.mpr ⟨_, hs', List.mem_singleton.mpr rfl⟩
          simp only [optimize, Outcome.bind_eq_ok] at e
          obtain ⟨qs, hqs, e⟩ := e
          cases e
          obtain ⟨q', hq'', hx⟩ := List.mem_map.mp hpp
          cases hx
          exact hμ.vertex l qs q box (Option.mem_toList.mp hl) hqs hq'' hbox
        | nothing => cases e; simp at hpp
        | normal l => cases e; simp at hpp
        | uv l => cases e; simp at hpp
        | tangent l => cases e; simp at hpp
        | custom l => cases e; simp at hpp
        | triVertex l => exact (hlist (mk := .triVertex) (fun _ => by simp) e).elim
        | triNormal l => exact (hlist (mk := .triNormal) (fun _ => by simp) e).elim
        | triUv l => exact (hlist (mk := .triUv) (fun _ => by simp) e).elim
        | triTangent l => exact (hlist (mk := .triTangent) (fun _ => by simp) e).elim
        | shared k l => exact (hlist (mk := .shared k) (fun _ => by simp) e).elim
    · simp only [List.flatMap_map, content_normals]
      rw [flatMap_map_list, flatMap_forall₂ (hR.imp fun _ _ h => h.normals), mergedSegs_normals]
      exact forall₂_map_right fun l hl => ⟨rfl, forall₂_map_right (hμ.normal l (Option.mem_toList.mp hl))⟩
    · simp only [List.flatMap_map, content_uvs]
      rw [flatMap_map_list, flatMap_forall₂ (hR.imp fun _ _ h => h.uvs), mergedSegs_uvs]
      exact forall₂_map_right fun l hl => ⟨rfl, forall₂_map_right (hμ.uv l (Option.mem_toList.mp hl))⟩
    · simp only [List.flatMap_map, content_tangents]
      rw [flatMap_map_list, flatMap_forall₂ (hR.imp fun _ _ h => h.tangents), mergedSegs_tangents]
      exact forall₂_map_right fun l hl => ⟨rfl, forall₂_map_right (hμ.tangent l (Option.mem_toList.mp hl))⟩
    · simp only [List.flatMap_map, content_custom]
      rw [flatMap_map_list, flatMap_forall₂ (hR.imp fun _ _ h => h.custom), mergedSegs_custom]
      exact forall₂_map_right fun c hc => customHolds_exact hμ (List.mem_reverse.mp hc)

/-- The meshes of a saved file. -/
theorem tmfBytes_holds {meshes : List (Mesh fo.F × List UInt8)} {bytes : List UInt8}
    (h : tmfBytes fo fb b prec meshes = .ok bytes) (hm : ∀ mn ∈ meshes, MeshFits prec mn.1)
    (hq : b = .checked ∨ ∀ mn ∈ meshes, Low fo b prec mn.1) {μ : Meaning fo.F}
    (hμ : ∀ mn ∈ meshes, ∀ edge, calcShortestEdge fo mn.1.vertexTriangles mn.1.vertices = .ok edge →
      Exact fo fb prec edge b mn.1 μ) :
    ∃ raws, bytes = fileBytes 2 raws ∧ FileHolds μ prec meshes raws ∧
      List.Forall₂ (fun mn r => ∃ segs, encodeMesh fo fb b prec mn.1 = .ok segs ∧ r.segs = segs.map rawOf) meshes raws := by
  obtain ⟨enc, hE, hb⟩ := tmfBytes_ok fo fb b prec h
  have hF := mapAll_forall₂ hE
  refine ⟨(meshes.zip enc).map (fun p => ⟨p.1.2, p.2.map rawOf⟩), ?_, ?_, ?_⟩
  · rw [hb, fileBytes, fileHead, List.length_map, List.length_zip, ← hF.length_eq, Nat.min_self, List.flatMap_map]
    congr 1
    exact flatMap_eq_of (fun p _ => meshBytes_eq _ _)
  · clear hb hE h
    have hq' : ∀ mn ∈ meshes, b = .checked ∨ Low fo b prec mn.1 := fun mn hmn => hq.imp id fun h => h mn hmn
    clear hq
    induction hF with
    | nil => exact .nil
    | @cons mn e _ _ h _ ih =>
      refine .cons ⟨rfl, ?_⟩ (ih (fun x hx => hm x (List.mem_cons_of_mem _ hx)) (fun x hx => hμ x (List.mem_cons_of_mem _ hx))
        (fun x hx => hq' x (List.mem_cons_of_mem _ hx)))
      obtain ⟨edge, he, cs, hl, hh⟩ := encodeMesh_holds (hm mn List.mem_cons_self) (hq' mn List.mem_cons_self) h
      exact ⟨cs, hl, hh μ (hμ mn List.mem_cons_self edge he)⟩
  · clear hb hE h hm hq hμ
    induction hF with
    | nil => exact .nil
    | @cons mn e _ _ h _ ih => exact .cons ⟨e, h, rfl⟩ ih

end

end Tmf
