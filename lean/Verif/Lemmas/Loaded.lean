import Verif.Lemmas.Apply
import Verif.Lemmas.Parse
import Verif.Lemmas.NormalDecode
import Verif.Lemmas.QuantizeRange
import Verif.Spec.Loaded
/-
What every loaded mesh is made of.
-/

set_option exponentiation.threshold 2000

namespace Tmf
open Spec

theorem mapAll_from {ε α β : Type} {f : α → Outcome ε β} : ∀ {l : List α} {vs : List β},
    Outcome.mapAll f l = .ok vs → ∀ v ∈ vs, ∃ x ∈ l, f x = .ok v
  | [], vs, h, v, hv => by
    cases h
    exact absurd hv List.not_mem_nil
  | a :: l, vs, h, v, hv => by
    rw [Outcome.mapAll, Outcome.bind_eq_ok] at h
    obtain ⟨w, hw, h⟩ := h
    rw [Outcome.bind_eq_ok] at h
    obtain ⟨ws, hws, h⟩ := h
    cases h
    rcases List.mem_cons.mp hv with rfl | hv
    · exact ⟨a, List.mem_cons_self, hw⟩
    · obtain ⟨x, hx, e⟩ := mapAll_from hws v hv
      exact ⟨x, List.mem_cons_of_mem _ hx, e⟩

theorem collect_from {ε α : Type} {l : List (Outcome ε α)} {vs : List α} (h : collect l = .ok vs) : ∀ v ∈ vs, .ok v ∈ l := by
  unfold collect at h
  split at h
  · cases h
  · intro v hv
    obtain ⟨x, hx, e⟩ := mapAll_from h v hv
    exact e ▸ hx

variable {fo : FloatOps} {fb : F64Bytes fo} {b : Build}

/-- A loaded mesh is made of decoded segments. -/
theorem loaded_inv {bytes : List UInt8} {sched : List Nat} {vs : List (Mesh fo.F × List UInt8)}
    (h : readTmf fo fb b ⟨bytes, sched, false⟩ = .ok vs) : ∀ v ∈ vs, NameOk v.2 ∧
      ∃ (ctx : DecodeCtx) (ds : List (DecodedSegment fo.F)),
        (∀ d ∈ ds, ∃ seg : EncodedSegment, seg.decode fo fb b ctx = .ok d) ∧ v.1 = ds.foldl DecodedSegment.apply .empty := by
  obtain ⟨ver, k, ms, junk, _, _, _, hf, _, hm⟩ := (readTmf_iff fo fb b bytes sched vs).mp h
  intro v hv
  obtain ⟨m, hm, e⟩ := mapAll_from hm v hv
  rw [rawMesh, Outcome.bind_eq_ok] at e
  obtain ⟨mesh, e1, e2⟩ := e
  cases e2
  refine ⟨(hf m hm).name, (ctxOf (layoutOf k)).decode, ?_⟩
  rw [assembleMesh, Outcome.bind_eq_ok] at e1
  obtain ⟨ds, e3, e4⟩ := e1
  cases e4
  refine ⟨ds, fun d hd => ?_, rfl⟩
  obtain ⟨seg, _, e⟩ := List.mem_map.mp (collect_from e3 d hd)
  exact ⟨seg, e⟩

theorem joined_mem {α : Type} {pieces : List (List α)} {l : List α} (h : joined pieces = some l) {x : α} (hx : x ∈ l) :
    ∃ p ∈ pieces, x ∈ p := by
  cases pieces with
  | nil => cases h
  | cons p ps =>
    cases h
    exact List.mem_flatten.mp hx

/-! ### Indices -/

theorem addMin_lt {i min x : Nat} (h : addMin b i min = .ok x) : x < 2 ^ 32 := by
  unfold addMin at h
  split at h
  · cases h
  · cases h; exact Nat.mod_lt _ (by decide)

theorem readIndexPairs_lt {prec min : Nat} : ∀ (n : Nat) {r r' : BitReader} {l : List Nat},
    readIndexPairs b prec min n r = .ok (l, r') → ∀ i ∈ l, i < 2 ^ 32
  | 0, r, r', l, h => by cases h; simp
  | n + 1, r, r', l, h => by
    rw [readIndexPairs, Outcome.bind_eq_ok] at h
    obtain ⟨⟨⟨i1, i2⟩, r1⟩, _, h⟩ := h
    simp only [Outcome.bind_eq_ok] at h
    obtain ⟨x, hx, y, hy, ⟨rest, r2⟩, hr, h⟩ := h
    cases h
    intro i hi
    rcases List.mem_cons.mp hi with rfl | hi
    · exact addMin_lt hx
    rcases List.mem_cons.mp hi with rfl | hi
    · exact addMin_lt hy
    · exact readIndexPairs_lt n hr i hi

theorem readIndices_lt {prec min len : Nat} {r : BitReader} {l : List Nat} (h : readIndices b prec min len r = .ok l) :
    ∀ i ∈ l, i < 2 ^ 32 := by
  rw [readIndices, Outcome.bind_eq_ok] at h
  obtain ⟨⟨l1, r1⟩, h1, h⟩ := h
  have hl := readIndexPairs_lt _ h1
  dsimp only at h
  split at h
  · simp only [Outcome.bind_eq_ok] at h
    obtain ⟨⟨i, r2⟩, _, x, hx, h⟩ := h
    cases h
    intro j hj
    rcases List.mem_append.mp hj with hj | hj
    · exact hl j hj
    · rw [List.mem_singleton] at hj
      subst hj
      exact addMin_lt hx
  · cases h; exact hl

theorem readTriangles_lt {ctx : DecodeCtx} {bytes : List UInt8} {l : List Nat} (h : readTriangles b ctx bytes = .ok l) :
    ∀ i ∈ l, i < 2 ^ 32 := by
  rw [readTriangles, Outcome.bind_eq_ok] at h
  obtain ⟨⟨⟨p, len, min⟩, rest⟩, _, h⟩ := h
  exact readIndices_lt h

theorem readDefaultTriangles_lt {ctx : DecodeCtx} {bytes : List UInt8} {l : List Nat}
    (h : readDefaultTriangles b ctx bytes = .ok l) : ∀ i ∈ l, i < 2 ^ 32 := by
  rw [readDefaultTriangles, Outcome.bind_eq_ok] at h
  obtain ⟨⟨⟨p, len, min⟩, rest⟩, _, h⟩ := h
  dsimp only at h
  split at h
  · cases h
    intro i hi
    rw [List.eq_of_mem_replicate hi]
    decide
  · exact readIndices_lt h

theorem decodeIndices_lt {ctx : DecodeCtx} {seg : EncodedSegment} {l : List Nat} (h : decodeIndices b ctx seg = .ok l) :
    ∀ i ∈ l, i < 2 ^ 32 := by
  unfold decodeIndices at h
  split at h
  · exact readDefaultTriangles_lt h
  all_goals cases h

theorem foldl_max_ge (l : List Nat) : ∀ a : Nat, a ≤ l.foldl max a ∧ (∀ i ∈ l, i ≤ l.foldl max a) ∧
    (l.foldl max a = a ∨ l.foldl max a ∈ l) := by
  induction l with
  | nil => intro a; exact ⟨Nat.le_refl _, by simp, .inl rfl⟩
  | cons x l ih =>
    intro a
    obtain ⟨h1, h2, h3⟩ := ih (max a x)
    refine ⟨le_trans (le_max_left _ _) h1, ?_, ?_⟩
    · intro i hi
      rcases List.mem_cons.mp hi with rfl | hi
      · exact le_trans (le_max_right _ _) h1
      · exact h2 i hi
    · rw [List.foldl_cons]
      rcases h3 with h3 | h3
      · rcases Nat.le_total x a with hx | hx
        · rw [Nat.max_eq_left hx] at h3; exact .inl (by rw [Nat.max_eq_left hx]; exact h3)
        · rw [Nat.max_eq_right hx] at h3; exact .inr (by rw [Nat.max_eq_right hx, h3]; exact List.mem_cons_self)
      · exact .inr (List.mem_cons_of_mem _ h3)

theorem maxIndex_largest (l : List Nat) : IsLargest l (maxIndex l) := by
  obtain ⟨_, h2, h3⟩ := foldl_max_ge l 0
  refine ⟨h2, ?_⟩
  cases l with
  | nil => exact .inl ⟨rfl, rfl⟩
  | cons a l =>
    right
    rcases h3 with h3 | h3
    · have := h2 a List.mem_cons_self
      rw [h3] at this
      rw [maxIndex, h3, show (0 : Nat) = a by omega]
      exact List.mem_cons_self
    · exact h3

theorem readFloats_kind {bytes : List UInt8} {d : CustomData fo.F} (h : readFloats fo fb bytes = .ok d) : ∃ l p, d = .float l p := by
  rw [readFloats, Outcome.bind_eq_ok] at h
  obtain ⟨⟨⟨n, mn, mx, p⟩, rest⟩, _, h⟩ := h
  rw [Outcome.bind_eq_ok] at h
  obtain ⟨⟨l, r⟩, _, h⟩ := h
  cases h
  exact ⟨_, _, rfl⟩

theorem readColors_kind {bytes : List UInt8} {d : CustomData fo.F} (h : readColors fo b bytes = .ok d) : ∃ l p, d = .color l p := by
  rw [readColors, Outcome.bind_eq_ok] at h
  obtain ⟨⟨⟨n, p⟩, rest⟩, _, h⟩ := h
  dsimp only at h
  split at h
  · cases h
  · simp only [Outcome.bind_eq_ok] at h
    obtain ⟨pow, _, ⟨l, r⟩, _, h⟩ := h
    cases h
    exact ⟨_, _, rfl⟩

theorem custom_sound {ctx : DecodeCtx} {kind : SectionType} {data : List UInt8} {s : CustomSeg fo.F}
    (h : CustomSeg.read fo fb b ctx kind data = .ok s) : s.name.length < 256 ∧ SoundData s.data := by
  unfold CustomSeg.read at h
  rw [Outcome.bind_eq_ok] at h
  obtain ⟨⟨name, rest⟩, h1, h⟩ := h
  have hn := (readCustomName_inv h1).1
  cases kind <;> simp only [Outcome.bind_eq_ok] at h
  any_goals cases h; done
  · obtain ⟨l, h2, h⟩ := h
    cases h
    exact ⟨hn, readTriangles_lt h2, maxIndex_largest l⟩
  · obtain ⟨d, h2, h⟩ := h
    cases h
    obtain ⟨l, p, rfl⟩ := readFloats_kind h2
    exact ⟨hn, trivial⟩
  · obtain ⟨d, h2, h⟩ := h
    cases h
    obtain ⟨l, p, rfl⟩ := readColors_kind h2
    exact ⟨hn, trivial⟩
  · obtain ⟨l, h2, h⟩ := h
    cases h
    exact ⟨hn, readTriangles_lt h2, maxIndex_largest l⟩

open DecodedSegment in
/-- What decoding a segment can give. -/
theorem decode_parts {ctx : DecodeCtx} {seg : EncodedSegment} {d : DecodedSegment fo.F} (h : seg.decode fo fb b ctx = .ok d) :
    (∀ l, l ∈ d.pVertexTriangles ∨ l ∈ d.pNormalTriangles ∨ l ∈ d.pUvTriangles ∨ l ∈ d.pTangentTriangles → ∀ i ∈ l, i < 2 ^ 32) ∧
    (∀ l ∈ d.pUvs, readUvs fo seg.data = .ok l) ∧ (∀ l ∈ d.pNormals, readNormals fo seg.data = .ok l) ∧
    (∀ l ∈ d.pTangents, readTangents fo seg.data = .ok l) ∧
    (∀ c ∈ d.pCustom, CustomSeg.read fo fb b ctx seg.segType seg.data = .ok c) := by
  obtain ⟨kind, comp, data⟩ := seg
  cases kind
  case sharedTriangle =>
    simp only [EncodedSegment.decode] at h
    unfold decodeShared at h
    cases data with
    | nil => cases h
    | cons mask rest =>
      cases comp <;> dsimp only at h
      all_goals try exact absurd h (by simp)
      rw [Outcome.bind_eq_ok] at h
      obtain ⟨l, h1, h⟩ := h
      cases h
      refine ⟨?_, by simp [pUvs], by simp [pNormals], by simp [pTangents], by simp [pCustom]⟩
      intro l' hl'
      have : l' = l := by
        simp only [pVertexTriangles, pNormalTriangles, pUvTriangles, pTangentTriangles] at hl'
        rcases hl' with hl' | hl' | hl' | hl'
        all_goals try (split at hl' <;> first | exact List.mem_singleton.mp hl' | exact absurd hl' List.not_mem_nil)
        · simp at hl'
      subst this
      exact readDefaultTriangles_lt h1
  all_goals simp only [EncodedSegment.decode, Outcome.bind_eq_ok] at h
  case invalid =>
    cases h
    simp [pVertexTriangles, pNormalTriangles, pUvTriangles, pTangentTriangles, pUvs, pNormals, pTangents, pCustom]
  case vertexTriangle | normalTriangle | uvTriangle | tangentTriangle =>
    obtain ⟨l, h1, h⟩ := h
    cases h
    simpa [pVertexTriangles, pNormalTriangles, pUvTriangles, pTangentTriangles, pUvs, pNormals, pTangents, pCustom]
      using decodeIndices_lt h1
  all_goals
    obtain ⟨l, h1, h⟩ := h
    cases h
    simp [pVertexTriangles, pNormalTriangles, pUvTriangles, pTangentTriangles, pUvs, pNormals, pTangents, pCustom, h1]

end Tmf

namespace Tmf.Ieee
open Spec

/-! ### Numbers -/

variable {lib : Libm}

theorem vZero_unit : UnitValue (lit 0 0 : Val b32) := by
  have : (lit 0 0 : Val b32) = .fin false 0 (by decide +kernel) := by decide +kernel
  rw [this]
  refine ⟨rfl, ?_, ?_⟩ <;> rw [valueOf_fin] <;> simp

theorem readUvs_unit {bytes : List UInt8} {l : List (Vec2 (Val b32))} (h : readUvs (ops lib) bytes = .ok l) :
    ∀ uv ∈ l, UnitValue uv.1 ∧ UnitValue uv.2 := by
  rw [readUvs, Outcome.bind_eq_ok] at h
  obtain ⟨⟨⟨p, n⟩, rest⟩, _, h⟩ := h
  dsimp only at h
  split at h
  · cases h
    intro uv huv
    rw [List.eq_of_mem_replicate huv]
    exact ⟨vZero_unit, vZero_unit⟩
  · split at h
    · cases h
    · next h0 h64 =>
      rw [Outcome.bind_eq_ok] at h
      obtain ⟨⟨l', r⟩, h2, h⟩ := h
      cases h
      have hg : ReadGood (fun l => ∀ a ∈ l, UnitValue a.1 ∧ UnitValue a.2) (readMany (readUv (ops lib) p) n (.new (.slice rest))) := by
        refine readMany_all (fun r hr => ?_) n (BitReader.inv_new _)
        exact (BitReader.read2_lt hr _).bind fun c r hc hr =>
          ⟨⟨code_unit (by omega) (by omega) hc.1, code_unit (by omega) (by omega) hc.2⟩, hr⟩
      rw [h2] at hg
      exact hg.1

theorem corner_signs (c : NormalCode) :
    CubeCorner (normalFromEncoding (ops lib) 0 c) := by
  have one : ∀ s : Bool, |valueOf (if s = true then FloatOps.negOne (ops lib) else FloatOps.one (ops lib) : Val b32)| = 1 := by
    have h1 : (lit 1 0 : Val b32) = .fin false (2 ^ 149) (by decide +kernel) := by decide +kernel
    have hv : valueOf (lit 1 0 : Val b32) = 1 := by
      rw [h1, valueOf_fin, show b32.scale = 149 from rfl]; norm_num [sgn]
    intro s
    cases s
    · show |valueOf (lit 1 0 : Val b32)| = 1
      rw [hv, abs_one]
    · show |valueOf (neg (lit 1 0 : Val b32))| = 1
      rw [(neg_value _).2, hv, abs_neg, abs_one]
  rw [normalFromEncoding, if_pos rfl]
  exact ⟨one _, one _, one _⟩

theorem fromEncoding_range (hlib : AccurateLibm lib) {p : Nat} (hp : p < 64) {c : NormalCode} (ha : c.asine < 2 ^ p)
    (hz : c.z < 2 ^ p) : UnitDecoded (normalFromEncoding (ops lib) p c) ∨ CubeCorner (normalFromEncoding (ops lib) p c) := by
  rcases Nat.eq_zero_or_pos p with rfl | h
  · exact .inr (corner_signs c)
  · exact .inl (fromEncoding_unit hlib h hp ha hz)

theorem readNormals_range (hlib : AccurateLibm lib) {bytes : List UInt8} {l : List (Vec3 (Val b32))}
    (h : readNormals (ops lib) bytes = .ok l) : ∀ w ∈ l, UnitDecoded w ∨ CubeCorner w := by
  rw [readNormals, Outcome.bind_eq_ok] at h
  obtain ⟨⟨⟨n, p⟩, rest⟩, h1, h⟩ := h
  obtain ⟨hp64, e⟩ := readNormalsHeader_inv h1
  rw [Outcome.bind_eq_ok] at h
  obtain ⟨⟨l', r⟩, h2, h⟩ := h
  cases h
  have hg : ReadGood (fun l => ∀ a ∈ l, UnitDecoded a ∨ CubeCorner a) (readMany (readNormal (ops lib) p) n (.new (.slice rest))) := by
    refine readMany_all (fun r hr => ?_) n (BitReader.inv_new _)
    refine (BitReader.readBit_good hr).bind fun _ r _ hr => ?_
    refine (BitReader.readBit_good hr).bind fun _ r _ hr => ?_
    refine (BitReader.readBit_good hr).bind fun _ r _ hr => ?_
    exact (BitReader.read2_lt hr _).bind fun c r hc hr => ⟨fromEncoding_range hlib hp64 hc.1 hc.2, hr⟩
  dsimp only at h2
  rw [h2] at hg
  exact hg.1

theorem hand_one (s : Bool) : |valueOf (htFromBool (ops lib) s)| = 1 := by
  have h1 : (lit 1 0 : Val b32) = .fin false (2 ^ 149) (by decide +kernel) := by decide +kernel
  have hv : valueOf (lit 1 0 : Val b32) = 1 := by
    rw [h1, valueOf_fin, show b32.scale = 149 from rfl]; norm_num [sgn]
  cases s
  · show |valueOf (lit 1 0 : Val b32)| = 1
    rw [hv, abs_one]
  · show |valueOf (neg (lit 1 0 : Val b32))| = 1
    rw [(neg_value _).2, hv, abs_neg, abs_one]

theorem readTangents_range (hlib : AccurateLibm lib) {bytes : List UInt8} {l : List (Tangent (Val b32))}
    (h : readTangents (ops lib) bytes = .ok l) : ∀ t ∈ l, (UnitDecoded t.1 ∨ CubeCorner t.1) ∧ |valueOf t.2| = 1 := by
  rw [readTangents, Outcome.bind_eq_ok] at h
  obtain ⟨⟨⟨n, p⟩, rest⟩, h1, h⟩ := h
  obtain ⟨hp64, e⟩ := readNormalsHeader_inv h1
  rw [Outcome.bind_eq_ok] at h
  obtain ⟨⟨l', r⟩, h2, h⟩ := h
  cases h
  have hg : ReadGood (fun l => ∀ a ∈ l, (UnitDecoded a.1 ∨ CubeCorner a.1) ∧ |valueOf a.2| = 1)
      (readMany (readTangent (ops lib) p) n (.new (.slice rest))) := by
    refine readMany_all (fun r hr => ?_) n (BitReader.inv_new _)
    refine (BitReader.readBit_good hr).bind fun _ r _ hr => ?_
    refine (BitReader.readBit_good hr).bind fun _ r _ hr => ?_
    refine (BitReader.readBit_good hr).bind fun _ r _ hr => ?_
    refine (BitReader.readBit_good hr).bind fun _ r _ hr => ?_
    refine (BitReader.read_lt hr _).bind fun _ r ha hr => ?_
    exact (BitReader.read_lt hr _).bind fun _ r hc hr => ⟨⟨fromEncoding_range hlib hp64 ha hc, hand_one _⟩, hr⟩
  dsimp only at h2
  rw [h2] at hg
  exact hg.1

/-! ### Colours -/

theorem ofNat_rnd64 {c : Nat} (hc : c < 2 ^ 64) : isFinite (ofNat c : Val b64) = true ∧ valueOf (ofNat c : Val b64) = rnd b64 c := by
  refine rounded_value (by decide) false (by decide) (v := (c : ℚ)) ?_ ?_
  · rw [show b64.scale = 1074 from rfl]
    simp only [sgn, Bool.false_eq_true, if_false, one_mul]
    rw [Nat.cast_mul, Nat.cast_pow, Nat.cast_ofNat, Nat.cast_one, div_one, mul_div_assoc, div_self (by positivity), mul_one]
  · refine le_trans ?_ maxV64
    have h : ((c : ℕ) : ℚ) ≤ ((2 ^ 64 : ℕ) : ℚ) := Nat.cast_le.mpr hc.le
    rw [abs_of_nonneg (Nat.cast_nonneg c)]
    refine le_trans h ?_
    norm_num

theorem channel_unit {m c : Nat} (hm1 : 1 ≤ m) (hm : m < 2 ^ 64) (hc : c ≤ m) :
    UnitValue (convert (div (ofNat c : Val b64) (ofNat m)) : Val b32) := by
  obtain ⟨cf, cv⟩ := ofNat_rnd64 (c := c) (by omega)
  obtain ⟨mf, mv⟩ := ofNat_rnd64 (c := m) hm
  have c0 : 0 ≤ valueOf (ofNat c : Val b64) := by rw [cv]; exact rnd_nonneg (Nat.cast_nonneg c)
  have one : valueOf (ofNat 1 : Val b64) = 1 := by rw [(ofNat_value64 (by decide)).2, Nat.cast_one]
  have one32 : valueOf (ofNat 1 : Val b32) = 1 := by rw [(ofNat_value (by decide)).2, Nat.cast_one]
  have m1 : 1 ≤ valueOf (ofNat m : Val b64) := by
    rw [mv, ← one]
    exact valueOf_le_rnd (by decide) (by rw [one]; exact_mod_cast hm1)
  have cm : valueOf (ofNat c : Val b64) ≤ valueOf (ofNat m : Val b64) := by
    rw [cv, mv]
    exact rnd_mono (by decide) (by exact_mod_cast hc)
  have q0 : 0 ≤ valueOf (ofNat c : Val b64) / valueOf (ofNat m : Val b64) := div_nonneg c0 (by linarith)
  have q1 : valueOf (ofNat c : Val b64) / valueOf (ofNat m : Val b64) ≤ 1 := by
    rw [div_le_one (by linarith)]; exact cm
  obtain ⟨df, dv⟩ := div_value (f := b64) (by decide) cf mf (by linarith)
    (by rw [abs_of_nonneg q0]; exact le_trans q1 (le_trans (by norm_num) maxV64))
  have d0 : 0 ≤ valueOf (div (ofNat c : Val b64) (ofNat m)) := by rw [dv]; exact rnd_nonneg q0
  have d1 : valueOf (div (ofNat c : Val b64) (ofNat m)) ≤ 1 := by
    rw [dv, ← one]
    exact rnd_le_valueOf (by decide) (v := valueOf (ofNat c : Val b64) / valueOf (ofNat m : Val b64)) (by rw [one]; exact q1)
  obtain ⟨ef, ev⟩ := convert_value (g := b32) (by decide) df
    (small_le_max (by rw [abs_of_nonneg d0]; exact le_trans d1 (by norm_num)))
  refine ⟨ef, by rw [ev]; exact rnd_nonneg d0, ?_⟩
  rw [ev, ← one32]
  exact rnd_le_valueOf (by decide) (by rw [one32]; exact d1)

theorem zero_by_zero : (convert (div (ofNat 0 : Val b64) (ofNat 0)) : Val b32) = .nan := by decide +kernel

/-- Channels are in [0,1], or the whole colour is NaN. -/
def ColorRange (x : Vec4 (Val b32)) : Prop :=
  (UnitValue x.1 ∧ UnitValue x.2.1 ∧ UnitValue x.2.2.1 ∧ UnitValue x.2.2.2) ∨ (x = (.nan, .nan, .nan, .nan))

theorem read2_wide {mode : Nat} (h : 64 ≤ mode) (r : BitReader) : r.read2 mode = .ok ((0, 0), r) := by
  rw [BitReader.read2, if_neg (by omega), if_pos (by omega), show r.read mode = .ok (0, r) from by rw [BitReader.read, if_pos (.inr h)]]
  simp only [Outcome.bind_ok]
  rw [show r.read mode = .ok (0, r) from by rw [BitReader.read, if_pos (.inr h)]]
  rfl

theorem channelOfCode_ops (m c : Nat) : channelOfCode (ops lib) m c = (convert (div (ofNat c : Val b64) (ofNat m)) : Val b32) := by
  rw [channelOfCode]

theorem readColor_range {m p : Nat} (hm : m = 2 ^ p - 1 ∧ p < 64 ∨ 64 ≤ p ∧ m < 2 ^ 64) {r : BitReader} (hr : r.Inv) :
    ReadGood ColorRange (readColor (ops lib) m p r) := by
  have key : ∀ {c1 c2 c3 c4 : Nat}, m < 2 ^ 64 → c1 ≤ m → c2 ≤ m → c3 ≤ m → c4 ≤ m →
      ColorRange (channelOfCode (ops lib) m c1, channelOfCode (ops lib) m c2, channelOfCode (ops lib) m c3,
        channelOfCode (ops lib) m c4) := by
    intro c1 c2 c3 c4 hm h1 h2 h3 h4
    rw [channelOfCode_ops, channelOfCode_ops, channelOfCode_ops, channelOfCode_ops]
    rcases Nat.eq_zero_or_pos m with rfl | h0
    · obtain rfl : c1 = 0 := by omega
      obtain rfl : c2 = 0 := by omega
      obtain rfl : c3 = 0 := by omega
      obtain rfl : c4 = 0 := by omega
      refine .inr ?_
      rw [zero_by_zero]
    · exact .inl ⟨channel_unit h0 hm h1, channel_unit h0 hm h2, channel_unit h0 hm h3, channel_unit h0 hm h4⟩
  rcases hm with ⟨rfl, hp⟩ | ⟨hp, hm⟩
  · have h64 : 2 ^ p ≤ 2 ^ 63 := Nat.pow_le_pow_right (by decide) (by omega)
    refine (BitReader.read2_lt hr _).bind fun c r hc hr => ?_
    refine (BitReader.read2_lt hr _).bind fun d r hd hr => ?_
    exact ⟨key (by omega) (by omega) (by omega) (by omega) (by omega), hr⟩
  · rw [readColor, read2_wide hp]
    simp only [Outcome.bind_ok]
    rw [read2_wide hp]
    exact ⟨key hm (Nat.zero_le _) (Nat.zero_le _) (Nat.zero_le _) (Nat.zero_le _), hr⟩

theorem readColors_range {b : Build} {bytes : List UInt8} {l : List (Vec4 (Val b32))} {q : Val b32}
    (h : readColors (ops lib) b bytes = .ok (.color l q)) : ∀ x ∈ l, ColorRange x := by
  rw [readColors, Outcome.bind_eq_ok] at h
  obtain ⟨⟨⟨n, p⟩, rest⟩, _, h⟩ := h
  dsimp only at h
  split at h
  · cases h
  · simp only [Outcome.bind_eq_ok] at h
    obtain ⟨pow, hpow, ⟨l', r⟩, h2, h⟩ := h
    cases h
    have hm : pow - 1 = 2 ^ p - 1 ∧ p < 64 ∨ 64 ≤ p ∧ pow - 1 < 2 ^ 64 := by
      unfold shiftU64 at hpow
      split at hpow
      · next h64 => cases hpow; exact .inl ⟨rfl, h64⟩
      · next h64 =>
        cases b
        · cases hpow
        · cases hpow
          have : 2 ^ (p % 64) ≤ 2 ^ 63 := Nat.pow_le_pow_right (by decide) (by omega)
          exact .inr ⟨by omega, by omega⟩
    have hg : ReadGood (fun l => ∀ a ∈ l, ColorRange a) (readMany (readColor (ops lib) (pow - 1) p) n (.new (.slice rest))) :=
      readMany_all (fun r hr => readColor_range hm hr) n (BitReader.inv_new _)
    rw [h2] at hg
    exact hg.1

theorem custom_colors {fb : F64Bytes (ops lib)} {b : Build} {ctx : DecodeCtx} {kind : SectionType} {data : List UInt8}
    {s : CustomSeg (Val b32)} (h : CustomSeg.read (ops lib) fb b ctx kind data = .ok s) {l : List (Vec4 (Val b32))} {q : Val b32}
    (hs : s.data = .color l q) : ∀ x ∈ l, ColorRange x := by
  unfold CustomSeg.read at h
  rw [Outcome.bind_eq_ok] at h
  obtain ⟨⟨name, rest⟩, _, h⟩ := h
  cases kind <;> simp only [Outcome.bind_eq_ok] at h
  any_goals cases h; done
  · obtain ⟨l, h2, h⟩ := h
    cases h
    cases hs
  · obtain ⟨d, h2, h⟩ := h
    cases h
    obtain ⟨l', p, rfl⟩ := readFloats_kind h2
    cases hs
  · obtain ⟨d, h2, h⟩ := h
    cases h
    dsimp only at hs
    subst hs
    exact readColors_range h2
  · obtain ⟨l, h2, h⟩ := h
    cases h
    cases hs

end Tmf.Ieee
