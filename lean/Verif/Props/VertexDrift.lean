import Verif.Props.Box
import Verif.Props.Defaults
import Verif.Spec.VertexDrift
/-
C93: vertices that are saved and loaded again and again.
-/

set_option exponentiation.threshold 2000

namespace Tmf.Props
open Spec Ieee

variable {lib : Libm} {fb : F64Bytes (ops lib)}

/-! ### What holds -/

theorem swell_step {lo hi : ℚ} {j : Nat} (hj : j < 2 ^ 19) :
    Max.max |lo - j * swell lo hi| |hi + j * swell lo hi| / 2 ^ 20 + 1 / 2 ^ 148 ≤ swell lo hi := by
  set B := Max.max |lo| |hi| with hB
  have hB0 : 0 ≤ B := le_trans (abs_nonneg lo) (le_max_left _ _)
  have he : swell lo hi = B / 2 ^ 19 + 1 / 2 ^ 147 := rfl
  set e := swell lo hi
  have he0 : 0 ≤ e := by rw [he]; positivity
  have hje : (j : ℚ) * e ≤ B + 1 / 2 ^ 128 := by
    have h1 : (j : ℚ) ≤ 2 ^ 19 := by exact_mod_cast hj.le
    have h2 := mul_le_mul_of_nonneg_right h1 he0
    have h3 : (2 : ℚ) ^ 19 * e = B + 1 / 2 ^ 128 := by rw [he]; ring
    linarith
  have hj0 : 0 ≤ (j : ℚ) * e := mul_nonneg (Nat.cast_nonneg j) he0
  have h1 : |lo - j * e| ≤ 2 * B + 1 / 2 ^ 128 := by
    have a := abs_le.mp (le_max_left |lo| |hi|)
    rw [← hB] at a
    exact abs_le.mpr ⟨by linarith [a.1], by linarith [a.2, hB0]⟩
  have h2 : |hi + j * e| ≤ 2 * B + 1 / 2 ^ 128 := by
    have a := abs_le.mp (le_max_right |lo| |hi|)
    rw [← hB] at a
    exact abs_le.mpr ⟨by linarith [a.1], by linarith [a.2, hB0]⟩
  have h3 := div_le_div_of_nonneg_right (max_le h1 h2) (show (0 : ℚ) ≤ 2 ^ 20 by norm_num)
  have h4 : (2 * B + 1 / 2 ^ 128) / 2 ^ 20 + 1 / 2 ^ 148 = e := by rw [he]; ring
  linarith

theorem cycle_unique {fo : FloatOps} {fb : F64Bytes fo} {b b' : Build} {prec : PrecisionInfo fo.F} {l l' l'' : List (Mesh fo.F × List UInt8)}
    (h1 : FileCycle fo fb b b' prec l l') (h2 : FileCycle fo fb b b' prec l l'') : l' = l'' := by
  obtain ⟨x, hx, rx⟩ := h1
  obtain ⟨y, hy, ry⟩ := h2
  rw [hx] at hy
  cases hy
  have := ry []
  rw [rx []] at this
  cases this
  rfl

theorem fileCycles_unique {fo : FloatOps} {fb : F64Bytes fo} {b b' : Build} {prec : PrecisionInfo fo.F} :
    ∀ {k : Nat} {l l' l'' : List (Mesh fo.F × List UInt8)}, FileCycles fo fb b b' prec k l l' → FileCycles fo fb b b' prec k l l'' → l' = l''
  | 0, _, _, _, .none _, .none _ => rfl
  | _ + 1, _, _, _, .more h1 c1, .more h2 c2 => by
    cases fileCycles_unique h1 h2
    exact cycle_unique c1 c2

theorem sizes_trans {F : Type} {a b c : Mesh F} (h1 : SameSizes a b) (h2 : SameSizes b c) : SameSizes a c :=
  ⟨h2.vertices.trans h1.vertices, h2.normals.trans h1.normals, h2.uvs.trans h1.uvs, h2.tangents.trans h1.tangents⟩

theorem indices_trans {F : Type} {a b c : Mesh F} (h1 : SameIndices a b) (h2 : SameIndices b c) : SameIndices a c :=
  ⟨h2.vertex.trans h1.vertex, h2.normal.trans h1.normal, h2.uv.trans h1.uv, h2.tangent.trans h1.tangent⟩

theorem elementCount_map {α β : Type} {o : Option (List α)} {o' : Option (List β)} (h : o'.map List.length = o.map List.length) :
    elementCount o' = elementCount o ∧ onePiece o' = onePiece o ∧ mostPieces o' = mostPieces o := by
  cases o <;> cases o' <;> simp_all [elementCount, onePiece, mostPieces]

theorem keptWhole_trans {F : Type} {a b c : CustomSeg F} (h : KeptWhole a b) (h' : KeptWhole b c) : KeptWhole a c := by
  cases h with
  | index name l n n' h1 h2 => cases h' with | index _ _ _ n'' h3 h4 => exact .index name l n n'' h3 (h4.trans h2)
  | integer name l n n' h1 h2 => cases h' with | integer _ _ _ n'' h3 h4 => exact .integer name l n n'' h3 (h4.trans h2)

theorem keptWhole_refl {c : CustomSeg (Val b32)} (hs : SensibleCustom c) (h : (∃ l n, c.data = .index l n) ∨ ∃ l n, c.data = .integer l n) :
    KeptWhole c c := by
  cases hs with
  | index name l m hn hi hm => exact .index name l m m hi (le_refl m)
  | integer name l m hn hi hm => exact .integer name l m m hi (le_refl m)
  | float => rcases h with ⟨_, _, h⟩ | ⟨_, _, h⟩ <;> cases h
  | color => rcases h with ⟨_, _, h⟩ | ⟨_, _, h⟩ <;> cases h

theorem keptWhole_sensible {c c' : CustomSeg (Val b32)} (h : KeptWhole c c') (hs : SensibleCustom c) : SensibleCustom c' := by
  cases h with
  | index name l n n' h1 h2 => cases hs with | index _ _ _ hn hi hm => exact .index name l n' hn h1 (lt_of_le_of_lt h2 hm)
  | integer name l n n' h1 h2 => cases hs with | integer _ _ _ hn hi hm => exact .integer name l n' hn h1 (lt_of_le_of_lt h2 hm)

/-- One more cycle. -/
theorem keptWhole_loaded {fo : FloatOps} {a c : CustomSeg fo.F} (h : KeptWhole a c) : KeptWhole a (c.loaded fo) := by
  cases h with
  | index name l n n' h1 h2 => exact .index name l n _ (fun i hi => le_maxIndex hi) ((maxIndex_le h1).trans h2)
  | integer name l n n' h1 h2 => exact .integer name l n _ (fun i hi => le_maxIndex hi) ((maxIndex_le h1).trans h2)

theorem mem_turnedRound {α : Type} {k : Nat} {l : List α} {x : α} : x ∈ turnedRound k l ↔ x ∈ l := by
  unfold turnedRound
  split <;> simp

theorem turnedRound_succ {α : Type} (k : Nat) (l : List α) : turnedRound (k + 1) l = (turnedRound k l).reverse := by
  unfold turnedRound
  rcases Nat.mod_two_eq_zero_or_one k with h | h
  · rw [if_pos h, if_neg (by omega)]
  · rw [if_pos (show (k + 1) % 2 = 0 by omega), if_neg (show ¬k % 2 = 0 by omega), List.reverse_reverse]

theorem turnedRound_map {α β : Type} (k : Nat) (l : List α) (f : α → β) : (turnedRound k l).map f = turnedRound k (l.map f) := by
  unfold turnedRound
  split <;> simp

theorem turnedRound_sum (k : Nat) (l : List Nat) : (turnedRound k l).sum = l.sum := by
  unfold turnedRound
  split <;> simp

theorem custom_same {F : Type} {f : CustomSeg F → Nat} (hf : ∀ c c', KeptWhole c c' → f c' = f c) {k : Nat} {l l' : List (CustomSeg F)}
    (h : List.Forall₂ KeptWhole (turnedRound k l) l') : (l'.map f).sum = (l.map f).sum := by
  rw [← turnedRound_sum k (l.map f), ← turnedRound_map]
  generalize turnedRound k l = t at h
  induction h with
  | nil => rfl
  | cons h _ ih => simp only [List.map_cons, List.sum_cons, hf _ _ h, ih]

theorem bounds_same {k : Nat} {mn mn' : Mesh (Val b32) × List UInt8} (h : Aged k mn mn') :
    segmentBound mn'.1 = segmentBound mn.1 ∧ meshSizeBound mn' = meshSizeBound mn := by
  obtain ⟨v1, v2, v3⟩ := elementCount_map h.sizes.vertices
  obtain ⟨n1, n2, n3⟩ := elementCount_map h.sizes.normals
  obtain ⟨u1, u2, u3⟩ := elementCount_map h.sizes.uvs
  obtain ⟨t1, t2, t3⟩ := elementCount_map h.sizes.tangents
  have hc : mn'.1.customData.length = mn.1.customData.length := by
    rw [← h.custom.length_eq, turnedRound]
    split <;> simp
  have hload : customLoad mn'.1 = customLoad mn.1 := custom_same (fun c c' h => by cases h <;> rfl) h.custom
  have hs : segmentBound mn'.1 = segmentBound mn.1 := by
    simp only [segmentBound, hc, h.indices.vertex, h.indices.normal, h.indices.uv, h.indices.tangent, v3, n2, u2, t2]
  refine ⟨hs, ?_⟩
  simp only [meshSizeBound, hs, elements, hload, h.name, h.indices.vertex, h.indices.normal, h.indices.uv, h.indices.tangent, v1, n1,
    u1, t1]

theorem aged_custom {k : Nat} {mn mn' : Mesh (Val b32) × List UInt8} (h : Aged k mn mn') (hs : ∀ c ∈ mn.1.customData, SensibleCustom c) :
    ∀ c ∈ mn'.1.customData, SensibleCustom c := by
  have hs' : ∀ c ∈ turnedRound k mn.1.customData, SensibleCustom c := fun c hc => hs c (mem_turnedRound.mp hc)
  have hx := h.custom
  generalize turnedRound k mn.1.customData = t at hs' hx
  generalize mn'.1.customData = l' at hx
  induction hx with
  | nil => simp
  | cons h1 _ ih =>
    intro c hc
    rcases List.mem_cons.mp hc with rfl | hc
    · exact keptWhole_sensible h1 (hs' _ List.mem_cons_self)
    · exact ih (fun c hc => hs' c (List.mem_cons_of_mem _ hc)) c hc

theorem custom_more {fo : FloatOps} {k : Nat} {l l' : List (CustomSeg fo.F)} (h : List.Forall₂ KeptWhole (turnedRound k l) l') :
    List.Forall₂ KeptWhole (turnedRound (k + 1) l) (l'.reverse.map (CustomSeg.loaded fo)) := by
  rw [turnedRound_succ, List.forall₂_map_right_iff]
  exact (List.forall₂_reverse_iff.mpr h).imp fun _ _ h => keptWhole_loaded h

theorem aged_within {k : Nat} {mn mn' : Mesh (Val b32) × List UInt8} {M : ℚ} (hk : k ≤ 2 ^ 19) (hM : 0 ≤ M) (h : Aged k mn mn')
    (hc : PointCloud M mn.1) {l' : List (Vec3 (Val b32))} (hl : mn'.1.vertices = some l') : ∀ v ∈ l', VecWithin (2 * M + 1 / 2 ^ 128) v := by
  intro v hv
  obtain ⟨l, hl0⟩ : ∃ l, mn.1.vertices = some l := by
    have := h.sizes.vertices
    rw [hl] at this
    cases hm : mn.1.vertices with
    | none => rw [hm] at this; cases this
    | some l => exact ⟨l, rfl⟩
  obtain ⟨f, c1, c2, c3⟩ := h.inner l l' hl0 hl (-M) M (fun v hv => by
    obtain ⟨f, a1, a2, a3⟩ := hc.inner l hl0 v hv
    exact ⟨f, abs_le.mp a1, abs_le.mp a2, abs_le.mp a3⟩) v hv
  have he : (k : ℚ) * swell (-M) M ≤ M + 1 / 2 ^ 128 := by
    have h1 : (k : ℚ) ≤ 2 ^ 19 := by exact_mod_cast hk
    have e : swell (-M) M = M / 2 ^ 19 + 1 / 2 ^ 147 := by rw [swell, abs_neg, max_self, abs_of_nonneg hM]
    rw [e]
    have h2 := mul_le_mul_of_nonneg_right h1 (show (0 : ℚ) ≤ M / 2 ^ 19 + 1 / 2 ^ 147 by positivity)
    have h3 : (2 : ℚ) ^ 19 * (M / 2 ^ 19 + 1 / 2 ^ 147) = M + 1 / 2 ^ 128 := by ring
    linarith
  exact ⟨f, abs_le.mpr ⟨by linarith [c1.1], by linarith [c1.2]⟩, abs_le.mpr ⟨by linarith [c2.1], by linarith [c2.2]⟩,
    abs_le.mpr ⟨by linarith [c3.1], by linarith [c3.2]⟩⟩

theorem sum_same {α : Type} {f : α → Nat} {R : α → α → Prop} {l l' : List α} (h : List.Forall₂ R l l') (hf : ∀ a b, R a b → f b = f a) :
    (l'.map f).sum = (l.map f).sum := by
  induction h with
  | nil => rfl
  | cons h _ ih => simp only [List.map_cons, List.sum_cons, hf _ _ h, ih]

theorem forall₂_chain {α β γ : Type} {R : α → β → Prop} {S : β → γ → Prop} {T : α → γ → Prop} {l : List α} {l' : List β} {l'' : List γ}
    (h1 : List.Forall₂ R l l') (h2 : List.Forall₂ S l' l'') (h : ∀ a b c, R a b → S b c → T a c) : List.Forall₂ T l l'' := by
  induction h1 generalizing l'' with
  | nil => cases h2; exact .nil
  | cons h1 _ ih =>
    cases h2 with
    | cons h2 h3 => exact .cons (h _ _ _ h1 h2) (ih h3)

theorem of_forall₂_right {α β : Type} {R : α → β → Prop} {l : List α} {l' : List β} (h : List.Forall₂ R l l') : ∀ b ∈ l', ∃ a ∈ l, R a b := by
  induction h with
  | nil => simp
  | cons h _ ih =>
    intro b hb
    rcases List.mem_cons.mp hb with rfl | hb
    · exact ⟨_, List.mem_cons_self, h⟩
    · obtain ⟨a, ha, hr⟩ := ih b hb
      exact ⟨a, List.mem_cons_of_mem _ ha, hr⟩

variable {prec : PrecisionInfo (Val b32)} {meshes : List (Mesh (Val b32) × List UInt8)} {M : ℚ}

/-- Clouds that were saved before can be saved again. -/
theorem aged_saveable (h : Saveable 30 prec meshes) (hc : ∀ mn ∈ meshes, PointCloud M mn.1) (hM0 : 0 ≤ M) (hM : M ≤ 2 ^ 56)
    (hroom : 8 * M + 1 / 2 ^ 17 ≤ 2 ^ 30 * (1 / 10 * valueOf prec.vertex)) {k : Nat} (hk : k ≤ 2 ^ 19)
    {out : List (Mesh (Val b32) × List UInt8)} (ha : List.Forall₂ (Aged k) meshes out) : Saveable 30 prec out := by
  refine ⟨h.finite, h.vertex, h.normal, h.uv, h.tangent, ?_, ?_, ?_⟩
  · intro mn' hmn'
    obtain ⟨mn, hmn, hr⟩ := of_forall₂_right ha mn' hmn'
    rw [hr.name]
    exact h.names mn hmn
  · intro mn' hmn'
    obtain ⟨mn, hmn, hr⟩ := of_forall₂_right ha mn' hmn'
    have hm := h.mesh mn hmn
    refine ⟨?_, ?_, ?_, ?_, ?_, ?_, ?_⟩
    · intro l' hl'
      have hs := hr.sizes.vertices
      rw [hl'] at hs
      obtain ⟨l, hl, hlen⟩ : ∃ l, mn.1.vertices = some l ∧ l'.length = l.length := by
        cases hv : mn.1.vertices with
        | none => rw [hv] at hs; cases hs
        | some l => rw [hv] at hs; exact ⟨l, rfl, by simpa using hs⟩
      obtain ⟨M₀, δ, hsv⟩ := hm.vertices l hl
      have hne : l' ≠ [] := by
        rintro rfl
        exact hsv.some (List.length_eq_zero_iff.mp hlen.symm)
      refine ⟨2 * M + 1 / 2 ^ 128, 1 / 10, ?_⟩
      have hf : ∀ t, mn'.1.vertexTriangles = some t → t = [] := by
        intro t ht
        rw [hr.indices.vertex] at ht
        rcases (hc mn hmn).faces with e | e <;> rw [e] at ht <;> cases ht
        rfl
      refine ⟨hne, ?_, aged_within hk hM0 hr (hc mn hmn) hl', by norm_num, le_refl _, ?_, ?_, ?_, ?_⟩
      · linarith
      · intro t ht hn; exact absurd (hf t ht) hn
      · intro t ht i hi; rw [hf t ht] at hi; cases hi
      · intro t ht i j a c hij; rw [hf t ht] at hij; exact absurd hij (not_isEdge_short (by decide))
      · linarith
    · rw [hr.indices.vertex]; exact hm.vertexTriangles
    · rw [hr.indices.normal]; exact hm.normalTriangles
    · rw [hr.indices.uv]; exact hm.uvTriangles
    · rw [hr.indices.tangent]; exact hm.tangentTriangles
    · exact aged_custom hr hm.custom
    · rw [(bounds_same hr).1]; exact hm.segments
  · rw [sum_same ha fun a b h => (bounds_same h).2]
    exact h.size

theorem aged_more {k : Nat} (hk : k < 2 ^ 19) {mn mn' mn'' : Mesh (Val b32) × List UInt8} (h : Aged k mn mn') (hb : CameBack (ops lib) mn' mn'')
    (hld : mn''.1.customData = mn'.1.customData.reverse.map (CustomSeg.loaded (ops lib)))
    (hv : ∀ l, mn'.1.vertices = some l → ∃ l', mn''.1.vertices = some l' ∧ l'.length = l.length ∧
        ∀ lo hi, (∀ v ∈ l, InCube lo hi v) → ∀ v ∈ l', InCube (lo - (Max.max |lo| |hi| / 2 ^ 20 + 1 / 2 ^ 148))
          (hi + (Max.max |lo| |hi| / 2 ^ 20 + 1 / 2 ^ 148)) v) : Aged (k + 1) mn mn'' := by
  refine ⟨hb.name.trans h.name, indices_trans h.indices hb.indices, sizes_trans h.sizes hb.sizes, ?_, ?_⟩
  · rw [hld]
    exact custom_more (fo := ops lib) h.custom
  · intro l l'' hl hl'' lo hi hin v hvm
    obtain ⟨l', hl'⟩ : ∃ l', mn'.1.vertices = some l' := by
      have := h.sizes.vertices
      rw [hl] at this
      cases hm : mn'.1.vertices with
      | none => rw [hm] at this; cases this
      | some l => exact ⟨l, rfl⟩
    obtain ⟨l2, e, -, hcube⟩ := hv l' hl'
    rw [hl''] at e
    cases e
    obtain ⟨f, c1, c2, c3⟩ := hcube _ _ (h.inner l l' hl hl' lo hi hin) v hvm
    have hs := swell_step (lo := lo) (hi := hi) hk
    push_cast
    exact ⟨f, ⟨by linarith [c1.1], by linarith [c1.2]⟩, ⟨by linarith [c2.1], by linarith [c2.2]⟩, by linarith [c3.1], by linarith [c3.2]⟩

theorem aged_zero {mn : Mesh (Val b32) × List UInt8} (hc : WholeNumbers mn.1) (hs : ∀ c ∈ mn.1.customData, SensibleCustom c) : Aged 0 mn mn := by
  refine ⟨rfl, ⟨rfl, rfl, rfl, rfl⟩, ⟨rfl, rfl, rfl, rfl⟩, ?_, ?_⟩
  · exact List.forall₂_same.mpr fun c h => keptWhole_refl (hs c h) (hc c h)
  intro l l' hl hl' lo hi hin v hv
  rw [hl] at hl'
  cases hl'
  simpa using hin v hv

/-- C93, what holds of point clouds: up to `2^19` cycles of saving and loading succeed, in every build and with reads of any size, always
with the same result. Names, index arrays, sizes and custom data of whole numbers stay, and no vertex leaves a cube around the vertices by more than `k` times
`2^-19` of the cube's largest bound. -/
theorem C93_clouds_partial (hlog : AccurateLog2 lib) (hmono : MonotoneLog2 lib) (h : Saveable 30 prec meshes)
    (hc : ∀ mn ∈ meshes, PointCloud M mn.1) (hM0 : 0 ≤ M) (hM : M ≤ 2 ^ 56)
    (hroom : 8 * M + 1 / 2 ^ 17 ≤ 2 ^ 30 * (1 / 10 * valueOf prec.vertex)) :
    ∀ k ≤ 2 ^ 19, ∃ out, (∀ b b', FileCycles (ops lib) fb b b' prec k meshes out ∧
      ∀ out', FileCycles (ops lib) fb b b' prec k meshes out' → out' = out) ∧ List.Forall₂ (Aged k) meshes out := by
  have key : ∀ k ≤ 2 ^ 19, ∃ out, (∀ b b', FileCycles (ops lib) fb b b' prec k meshes out) ∧ List.Forall₂ (Aged k) meshes out := by
    intro k
    induction k with
    | zero =>
      intro _
      refine ⟨meshes, fun b b' => .none _, ?_⟩
      exact List.forall₂_same.mpr fun mn hmn => aged_zero (hc mn hmn).custom (h.mesh mn hmn).custom
    | succ k ih =>
      intro hk
      obtain ⟨out, hcyc, ha⟩ := ih (by omega)
      have hs := aged_saveable h hc hM0 hM hroom (by omega) ha
      obtain ⟨bytes, out2, hb, -, hr, hback⟩ := C65_saved (fb := fb) hlog hmono hs
      obtain ⟨bytes', out2', hb', hr', hcube⟩ := C78_saved (fb := fb) hlog hmono hs
      have eb : bytes' = bytes := by have := hb' .checked; rw [hb .checked] at this; cases this; rfl
      subst eb
      have eo : out2' = out2 := by have := hr' .checked [] []; rw [hr .checked [] []] at this; cases this; rfl
      subst eo
      obtain ⟨bytes2, out3, hb2, -, hr2, hload⟩ := saveable_loaded (fb := fb) hlog hmono (by decide) (le_refl 30) hs
      have eb : bytes2 = bytes' := by have := hb2 .checked; rw [hb .checked] at this; cases this; rfl
      subst eb
      have eo : out3 = out2' := by have := hr2 .checked [] []; rw [hr .checked [] []] at this; cases this; rfl
      subst eo
      refine ⟨out3, fun b b' => .more (hcyc b b') ⟨bytes2, hb b, fun sched => by simpa using hr b' [] sched⟩, ?_⟩
      refine forall₂_chain ha (forall₂_both hback (forall₂_both hload hcube)) fun a c d h1 h2 => aged_more (by omega) h1 h2.1 ?_ h2.2.2
      obtain ⟨-, ⟨-, edge, -, hm, -⟩, -⟩ := h2
      rw [hm]
      rfl
  intro k hk
  obtain ⟨out, hcyc, ha⟩ := key k hk
  exact ⟨out, fun b b' => ⟨hcyc b b', fun out' ho => fileCycles_unique ho (hcyc b b')⟩, ha⟩

/-! ### Sixty-four cycles -/

/-- 10. -/
def vTen : Val b32 := .fin false (10 * 2 ^ 149) (by decide +kernel)
theorem valueOf_vTen : valueOf vTen = 10 := by
  rw [vTen, valueOf_pos, show b32.scale = 149 from rfl]; norm_num

/-- The x of the third vertex after `i` cycles, in units. -/
def creepU (i : Nat) : Nat := (10157759 - 10250 * i) * 2 ^ 129

/-- The x of the third vertex after `i` cycles. -/
def creepX (i : Nat) : Val b32 := pack false (creepU i)

/-- The vertices after `i` cycles. -/
def creep (i : Nat) : List (Vec3 (Val b32)) := [(vZero, vZero, vZero), (vTen, vTen, vZero), (creepX i, vZero, vZero)]

theorem creep_rep : ∀ i < 65, b32.Rep (creepU i) := by decide +kernel

theorem creep_code : ∀ i < 64, coordQ 10 vZero vTen (creepX i) = creepX (i + 1) := by decide +kernel

theorem creep_corners : coordQ 10 vZero vTen vZero = vZero ∧ coordQ 10 vZero vTen vTen = vTen ∧
    coordQ 10 vZero vZero vZero = vZero := by decide +kernel

theorem creep_box : ∀ i < 64, boxOf (vZero, vZero, vZero) [(vTen, vTen, vZero), (creepX i, vZero, vZero)] =
    ⟨vZero, vTen, vZero, vTen, vZero, vZero⟩ := by decide +kernel

theorem creep_bits (hlog : AccurateLog2 lib) :
    vertexBits lib ⟨vZero, vTen, vZero, vTen, vZero, vZero⟩ (lit 1 1) (lit 1 1) = (10, 10, 10) := by
  rw [vertexBits, bits_clear hlog] <;> decide +kernel

theorem creep_step (hlog : AccurateLog2 lib) {i : Nat} (hi : i < 64) : quantVertices (ops lib) (lit 1 1) (lit 1 1) (creep i) = creep (i + 1) := by
  rw [creep, quantVertices, vertexBox_ops, creep_box i hi]
  dsimp only
  rw [precs_ops lib, creep_bits hlog, List.map_cons, List.map_cons, List.map_cons, List.map_nil, quantVertex_ops lib, quantVertex_ops lib,
    quantVertex_ops lib]
  dsimp only
  rw [creep_corners.1, creep_corners.2.1, creep_corners.2.2, creep_code i hi, creep]

theorem creep_edge (i : Nat) : calcShortestEdge (ops lib) none (some (creep i)) = .ok (lit 1 1 : Val b32) := by
  rfl

/-- A mesh of these points. -/
def creepMesh (i : Nat) : Mesh (Val b32) := { Mesh.empty with vertices := some (creep i) }

/-- The default settings. -/
def creepPrec : PrecisionInfo (Val b32) := ⟨lit 1 1, 7, 14, 7⟩

theorem creepX_fin {i : Nat} (hi : i < 65) : creepX i = .fin false (creepU i) (creep_rep i hi) := by
  rw [creepX, pack, dif_pos (creep_rep i hi)]

theorem valueOf_creepX {i : Nat} (hi : i < 65) : valueOf (creepX i) = (10157759 - 10250 * i : ℚ) / 2 ^ 20 := by
  rw [creepX_fin hi, valueOf_pos, show b32.scale = 149 from rfl, creepU]
  have h : 10250 * i ≤ 10157759 := by omega
  push_cast [Nat.cast_sub h]
  ring

theorem creep_within {i : Nat} (hi : i < 65) : ∀ v ∈ creep i, VecWithin 10 v := by
  intro v hv
  have hx : |valueOf (creepX i)| ≤ 10 := by
    rw [valueOf_creepX hi]
    have h1 : (i : ℚ) ≤ 64 := by exact_mod_cast Nat.le_of_lt_succ hi
    have h0 : (0 : ℚ) ≤ i := Nat.cast_nonneg i
    rw [abs_of_nonneg (div_nonneg (by linarith) (by norm_num)), div_le_iff₀ (by norm_num)]
    linarith
  have hf : isFinite (creepX i) = true := by rw [creepX_fin hi]; rfl
  simp only [creep, List.mem_cons, List.not_mem_nil, or_false] at hv
  rcases hv with rfl | rfl | rfl
  · refine ⟨⟨rfl, rfl, rfl⟩, ?_⟩; simp only [valueOf_vZero]; norm_num
  · refine ⟨⟨rfl, rfl, rfl⟩, ?_⟩; simp only [valueOf_vZero, valueOf_vTen]; norm_num
  · refine ⟨⟨hf, rfl, rfl⟩, hx, ?_⟩; simp only [valueOf_vZero]; norm_num

theorem creep_saveable {i : Nat} (hi : i < 65) : Saveable 30 creepPrec [(creepMesh i, [65])] where
  finite := tenth_exact.1
  vertex := show valueOf (lit 1 1 : Val b32) ≤ _ by rw [tenth_exact.2]; norm_num
  normal := show 7 ≤ 30 by decide
  uv := show 14 ≤ 30 by decide
  tangent := show 7 ≤ 30 by decide
  names := by
    intro mn h
    rcases List.mem_singleton.mp h with rfl
    exact ⟨show 1 < 2 ^ 16 by decide, ⟨['A'], rfl⟩⟩
  mesh := by
    intro mn h
    rcases List.mem_singleton.mp h with rfl
    refine ⟨?_, ?_, ?_, ?_, ?_, ?_, ?_⟩
    · intro l hl
      cases hl
      refine ⟨10, 1 / 10, by simp [creep], by norm_num, creep_within hi, by norm_num, le_refl _, ?_, ?_, ?_, ?_⟩
      · intro t ht; cases ht
      · intro t ht; cases ht
      · intro t ht; cases ht
      · rw [show creepPrec.vertex = lit 1 1 from rfl, tenth_exact.2]; norm_num
    · intro l hl; cases hl
    · intro l hl; cases hl
    · intro l hl; cases hl
    · intro l hl; cases hl
    · intro c hc; cases hc
    · norm_num [segmentBound, mostPieces, indexPieces, onePiece, creepMesh, Mesh.empty, creep]
  size := by
    norm_num [meshSizeBound, segmentBound, mostPieces, indexPieces, onePiece, elements, elementCount, customLoad, customCount, creepMesh, Mesh.empty,
      creep]

theorem creep_flat (i : Nat) : ∀ v ∈ creep i, v.2.2 = vZero := by
  intro v hv
  simp only [creep, List.mem_cons, List.not_mem_nil, or_false] at hv
  rcases hv with rfl | rfl | rfl <;> rfl

theorem creep_cycle (hlog : AccurateLog2 lib) (hmono : MonotoneLog2 lib) {i : Nat} (hi : i < 64) (b b' : Build) :
    FileCycle (ops lib) fb b b' creepPrec [(creepMesh i, [65])] [(creepMesh (i + 1), [65])] := by
  obtain ⟨bytes, out, hb, -, hr, hf⟩ := saveable_loaded (fb := fb) hlog hmono (by decide) (le_refl 30) (creep_saveable (by omega : i < 65))
  obtain ⟨mn, rfl, hn, edge, he, hm, hcut⟩ := forall₂_one hf
  have he' : calcShortestEdge (ops lib) none (some (creep i)) = .ok edge := he
  rw [creep_edge] at he'
  cases he'
  obtain ⟨qs, hq, -⟩ := hcut (creep i) rfl
  cases flat_cut (creep_flat i) hq
  have hv : loadedVertices (ops lib) .checked (lit 1 1) (lit 1 1) (creep i) = creep (i + 1) := by
    rw [loadedVertices, hq]
    dsimp only
    rw [List.flatMap_cons, List.flatMap_nil, List.append_nil, creep_step hlog hi]
  have hl : mn = (creepMesh (i + 1), [65]) := by
    refine Prod.ext ?_ hn
    rw [hm]
    show loadedMesh (ops lib) .checked creepPrec (lit 1 1) (creepMesh i) = creepMesh (i + 1)
    rw [loadedMesh]
    show ({ Mesh.empty with vertices := some (loadedVertices (ops lib) .checked (lit 1 1) (lit 1 1) (creep i)) } : Mesh (Val b32)) = _
    rw [hv, creepMesh]
  subst hl
  exact ⟨bytes, hb b, fun sched => by simpa using hr b' [] sched⟩

theorem creep_cycles (hlog : AccurateLog2 lib) (hmono : MonotoneLog2 lib) (b b' : Build) :
    ∀ i ≤ 64, FileCycles (ops lib) fb b b' creepPrec i [(creepMesh 0, [65])] [(creepMesh i, [65])]
  | 0, _ => .none _
  | i + 1, h => .more (creep_cycles hlog hmono b b' i (by omega)) (creep_cycle hlog hmono (by omega) b b')

/-- C93 is false as stated: with the default settings, whose precision means hundredths in this mesh, one of three points moves by
more than 6/10 in 64 cycles of saving and loading, by the same step each time. -/
theorem C93_violated (hlog : AccurateLog2 lib) (hmono : MonotoneLog2 lib) :
    ∃ (m m' : Mesh (Val b32)) (l l' : List (Vec3 (Val b32))) (v v' : Vec3 (Val b32)),
      Saveable 30 (PrecisionInfo.default (ops lib)) [(m, [65])] ∧ PointCloud 10 m ∧
      (∀ b b', FileCycles (ops lib) fb b b' (PrecisionInfo.default (ops lib)) 64 [(m, [65])] [(m', [65])]) ∧
      m.vertices = some l ∧ m'.vertices = some l' ∧ l[2]? = some v ∧ l'[2]? = some v' ∧ valueOf v'.1 < valueOf v.1 - 6 / 10 := by
  rw [C91_bits hlog]
  refine ⟨creepMesh 0, creepMesh 64, creep 0, creep 64, _, _, creep_saveable (by decide), ⟨.inl rfl, (fun c hc => by cases hc), ?_⟩,
    fun b b' => creep_cycles hlog hmono b b' 64 (le_refl 64), rfl, rfl, rfl, rfl, ?_⟩
  · intro l hl
    cases hl
    exact creep_within (by decide)
  · dsimp only
    rw [valueOf_creepX (by decide), valueOf_creepX (by decide)]
    norm_num

/-! ### Examples -/

example (fb : F64Bytes (ops someLibm)) : ∃ m' l' v',
    (∀ b b', FileCycles (ops someLibm) fb b b' creepPrec 64 [(creepMesh 0, [65])] [(m', [65])]) ∧
      m'.vertices = some l' ∧ l'[2]? = some v' ∧ valueOf v'.1 = 9501759 / 2 ^ 20 :=
  ⟨_, _, _, fun b b' => creep_cycles someLibm_log2 someLibm_monotone b b' 64 (le_refl 64), rfl, rfl, by
    dsimp only
    rw [valueOf_creepX (by decide)]
    norm_num⟩

/-- The same points after half a million cycles still lie between -20 and 20. -/
example (fb : F64Bytes (ops someLibm)) : ∃ mn l', (∀ b b', FileCycles (ops someLibm) fb b b' creepPrec 500000 [(creepMesh 0, [65])] [mn]) ∧
    mn.1.vertices = some l' ∧ l'.length = 3 ∧ ∀ v ∈ l', VecWithin 20 v := by
  obtain ⟨out, hcyc, ha⟩ := C93_clouds_partial (fb := fb) (M := 10) someLibm_log2 someLibm_monotone (creep_saveable (i := 0) (by decide))
    (by
      intro mn hmn
      rcases List.mem_singleton.mp hmn with rfl
      exact ⟨.inl rfl, (fun c hc => by cases hc), fun l hl => by cases hl; exact creep_within (by decide)⟩)
    (by norm_num) (by norm_num) (by rw [show creepPrec.vertex = lit 1 1 from rfl, tenth_exact.2]; norm_num) 500000 (by norm_num)
  obtain ⟨mn, rfl, h⟩ := forall₂_one ha
  have hs : mn.1.vertices.map List.length = some 3 := h.sizes.vertices
  obtain ⟨l', hl, hlen⟩ : ∃ l', mn.1.vertices = some l' ∧ l'.length = 3 := by
    cases hv : mn.1.vertices with
    | none => rw [hv] at hs; cases hs
    | some l => rw [hv] at hs; exact ⟨l, rfl, by simpa using hs⟩
  refine ⟨mn, l', fun b b' => (hcyc b b').1, hl, hlen, ?_⟩
  intro v hv
  obtain ⟨f, c1, c2, c3⟩ := h.inner (creep 0) l' rfl hl (-10) 10 (fun v hv => by
    obtain ⟨f, a1, a2, a3⟩ := creep_within (i := 0) (by decide) v hv
    exact ⟨f, abs_le.mp a1, abs_le.mp a2, abs_le.mp a3⟩) v hv
  have e : ((500000 : ℕ) : ℚ) * swell (-10) 10 ≤ 10 := by
    rw [swell, abs_neg, max_self, abs_of_nonneg (by norm_num)]
    norm_num
  exact ⟨f, abs_le.mpr ⟨by linarith [c1.1], by linarith [c1.2]⟩, abs_le.mpr ⟨by linarith [c2.1], by linarith [c2.2]⟩,
    abs_le.mpr ⟨by linarith [c3.1], by linarith [c3.2]⟩⟩

/-- Points with two lists of whole numbers. -/
def numberedMesh : Mesh (Val b32) := { creepMesh 0 with customData := [⟨[110], .index [4, 7, 4] 9⟩, ⟨[111], .integer [0, 300] 300⟩] }

theorem numbered_saveable : Saveable 30 creepPrec [(numberedMesh, [65])] :=
  { creep_saveable (i := 0) (by decide) with
    names := by
      intro mn h
      rcases List.mem_singleton.mp h with rfl
      exact ⟨show 1 < 2 ^ 16 by decide, ⟨['A'], rfl⟩⟩
    mesh := by
      intro mn h
      rcases List.mem_singleton.mp h with rfl
      obtain ⟨h1, h2, h3, h4, h5, -, -⟩ := (creep_saveable (i := 0) (by decide)).mesh _ List.mem_cons_self
      refine ⟨h1, h2, h3, h4, h5, ?_, ?_⟩
      · intro c hc
        simp only [numberedMesh, List.mem_cons, List.not_mem_nil, or_false] at hc
        rcases hc with rfl | rfl
        · exact .index _ _ _ (by decide) (by decide) (by decide)
        · exact .integer _ _ _ (by decide) (by decide) (by decide)
      · norm_num [segmentBound, mostPieces, indexPieces, onePiece, numberedMesh, creepMesh, Mesh.empty, creep]
    size := by
      norm_num [meshSizeBound, segmentBound, mostPieces, indexPieces, onePiece, elements, elementCount, customLoad, customCount, numberedMesh,
        creepMesh, Mesh.empty, creep] }

/-- After an odd number of cycles the two lists have changed places. -/
example (fb : F64Bytes (ops someLibm)) : ∃ mn n n', (∀ b b', FileCycles (ops someLibm) fb b b' creepPrec 4095 [(numberedMesh, [65])] [mn]) ∧
    mn.1.customData = [⟨[111], .integer [0, 300] n⟩, ⟨[110], .index [4, 7, 4] n'⟩] := by
  obtain ⟨out, hcyc, ha⟩ := C93_clouds_partial (fb := fb) (M := 10) someLibm_log2 someLibm_monotone numbered_saveable
    (by
      intro mn hmn
      rcases List.mem_singleton.mp hmn with rfl
      refine ⟨.inl rfl, fun c hc => ?_, fun l hl => by cases hl; exact creep_within (by decide)⟩
      simp only [numberedMesh, List.mem_cons, List.not_mem_nil, or_false] at hc
      rcases hc with rfl | rfl
      · exact .inl ⟨_, _, rfl⟩
      · exact .inr ⟨_, _, rfl⟩)
    (by norm_num) (by norm_num) (by rw [show creepPrec.vertex = lit 1 1 from rfl, tenth_exact.2]; norm_num) 4095 (by norm_num)
  obtain ⟨mn, rfl, h⟩ := forall₂_one ha
  have hx := h.custom
  have e : turnedRound 4095 numberedMesh.customData = [⟨[111], .integer [0, 300] 300⟩, ⟨[110], .index [4, 7, 4] 9⟩] := rfl
  dsimp only at hx
  rw [e] at hx
  generalize hl : mn.1.customData = l at hx
  cases hx with
  | cons h1 hx =>
    cases hx with
    | cons h2 hx =>
      cases hx
      cases h1
      cases h2
      exact ⟨mn, _, _, fun b b' => (hcyc b b').1, hl⟩

end Tmf.Props
