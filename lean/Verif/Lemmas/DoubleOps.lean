import Verif.Lemmas.DoubleRange
import Verif.Lemmas.F64Bits
import Verif.Lemmas.RangeFold
import Verif.Lemmas.Ieee
import Verif.Model.DoublePrecision
/-
The decoded numbers of the model with the arithmetic of `double_precision`.
-/

set_option exponentiation.threshold 2000

namespace Tmf.Ieee.Double
open Spec Any

/-- The layout of f64 in files. -/
@[reducible] def f64Le64 (lib : Libm64) : F64Bytes (ops64 lib) where
  enc := f64ToLe
  dec := f64OfLe
  enc_length _ := length_leBytes 8 _
  dec_enc := f64OfLe_toLe

theorem lit_lt_lit : lt (lit 0 0 : Val b64) (lit 1 0) = true := by decide +kernel

seal lit lt in
theorem orderLaws64 (lib : Libm64) : OrderLaws (ops64 lib) where
  asymm := lt_asymm
  trans := lt_trans
  min_left := min_of_lt
  max_left := max_of_lt
  zero_lt_one := lit_lt_lit

section
variable (lib : Libm64)

theorem ops_toU64 : (ops64 lib).toU64 = toU64 := rfl
theorem ops_mul : (ops64 lib).mul = mul := rfl
theorem ops_div : (ops64 lib).div = div := rfl
theorem ops_ofNat : (ops64 lib).ofNat = ofNat := rfl
theorem ops_dDiv : (ops64 lib).dDiv = div := rfl
theorem ops_dOfNat : (ops64 lib).dOfNat = ofNat := rfl
theorem ops_max : (ops64 lib).max = Ieee.max := rfl
theorem ops_lit : (ops64 lib).lit = lit := rfl
theorem ops_sub : (ops64 lib).sub = sub := rfl
theorem ops_add : (ops64 lib).add = add := rfl
theorem ops_dAdd : (ops64 lib).dAdd = add := rfl
theorem ops_dMul : (ops64 lib).dMul = mul := rfl
theorem ops_dSub : (ops64 lib).dSub = sub := rfl

/-! ### Uv coordinates and colours -/

theorem quantUv_eq {p : Nat} (hp1 : 1 ≤ p) (hp : p ≤ 53) (x : Vec2 (Val b64)) :
    quantUv (ops64 lib) p x = (.fin false (unitDec p x.1) (dec_rep hp1 hp (mod_le_mask p _)),
      .fin false (unitDec p x.2) (dec_rep hp1 hp (mod_le_mask p _))) := by
  rw [quantUv, if_neg (by omega)]
  rw [uvOfCodes, ops_toU64 lib, ops_mul lib, ops_div lib, ops_ofNat lib]
  dsimp only
  rw [div_code hp1 hp (mod_le_mask p _), div_code hp1 hp (mod_le_mask p _)]
  simp only [unitDec]

theorem quantUv_step {p : Nat} (hp1 : 1 ≤ p) (hp : p ≤ 30) {x : Vec2 (Val b64)} (h1 : UnitValue x.1) (h2 : UnitValue x.2) :
    StepBelow p x.1 (quantUv (ops64 lib) p x).1 ∧ StepBelow p x.2 (quantUv (ops64 lib) p x).2 := by
  rw [quantUv_eq lib hp1 (by omega)]
  exact ⟨stepBelow_unitDec hp1 hp h1 _, stepBelow_unitDec hp1 hp h2 _⟩

theorem quantChannel_eq {p : Nat} (hp1 : 1 ≤ p) (hp : p ≤ 53) (x : Val b64) :
    quantChannel (ops64 lib) p x = .fin false (unitDec p x) (dec_rep hp1 hp (mod_le_mask p _)) := by
  rw [quantChannel, channelOfCode, ops_dDiv lib, ops_dOfNat lib, ops_toU64 lib, ops_mul lib, ops_ofNat lib]
  show div (ofNat _ : Val b64) (ofNat (2 ^ p - 1)) = _
  rw [div_code hp1 hp (mod_le_mask p _)]
  simp only [unitDec]

theorem quantChannel_step {p : Nat} (hp1 : 1 ≤ p) (hp : p ≤ 30) {x : Val b64} (h : UnitValue x) :
    StepBelow p x (quantChannel (ops64 lib) p x) := by
  rw [quantChannel_eq lib hp1 (by omega)]
  exact stepBelow_unitDec hp1 hp h _

theorem unitDec_idem {p : Nat} (hp1 : 1 ≤ p) (hp : p ≤ 30) (x : Val b64) :
    unitDec p (.fin false (unitDec p x) (dec_rep hp1 (by omega) (mod_le_mask p _))) = unitDec p x := by
  have h := code_of_dec hp1 hp (by omega) (mod_le_mask p (toU64 (mul x (ofNat (2 ^ p - 1)))))
  rw [unitDec]
  simp only [unitDec]
  rw [h, Nat.mod_mod]

theorem quantUv_idem {p : Nat} (hp : p ≤ 30) (x : Vec2 (Val b64)) :
    quantUv (ops64 lib) p (quantUv (ops64 lib) p x) = quantUv (ops64 lib) p x := by
  rcases Nat.eq_zero_or_pos p with rfl | hp1
  · rw [quantUv, quantUv, if_pos rfl, if_pos rfl]
  · rw [quantUv_eq lib hp1 (by omega) x, quantUv_eq lib hp1 (by omega)]
    exact Prod.ext (fin_congr (unitDec_idem hp1 hp x.1) _ _) (fin_congr (unitDec_idem hp1 hp x.2) _ _)

/-! ### Vertices -/

theorem step_ops : VBox.step (ops64 lib) = boxStep := rfl

theorem reread_eq (s : VBox (Val b64)) : VBox.reread (ops64 lib) s = s := rfl

theorem coord_ops (p : Nat) (mn mx x : Val b64) :
    coordOfCode (ops64 lib) (coordCode (ops64 lib) x mn (sizeOf mn mx) (2 ^ p - 1) % 2 ^ p) p mn mx = coordQ p mn mx x := by
  rw [coordOfCode, coordCode, ops_add lib, ops_mul lib, ops_div lib, ops_ofNat lib, ops_sub lib, ops_toU64 lib, coordQ]

theorem sizes_ops (s : VBox (Val b64)) :
    s.sizes (ops64 lib) = (sizeOf s.minX s.maxX, sizeOf s.minY s.maxY, sizeOf s.minZ s.maxZ) := by
  rw [VBox.sizes, ops_max lib, ops_lit lib, ops_sub lib, sizeOf, sizeOf, sizeOf]

theorem quantVertex_ops (s : VBox (Val b64)) (p : Nat × Nat × Nat) (v : Vec3 (Val b64)) :
    quantVertex (ops64 lib) s p v =
      (coordQ p.1 s.minX s.maxX v.1, coordQ p.2.1 s.minY s.maxY v.2.1, coordQ p.2.2 s.minZ s.maxZ v.2.2) := by
  rw [quantVertex, reread_eq lib, sizes_ops lib, vertexOfCodes]
  dsimp only
  rw [coord_ops lib, coord_ops lib, coord_ops lib]

/-- The box of an array: finite; it contains every vertex but possibly the last; and its sides. -/
theorem vertexBox_spec {l : List (Vec3 (Val b64))} {s : VBox (Val b64)} (h : vertexBox (ops64 lib) l = .ok s)
    (hl : ∀ v ∈ l, FiniteVec v) :
    BoxFinite s ∧ (∀ v ∈ l.dropLast, Inside s v) ∧
    (∀ v ∈ l, valueOf s.minX ≤ valueOf v.1 ∧ valueOf v.2.1 ≤ valueOf s.maxY ∧ valueOf s.minZ ≤ valueOf v.2.2 ∧
      valueOf v.2.2 ≤ valueOf s.maxZ) ∧
    (∀ lo, (∀ v ∈ l, lo ≤ valueOf v.1) → lo ≤ valueOf s.minX) ∧
    (∀ hi, (∀ v ∈ l, valueOf v.1 ≤ hi ∧ valueOf v.2.1 ≤ hi) → valueOf s.maxX ≤ hi ∧ valueOf s.maxY ≤ hi) ∧
    (∀ lo, (∀ v ∈ l, lo ≤ valueOf v.2.1 ∧ lo ≤ valueOf v.2.2) → lo ≤ valueOf s.minY ∧ lo ≤ valueOf s.minZ) ∧
    (∀ hi, (∀ v ∈ l, valueOf v.2.2 ≤ hi) → valueOf s.maxZ ≤ hi) := by
  cases l with
  | nil => cases h
  | cons v0 rest =>
    rw [vertexBox, step_ops lib] at h
    have h := Outcome.ok.inj h
    obtain ⟨f1, f2, f3⟩ := hl v0 List.mem_cons_self
    have hs0 : BoxFinite (⟨v0.1, v0.1, v0.2.1, v0.2.1, v0.2.2, v0.2.2⟩ : VBox (Val b64)) := ⟨f1, f1, f2, f2, f3, f3⟩
    obtain ⟨g1, g2, g3⟩ := fold_seen hl hs0
    obtain ⟨b1, b2, b3, b4⟩ := fold_bounds hl hs0
    have hmem0 : v0 ∈ v0 :: rest := List.mem_cons_self
    have hin : ∀ v ∈ (v0 :: rest).dropLast, Inside ((v0 :: rest).foldl boxStep ⟨v0.1, v0.1, v0.2.1, v0.2.1, v0.2.2, v0.2.2⟩) v := by
      have hne : v0 :: rest ≠ [] := by simp
      intro v hv
      have hsplit := List.dropLast_append_getLast hne
      have hfin : ∀ w ∈ (v0 :: rest).dropLast, FiniteVec w := fun w hw => hl w (List.dropLast_subset _ hw)
      obtain ⟨k1, _, k3⟩ := fold_seen hfin hs0
      have hlast := boxStep_seen k1 (hl _ (List.getLast_mem hne))
      have e : (v0 :: rest).foldl boxStep ⟨v0.1, v0.1, v0.2.1, v0.2.1, v0.2.2, v0.2.2⟩ =
          boxStep ((v0 :: rest).dropLast.foldl boxStep ⟨v0.1, v0.1, v0.2.1, v0.2.1, v0.2.2, v0.2.2⟩)
            ((v0 :: rest).getLast hne) := by
        conv_lhs => rw [← hsplit]
        rw [List.foldl_append]
        rfl
      rw [e]
      exact (hlast.2 v (k3 v hv)).2
    rw [← h]
    refine ⟨g1, hin, fun v hv => ⟨(g3 v hv).minX, (g3 v hv).maxYy, (g3 v hv).minZz, (g3 v hv).maxZ⟩,
      fun lo ha => b1 lo (ha v0 hmem0) ha, fun hi ha => b2 hi (ha v0 hmem0).1 (ha v0 hmem0).2 ha,
      fun lo ha => b3 lo (ha v0 hmem0).1 (ha v0 hmem0).2 ha, fun hi ha => b4 hi (ha v0 hmem0) ha⟩

/-! ### Float arrays -/

theorem pack_max : (pack false b64.max : Val b64) = .fin false b64.max (by decide +kernel) := by
  rw [pack, dif_pos (by decide +kernel)]
theorem pack_min : (pack true b64.max : Val b64) = .fin true b64.max (by decide +kernel) := by
  rw [pack, dif_pos (by decide +kernel)]

theorem valueOf_pack_max : isFinite (pack false b64.max : Val b64) = true ∧ valueOf (pack false b64.max : Val b64) = maxV b64 := by
  rw [pack_max]
  refine ⟨rfl, ?_⟩
  rw [valueOf_fin]; simp [sgn, maxV]

theorem valueOf_pack_min : isFinite (pack true b64.max : Val b64) = true ∧ valueOf (pack true b64.max : Val b64) = -maxV b64 := by
  rw [pack_min]
  refine ⟨rfl, ?_⟩
  rw [valueOf_fin]; simp [sgn, maxV]

/-- Minimum and maximum of an array of moderate numbers. -/
def rangeOf (l : List (Val b64)) : Val b64 × Val b64 := (l.foldl Ieee.min (pack false b64.max), l.foldl Ieee.max (pack true b64.max))

seal pack in
theorem floatRange_ops (l : List (Val b64)) : floatRange (ops64 lib) l = rangeOf l := rfl

theorem rangeOf_value {l : List (Val b64)} (hne : l ≠ []) (hl : ∀ x ∈ l, isFinite x = true ∧ |valueOf x| < maxV b64) :
    (rangeOf l).1 ∈ l ∧ (rangeOf l).2 ∈ l ∧ ∀ x ∈ l, valueOf (rangeOf l).1 ≤ valueOf x ∧ valueOf x ≤ valueOf (rangeOf l).2 := by
  obtain ⟨x, hx⟩ := List.exists_mem_of_ne_nil l hne
  have hmx := valueOf_pack_max
  have hmn := valueOf_pack_min
  obtain ⟨_, a2, _, a4⟩ := foldl_min_value (fun x hx => (hl x hx).1) hmx.1
  obtain ⟨_, b2, _, b4⟩ := foldl_max_value (fun x hx => (hl x hx).1) hmn.1
  have hxb := abs_lt.mp (hl x hx).2
  refine ⟨a2.resolve_left (fun h => ?_), b2.resolve_left (fun h => ?_), fun y hy => ⟨a4 y hy, b4 y hy⟩⟩
  · have := a4 x hx
    rw [h, hmx.2] at this
    linarith
  · have := b4 x hx
    rw [h, hmn.2] at this
    linarith

theorem quantFloat_near {r : Val b64 × Val b64} {p : Nat} {x : Val b64} {M : ℚ} (hp1 : 1 ≤ p) (hp : p ≤ 53)
    (hx : isFinite x = true) (hmn : isFinite r.1 = true) (hmx : isFinite r.2 = true) (h0 : valueOf r.1 ≤ valueOf x)
    (h1 : valueOf x ≤ valueOf r.2) (hlt : valueOf r.1 < valueOf r.2) (hM1 : |valueOf r.1| ≤ M) (hM2 : |valueOf r.2| ≤ M)
    (hM : M ≤ 2 ^ 120) :
    Within ((valueOf r.2 - valueOf r.1) / (2 ^ p - 1) + M / 2 ^ 48 + 1 / 2 ^ 1073) x (quantFloat (ops64 lib) r p x) := by
  have hSM : valueOf r.2 - valueOf r.1 ≤ 2 * M := by rw [abs_le] at hM1 hM2; linarith
  have hS : valueOf r.2 - valueOf r.1 ≤ 2 ^ 200 := by linarith [show (2 : ℚ) * 2 ^ 120 ≤ 2 ^ 200 by norm_num]
  have hszv := sub_value (f := b64) (by decide) hmx hmn (by
    rw [abs_of_nonneg (by linarith)]; exact le_trans hS maxV64)
  have := coord_near hp1 hp hx hmn hmx hszv.1 hszv.2 h0 h1 hlt hM1 hM2 hM
  rw [quantFloat, floatOfCode, floatCode, ops_dAdd lib, ops_dMul lib, ops_dDiv lib, ops_dOfNat lib, ops_dSub lib, ops_toU64 lib,
    ops_mul lib, ops_div lib, ops_sub lib, ops_ofNat lib]
  exact this

end

end Tmf.Ieee.Double
