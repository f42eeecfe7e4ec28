import Verif.Spec.Verify
import Mathlib.Tactic.SplitIfs
import Mathlib.Logic.Basic
/-
Lemmas about `verify`.
-/

namespace Tmf
open Spec

theorem indicesInsideArray_none {t : List Nat} {n : Nat} : indicesInsideArray t n = none ↔ ∀ i ∈ t, i ≤ n := by
  induction t with
  | nil => simp [indicesInsideArray]
  | cons i t ih =>
    rw [indicesInsideArray]
    split_ifs with h
    · constructor
      · intro h; cases h
      · intro h'; have := h' i List.mem_cons_self; omega
    · rw [ih]
      simp only [List.mem_cons, forall_eq_or_imp]
      constructor
      · exact fun h' => ⟨by omega, h'⟩
      · exact fun h' => h'.2

theorem indicesInsideArray_some {t : List Nat} {n i : Nat} (h : indicesInsideArray t n = some i) : i ∈ t ∧ n < i := by
  induction t with
  | nil => cases h
  | cons j t ih =>
    rw [indicesInsideArray] at h
    split_ifs at h with hj
    · cases h; exact ⟨List.mem_cons_self, hj⟩
    · exact ⟨List.mem_cons_of_mem _ (ih h).1, (ih h).2⟩

theorem verifyVertices_none {F : Type} {m : Mesh F} (h : ∀ l, m.vertices = some l → l.length < 2 ^ 32) :
    verifyVertices m = none ↔ IndicesPass m.vertices m.vertexTriangles := by
  unfold verifyVertices IndicesPass
  cases hv : m.vertices with
  | none =>
    cases ht : m.vertexTriangles with
    | none => simp
    | some t => simp
  | some d =>
    have hm := Nat.mod_eq_of_lt (h d hv)
    cases ht : m.vertexTriangles with
    | none => simp
    | some t =>
      simp only [hm]
      cases hi : indicesInsideArray t d.length with
      | none => simpa using indicesInsideArray_none.mp hi
      | some i =>
        have := indicesInsideArray_some hi
        simp only [reduceCtorEq, Option.some.injEq, forall_eq', exists_eq_left', false_iff, not_forall]
        exact ⟨i, this.1, by omega⟩

theorem verifyVertices_some {F : Type} {fo : FloatOps} {m : Mesh fo.F} {e : Integrity fo.F}
    (h : ∀ l, m.vertices = some l → l.length < 2 ^ 32) (he : verifyVertices m = some e) :
    partOf e = .vertices ∧ Accurate fo m e := by
  unfold verifyVertices at he
  cases hv : m.vertices with
  | none =>
    rw [hv] at he
    simp only at he
    split_ifs at he with ht
    cases he
    exact ⟨rfl, hv, Option.isSome_iff_ne_none.mp ht⟩
  | some d =>
    have hm := Nat.mod_eq_of_lt (h d hv)
    cases ht : m.vertexTriangles with
    | none => rw [hv, ht] at he; cases he
    | some t =>
      rw [hv, ht] at he
      simp only [hm] at he
      cases hi : indicesInsideArray t d.length with
      | none => rw [hi] at he; cases he
      | some i =>
        rw [hi] at he
        cases he
        exact ⟨rfl, d, t, hv, ht, rfl, indicesInsideArray_some hi⟩

theorem notUnit_false {fo : FloatOps} {n : Vec3 fo.F} : notUnit fo n = false ↔ UnitLength fo n := Iff.rfl

theorem any_notUnit {fo : FloatOps} {l : List (Vec3 fo.F)} : l.any (notUnit fo) = true ↔ ∃ n ∈ l, ¬ UnitLength fo n := by
  rw [List.any_eq_true]
  refine exists_congr fun n => and_congr Iff.rfl ?_
  rw [← notUnit_false]; simp

theorem verifyNormals_none {fo : FloatOps} {m : Mesh fo.F} (h : ∀ l, m.normals = some l → l.length < 2 ^ 32) :
    verifyNormals fo m = none ↔ IndicesPass m.normals m.normalTriangles ∧
      ∀ l, m.normals = some l → ∀ n ∈ l, UnitLength fo n := by
  unfold verifyNormals IndicesPass
  cases hv : m.normals with
  | none =>
    cases ht : m.normalTriangles with
    | none => simp
    | some t => simp
  | some d =>
    have hm := Nat.mod_eq_of_lt (h d hv)
    simp only [hm, Option.some.injEq, forall_eq', exists_eq_left']
    by_cases hu : d.any (notUnit fo) = true
    · rw [if_pos hu]
      obtain ⟨n, hn, hnu⟩ := any_notUnit.mp hu
      simp only [reduceCtorEq, false_iff]
      exact fun h => hnu (h.2 n hn)
    · rw [if_neg hu]
      have hall : ∀ n ∈ d, UnitLength fo n := by
        intro n hn
        exact Classical.byContradiction fun hc => hu (any_notUnit.mpr ⟨n, hn, hc⟩)
      cases ht : m.normalTriangles with
      | none => simpa using fun a b c => hall (a, b, c)
      | some t =>
        simp only [Option.some.injEq, forall_eq']
        cases hi : indicesInsideArray t d.length with
        | none => simpa using ⟨indicesInsideArray_none.mp hi, fun a b c => hall (a, b, c)⟩
        | some i =>
          have := indicesInsideArray_some hi
          simp only [reduceCtorEq, false_iff]
          intro hc
          have := hc.1 i this.1
          omega

theorem verifyNormals_some {fo : FloatOps} {m : Mesh fo.F} {e : Integrity fo.F}
    (h : ∀ l, m.normals = some l → l.length < 2 ^ 32) (he : verifyNormals fo m = some e) :
    partOf e = .normals ∧ Accurate fo m e := by
  unfold verifyNormals at he
  cases hv : m.normals with
  | none =>
    rw [hv] at he
    simp only at he
    split_ifs at he with ht
    cases he
    exact ⟨rfl, hv, Option.isSome_iff_ne_none.mp ht⟩
  | some d =>
    have hm := Nat.mod_eq_of_lt (h d hv)
    rw [hv] at he
    simp only [hm] at he
    split_ifs at he with hu
    · cases he
      exact ⟨rfl, d, hv, any_notUnit.mp hu⟩
    · cases ht : m.normalTriangles with
      | none => rw [ht] at he; cases he
      | some t =>
        rw [ht] at he
        simp only at he
        cases hi : indicesInsideArray t d.length with
        | none => rw [hi] at he; cases he
        | some i =>
          rw [hi] at he
          cases he
          exact ⟨rfl, d, t, hv, ht, rfl, indicesInsideArray_some hi⟩

theorem uvLoop_none {fo : FloatOps} {l : List (Vec2 fo.F)}
    (h : ∀ p ∈ l, fo.lt p.1 (fo.lit 0 0) = true → fo.lt (fo.lit 1 0) p.1 = false) : uvLoop fo l = none := by
  induction l with
  | nil => rfl
  | cons p l ih =>
    rw [uvLoop, if_neg, ih (fun q hq => h q (List.mem_cons_of_mem _ hq))]
    intro hc
    simp only [Bool.and_eq_true] at hc
    have := h p List.mem_cons_self hc.1.1.1
    rw [show fo.lt fo.one p.1 = false from this] at hc
    exact absurd hc.1.2 (by simp)

theorem verifyUvs_none {fo : FloatOps} {m : Mesh fo.F} (h : ∀ l, m.uvs = some l → l.length < 2 ^ 32)
    (hu : ∀ l, m.uvs = some l → ∀ p ∈ l, fo.lt p.1 (fo.lit 0 0) = true → fo.lt (fo.lit 1 0) p.1 = false) :
    verifyUvs fo m = none ↔ IndicesPass m.uvs m.uvTriangles := by
  unfold verifyUvs IndicesPass
  cases hv : m.uvs with
  | none =>
    cases ht : m.uvTriangles with
    | none => simp
    | some t => simp
  | some d =>
    have hm := Nat.mod_eq_of_lt (h d hv)
    simp only [uvLoop_none (hu d hv)]
    cases ht : m.uvTriangles with
    | none => simp
    | some t =>
      simp only [hm]
      cases hi : indicesInsideArray t d.length with
      | none => simpa using indicesInsideArray_none.mp hi
      | some i =>
        have := indicesInsideArray_some hi
        simp only [reduceCtorEq, Option.some.injEq, forall_eq', exists_eq_left', false_iff, not_forall]
        exact ⟨i, this.1, by omega⟩

theorem verifyUvs_some {fo : FloatOps} {m : Mesh fo.F} {e : Integrity fo.F}
    (h : ∀ l, m.uvs = some l → l.length < 2 ^ 32) (he : verifyUvs fo m = some e) :
    partOf e = .uvs ∧ Accurate fo m e := by
  unfold verifyUvs at he
  cases hv : m.uvs with
  | none =>
    rw [hv] at he
    simp only at he
    split_ifs at he with ht
    cases he
    exact ⟨rfl, hv, Option.isSome_iff_ne_none.mp ht⟩
  | some d =>
    have hm := Nat.mod_eq_of_lt (h d hv)
    rw [hv] at he
    simp only [hm] at he
    cases hl : uvLoop fo d with
    | some e' =>
      rw [hl] at he
      cases he
      have key : ∀ l : List (Vec2 fo.F), uvLoop fo l = some e → ∃ p ∈ l, e = .uvOutsideRange p.1 p.2 ∧ ¬ InUnit fo p.1 := by
        intro l
        induction l with
        | nil => intro h; cases h
        | cons p l ih =>
          intro h
          rw [uvLoop] at h
          split_ifs at h with hc
          · cases h
            refine ⟨p, List.mem_cons_self, rfl, fun hi => ?_⟩
            simp only [Bool.and_eq_true] at hc
            rw [show fo.lt p.1 fo.zero = false from hi.1] at hc
            exact absurd hc.1.1.1 (by simp)
          · obtain ⟨q, hq, r⟩ := ih h
            exact ⟨q, List.mem_cons_of_mem _ hq, r⟩
      obtain ⟨p, hp, rfl, hn⟩ := key d hl
      exact ⟨rfl, d, hv, hp, hn⟩
    | none =>
      rw [hl] at he
      simp only at he
      cases ht : m.uvTriangles with
      | none => rw [ht] at he; cases he
      | some t =>
        rw [ht] at he
        simp only at he
        cases hi : indicesInsideArray t d.length with
        | none => rw [hi] at he; cases he
        | some i =>
          rw [hi] at he
          cases he
          exact ⟨rfl, d, t, hv, ht, rfl, indicesInsideArray_some hi⟩

/-- The errors found. -/
def foundErrors (fo : FloatOps) (m : Mesh fo.F) : List (Integrity fo.F) :=
  (verifyVertices m).toList ++ (verifyNormals fo m).toList ++ (verifyUvs fo m).toList

theorem verify_ok {fo : FloatOps} {m : Mesh fo.F} : m.verify fo = .ok () ↔ foundErrors fo m = [] := by
  unfold Mesh.verify
  change (match foundErrors fo m with | [] => _ | [e] => _ | es => _) = _ ↔ _
  cases h : foundErrors fo m with
  | nil => simp
  | cons e es => cases es <;> simp

theorem verify_err {fo : FloatOps} {m : Mesh fo.F} {s : IntegrityStatus fo.F} (h : m.verify fo = .err s) :
    reported s = foundErrors fo m := by
  unfold Mesh.verify at h
  change (match foundErrors fo m with | [] => _ | [e] => _ | es => _) = _ at h
  cases he : foundErrors fo m with
  | nil => rw [he] at h; cases h
  | cons e es =>
    rw [he] at h
    cases es with
    | nil => cases h; rfl
    | cons e' es => cases h; rfl

theorem foundErrors_nil {fo : FloatOps} {m : Mesh fo.F} :
    foundErrors fo m = [] ↔ verifyVertices m = none ∧ verifyNormals fo m = none ∧ verifyUvs fo m = none := by
  unfold foundErrors
  cases verifyVertices m <;> cases verifyNormals fo m <;> cases verifyUvs fo m <;> simp

theorem parts_nodup {F : Type} {a b c : Option (Integrity F)} (ha : ∀ e, a = some e → partOf e = .vertices)
    (hb : ∀ e, b = some e → partOf e = .normals) (hc : ∀ e, c = some e → partOf e = .uvs) :
    ((a.toList ++ b.toList ++ c.toList).map partOf).Nodup := by
  rcases a with _ | a <;> rcases b with _ | b <;> rcases c with _ | c <;> simp_all

end Tmf
