import Verif.Spec.MeshApi
import Mathlib.Tactic.Common
import Mathlib.Data.List.Induction
/-
Lemmas about the plain mesh API.
-/

namespace Tmf
open Spec
variable {F : Type}

theorem getArr_perform (m : Mesh F) (c : MeshCall F) (a : ArrayName) :
    getArr (perform m c) a = if e : c.array = a then
      (match (e ▸ c.call : ArrayCall (a.Elem F)) with
        | .set l => some l
        | .append l => some ((getArr m a).getD [] ++ l)) else getArr m a := by
  obtain ⟨a', call⟩ := c
  obtain ⟨x1, x2, x3, x4, x5, x6, x7, x8, x9⟩ := m
  by_cases e : a' = a
  · subst e
    rw [dif_pos rfl]
    cases call with
    | set l => cases a' <;> rfl
    | append l =>
      cases a'
      · cases x3 <;> rfl
      · cases x1 <;> rfl
      · cases x7 <;> rfl
      · cases x5 <;> rfl
      · cases x4 <;> rfl
      · cases x2 <;> rfl
      · cases x6 <;> rfl
      · cases x8 <;> rfl
  · rw [dif_neg e]
    cases call with
    | set l => cases a' <;> cases a <;> first | (exact absurd rfl e) | rfl
    | append l =>
      cases a'
      · cases x3 <;> cases a <;> first | (exact absurd rfl e) | rfl
      · cases x1 <;> cases a <;> first | (exact absurd rfl e) | rfl
      · cases x7 <;> cases a <;> first | (exact absurd rfl e) | rfl
      · cases x5 <;> cases a <;> first | (exact absurd rfl e) | rfl
      · cases x4 <;> cases a <;> first | (exact absurd rfl e) | rfl
      · cases x2 <;> cases a <;> first | (exact absurd rfl e) | rfl
      · cases x6 <;> cases a <;> first | (exact absurd rfl e) | rfl
      · cases x8 <;> cases a <;> first | (exact absurd rfl e) | rfl

theorem bufferLoop_spec {α : Type} (data : List α) : ∀ (t : List Nat) (acc : List α),
    (∀ l, Mesh.bufferLoop data t acc = some l → (∀ i ∈ t, i < data.length) ∧
      ∃ r, l = acc ++ r ∧ r.length = t.length ∧ ∀ (k i : Nat), t[k]? = some i → r[k]? = data[i]?) ∧
    (Mesh.bufferLoop data t acc = none → ∃ i ∈ t, data.length ≤ i)
  | [], acc => by simp [Mesh.bufferLoop]
  | i :: t, acc => by
    rw [Mesh.bufferLoop]
    cases hd : data[i]? with
    | none =>
      dsimp only
      exact ⟨by simp, fun _ => ⟨i, by simp, List.getElem?_eq_none_iff.mp hd⟩⟩
    | some x =>
      dsimp only
      obtain ⟨h1, h2⟩ := bufferLoop_spec data t (acc ++ [x])
      have hi : i < data.length := (List.getElem?_eq_some_iff.mp hd).1
      constructor
      · intro l hl
        obtain ⟨g1, r, rfl, g3, g4⟩ := h1 l hl
        refine ⟨?_, x :: r, by simp, by simp [g3], ?_⟩
        · intro j hj
          rcases List.mem_cons.mp hj with rfl | hj
          · exact hi
          · exact g1 j hj
        · intro k j hk
          cases k with
          | zero => simp at hk; subst hk; simp [hd]
          | succ k => simp at hk; simpa using g4 k j hk
      · intro hn
        obtain ⟨j, hj, h⟩ := h2 hn
        exact ⟨j, by simp [hj], h⟩

theorem isBuffer_of_loop {α : Type} (data : Option (List α)) (t : Option (List Nat)) (buf : Option (List α))
    (h : buf = data.bind fun d => t.bind fun t => Mesh.bufferLoop d t []) : IsBuffer data t buf := by
  subst h
  cases data with
  | none => exact ⟨by simp, by simp⟩
  | some d =>
    cases t with
    | none => exact ⟨by simp, by simp⟩
    | some t =>
      obtain ⟨h1, h2⟩ := bufferLoop_spec d t []
      simp only [Option.bind_some]
      constructor
      · constructor
        · intro hs
          obtain ⟨l, hl⟩ := Option.isSome_iff_exists.mp hs
          exact ⟨d, t, rfl, rfl, (h1 l hl).1⟩
        · rintro ⟨d', t', hd, ht, hall⟩
          cases hd; cases ht
          cases hb : Mesh.bufferLoop d t [] with
          | some l => rfl
          | none =>
            obtain ⟨i, hi, h⟩ := h2 hb
            have := hall i hi
            omega
      · intro d' t' l hd ht hl
        cases hd; cases ht
        obtain ⟨_, r, rfl, g⟩ := h1 l hl
        simpa using g

theorem lookupLoop_append (name : List UInt8) (l1 l2 : List (CustomSeg F)) :
    Mesh.lookupLoop name (l1 ++ l2) = (Mesh.lookupLoop name l1).or (Mesh.lookupLoop name l2) := by
  induction l1 with
  | nil => simp [Mesh.lookupLoop]
  | cons s l1 ih =>
    rw [List.cons_append, Mesh.lookupLoop, Mesh.lookupLoop]
    split
    · simp
    · exact ih

end Tmf
