import Verif.Model.ReorderTriangles
import Verif.Spec.ReorderTriangles
import Mathlib.Data.List.Perm.Basic
/-
Lemmas about triangle reordering.
-/

namespace Tmf
open Spec

theorem sortLoop_eq (arrays : List (List Nat)) (deltas : List Nat) : ∀ (is : List Nat) (s r : List (List Nat)),
    sortLoop arrays deltas is s r =
      (s ++ (is.filter (fun i => triangleDelta deltas i < 16)).flatMap (triangleColumns arrays),
       r ++ (is.filter (fun i => ¬ triangleDelta deltas i < 16)).flatMap (triangleColumns arrays)) := by
  intro is
  induction is with
  | nil => intro s r; simp [sortLoop]
  | cons i is ih =>
    intro s r
    rw [sortLoop]
    split
    · next h => rw [ih]; simp [h]
    · next h => rw [ih]; simp [h, Nat.not_lt.mp h]

theorem triangleColumns_getD (arrays : List (List Nat)) {k t : Nat} (hk : k < arrays.length)
    (ht : 3 * t + 2 < arrays[k].length) :
    (triangleColumns arrays t).map (·.getD k 0) = triangleOf arrays[k] t := by
  have h : ∀ i, i < arrays[k].length → (column arrays i).getD k 0 = arrays[k].getD i 0 := by
    intro i _; simp [column, List.getD_eq_getElem?_getD, List.getElem?_map, List.getElem?_eq_getElem hk]
  have hd : ∀ i, (hi : i < arrays[k].length) → arrays[k].getD i 0 = arrays[k][i] := by
    intro i hi; rw [List.getD_eq_getElem?_getD, List.getElem?_eq_getElem hi]; rfl
  simp only [triangleColumns, triangleOf, List.map_cons, List.map_nil, Nat.mul_comm 3 t]
  rw [h _ (by omega), h _ (by omega), h _ (by omega), hd _ (by omega), hd _ (by omega), hd _ (by omega),
    List.drop_eq_getElem_cons (by omega), List.drop_eq_getElem_cons (by omega), List.drop_eq_getElem_cons (by omega)]
  rfl

theorem flatMap_triangleOf (l : List Nat) (n : Nat) : (List.range n).flatMap (triangleOf l) = l.take (3 * n) := by
  induction n with
  | zero => simp
  | succ n ih =>
    rw [List.range_succ, List.flatMap_append, ih, Nat.mul_succ, List.take_add]
    simp [triangleOf]

end Tmf
