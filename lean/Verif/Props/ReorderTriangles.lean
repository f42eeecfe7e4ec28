import Verif.Lemmas.ReorderTriangles
/-
C46: the triangle reordering stage.
-/

namespace Tmf.Props
open Spec

/-- C46. For any positive number of index arrays of one length, the stage returns as many arrays,
and there is one reordering of the triangles such that every array consists of its own triangles, each
intact, in that order. Arrays of whole triangles keep everything; of others the one or two indices
after the last whole triangle are dropped. -/
theorem C46_permutes (arrays : List (List Nat)) (n : Nat) (h0 : arrays ≠ []) (hn : ∀ a ∈ arrays, a.length = n) :
    ∃ (out : List (List Nat)) (order : List Nat), reorderTriangles arrays.length arrays = .ok out ∧ out.length = arrays.length ∧
      order.Perm (List.range (n / 3)) ∧
      ∀ (k : Nat) (a : List Nat), arrays[k]? = some a → out[k]? = some (order.flatMap (triangleOf a)) := by
  obtain ⟨x, xs, rfl⟩ := List.exists_cons_of_ne_nil h0
  have hx := hn x (by simp)
  rw [reorderTriangles.eq_def, if_neg (by simp)]
  dsimp only
  rw [if_pos (by simpa [hx] using fun a ha => hn a (by simp [ha])), hx, sortLoop_eq]
  set deltas := maxDeltas (x :: xs).length (x :: xs) n
  refine ⟨_, (List.range (n / 3)).filter (fun i => triangleDelta deltas i < 16) ++
    (List.range (n / 3)).filter (fun i => ¬ triangleDelta deltas i < 16), rfl, by simp, ?_, ?_⟩
  · have := List.filter_append_perm (fun i => decide (triangleDelta deltas i < 16)) (List.range (n / 3))
    simpa only [decide_not] using this
  · intro k a hk
    have hlt : k < (x :: xs).length := (List.getElem?_eq_some_iff.mp hk).1
    have ha : (x :: xs)[k] = a := (List.getElem?_eq_some_iff.mp hk).2
    have hlen : a.length = n := hn a (ha ▸ List.getElem_mem _)
    rw [List.getElem?_map, List.getElem?_range hlt]
    simp only [Option.map_some, List.nil_append, Option.some.injEq]
    rw [← List.map_append, ← List.flatMap_append, List.map_flatMap, List.flatMap_congr]
    intro t ht
    rw [← ha]
    refine triangleColumns_getD _ hlt ?_
    rw [ha, hlen]
    have : t < n / 3 := by
      rcases List.mem_append.mp ht with h | h <;> exact List.mem_range.mp (List.mem_filter.mp h).1
    omega

/-- Whole triangles: the order of the corners in the output is a rearrangement of the input. -/
theorem C46_same_indices (arrays : List (List Nat)) (n : Nat) (h0 : arrays ≠ []) (hn : ∀ a ∈ arrays, a.length = 3 * n) :
    ∃ out, reorderTriangles arrays.length arrays = .ok out ∧
      ∀ (k : Nat) (a : List Nat), arrays[k]? = some a → ∃ o : List Nat, out[k]? = some o ∧ o.Perm a := by
  obtain ⟨out, order, e, _, hp, h⟩ := C46_permutes arrays (3 * n) h0 hn
  refine ⟨out, e, fun k a hk => ⟨_, h k a hk, ?_⟩⟩
  rw [show 3 * n / 3 = n by omega] at hp
  refine (hp.flatMap_right _).trans (List.Perm.of_eq ?_)
  rw [flatMap_triangleOf, List.take_of_length_le (Nat.le_of_eq (hn a (List.mem_of_getElem? hk)))]

/-- A far triangle between two near ones moves to the end, in both arrays. -/
example : reorderTriangles 2 [[0, 1, 2, 100, 101, 102, 101, 102, 103], [0, 0, 0, 1, 1, 1, 2, 2, 2]] =
    .ok [[0, 1, 2, 101, 102, 103, 100, 101, 102], [0, 0, 0, 2, 2, 2, 1, 1, 1]] := by decide

/-- Arrays of different lengths are rejected by an assertion. -/
theorem C46_unequal_lengths (arrays : List (List Nat)) (a b : List Nat) (ha : a ∈ arrays) (hb : b ∈ arrays)
    (h : a.length ≠ b.length) : reorderTriangles arrays.length arrays = .panic := by
  rw [reorderTriangles.eq_def, if_neg (by simp)]
  cases arrays with
  | nil => rfl
  | cons x xs =>
    dsimp only
    rw [if_neg]
    intro hall
    simp only [List.all_eq_true, beq_iff_eq] at hall
    exact h ((hall a ha).trans (hall b hb).symm)

example : reorderTriangles 2 [[0, 1, 2], [0]] = .panic := C46_unequal_lengths _ [0, 1, 2] [0] (by simp) (by simp) (by simp)

end Tmf.Props
