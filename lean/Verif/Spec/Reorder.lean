import Verif.Model.Mesh
/-
Specification of reordering, pruning and unifying indexed data.
-/

namespace Tmf.Spec

/-- The distinct entries of a list, in order of first occurrence. -/
def firstUses {κ : Type} [DecidableEq κ] (l : List κ) : List κ :=
  l.foldl (fun seen i => if i ∈ seen then seen else seen ++ [i]) []

/-- What an index array selects from a data array: entry `k` is the element named by index `k`,
or `none` if that index is outside. -/
def lookups {α : Type} (data : List α) (indices : List Nat) : List (Option α) :=
  indices.map (fun i => data[i]?)

/-- Indices fit in `u32` (they are `u32` values) and are inside the data array. -/
def InRange (n : Nat) (indices : List Nat) : Prop :=
  ∀ i ∈ indices, i < n ∧ i < 2 ^ 32

/-- The data and index array of a mesh, if both are there, are in range. -/
def PairInRange {α : Type} (data : Option (List α)) (indices : Option (List Nat)) : Prop :=
  ∀ d t, data = some d → indices = some t → InRange d.length t

/-- What reordering should do to a data array and its index array. -/
structure Reordered {α : Type} (data : List α) (indices : List Nat) (data' : List α) (indices' : List Nat) : Prop where
  /-- the same elements are looked up -/
  same : lookups data' indices' = lookups data indices
  /-- every element is used -/
  used : ∀ k, k < data'.length → k ∈ indices'
  /-- elements are numbered in order of first use -/
  order : firstUses indices' = List.range data'.length
  /-- the data array does not grow -/
  shorter : data'.length ≤ data.length
  /-- indices stay inside -/
  inside : InRange data'.length indices'

/-- The same for the optional arrays of a mesh. Without data or without indices nothing changes. -/
def PairReordered {α : Type} (data : Option (List α)) (indices : Option (List Nat))
    (data' : Option (List α)) (indices' : Option (List Nat)) : Prop :=
  match data, indices with
  | some d, some t => ∃ d' t', data' = some d' ∧ indices' = some t' ∧ Reordered d t d' t'
  | d, t => data' = d ∧ indices' = t

end Tmf.Spec
