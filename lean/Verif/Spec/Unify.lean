import Verif.Model.Unify
import Verif.Spec.Reorder
/-
Specification of unifying index arrays.
-/

namespace Tmf.Spec

/-- Iteration orders of a hash map: every entry once. -/
def IterOrder (order : Combos → Combos) : Prop := ∀ c, (order c).Perm c

/-- What is known of a data array and its index array: in range, and `n` indices. -/
def Slot {α : Type} (n : Nat) (a : Option (List α)) (ia : Option (List Nat)) : Prop :=
  ∀ d t, a = some d → ia = some t → InRange d.length t ∧ t.length = n

/-- What the indices of a mesh array select; nothing without data or without indices. -/
def selected {α : Type} (data : Option (List α)) (indices : Option (List Nat)) : Option (List (Option α)) :=
  match data, indices with
  | some d, some t => some (lookups d t)
  | _, _ => none

/-- The data array is there, and if there are indices they are `t`. -/
def IndexedBy {α : Type} (data : Option (List α)) (indices : Option (List Nat)) (t : List Nat) : Prop :=
  data.isSome → indices.isSome → indices = some t

/-- The meshes C31 speaks about: index arrays with data are in range and have `n` entries each. -/
structure UnifyInput {F : Type} (m : Mesh F) (n : Nat) : Prop where
  vertices : Slot n m.vertices m.vertexTriangles
  normals : Slot n m.normals m.normalTriangles
  uvs : Slot n m.uvs m.uvTriangles
  tangents : Slot n m.tangents m.tangentTriangles

end Tmf.Spec
