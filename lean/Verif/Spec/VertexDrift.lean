import Verif.Spec.Box
import Verif.Spec.EndToEnd
import Verif.Spec.AnyBuild
import Verif.Model.Export
import Verif.Model.Import
/-
Saving and loading the same meshes again and again.
-/

namespace Tmf.Spec
open Ieee

/-- One cycle: the meshes are written to a file by a build `b`, and `meshes'` read from it by a build `b'`, whatever the sizes of the reads. -/
def FileCycle (fo : FloatOps) (fb : F64Bytes fo) (b b' : Build) (prec : PrecisionInfo fo.F) (meshes meshes' : List (Mesh fo.F × List UInt8)) : Prop :=
  ∃ bytes, tmfBytes fo fb b prec meshes = .ok bytes ∧ ∀ sched, readTmf fo fb b' ⟨bytes, sched, false⟩ = .ok meshes'

/-- `k` cycles lead from `meshes` to `meshes'`. -/
inductive FileCycles (fo : FloatOps) (fb : F64Bytes fo) (b b' : Build) (prec : PrecisionInfo fo.F) :
    Nat → List (Mesh fo.F × List UInt8) → List (Mesh fo.F × List UInt8) → Prop
  | none (l : List (Mesh fo.F × List UInt8)) : FileCycles fo fb b b' prec 0 l l
  | more {k : Nat} {l l' l'' : List (Mesh fo.F × List UInt8)} :
      FileCycles fo fb b b' prec k l l' → FileCycle fo fb b b' prec l' l'' → FileCycles fo fb b b' prec (k + 1) l l''

/-- Custom data made of whole numbers: indices or integers, but no fractions and no colours. -/
def WholeNumbers {F : Type} (m : Mesh F) : Prop := ∀ c ∈ m.customData, (∃ l n, c.data = .index l n) ∨ ∃ l n, c.data = .integer l n

/-- An array of whole numbers with its name and its numbers, in which the largest number is stated no larger than before. -/
inductive KeptWhole {F : Type} : CustomSeg F → CustomSeg F → Prop
  | index (name : List UInt8) (l : List Nat) (n n' : Nat) (h : ∀ i ∈ l, i ≤ n') (hn : n' ≤ n) : KeptWhole ⟨name, .index l n⟩ ⟨name, .index l n'⟩
  | integer (name : List UInt8) (l : List Nat) (n n' : Nat) (h : ∀ i ∈ l, i ≤ n') (hn : n' ≤ n) : KeptWhole ⟨name, .integer l n⟩ ⟨name, .integer l n'⟩

/-- A list that was turned round `k` times. -/
def turnedRound {α : Type} (k : Nat) (l : List α) : List α := if k % 2 = 0 then l else l.reverse

/-- A mesh without triangles between its vertices, with whole numbers as custom data, whose coordinates are between `-M` and `M`. -/
structure PointCloud (M : ℚ) (m : Mesh (Val b32)) : Prop where
  faces : m.vertexTriangles = none ∨ m.vertexTriangles = some []
  custom : WholeNumbers m
  inner : ∀ l, m.vertices = some l → ∀ v ∈ l, VecWithin M v

/-- By how much a cube with these bounds may grow in one cycle. -/
def swell (lo hi : ℚ) : ℚ := Max.max |lo| |hi| / 2 ^ 19 + 1 / 2 ^ 147

/-- What is left of a named mesh after `k` cycles: the name, the index arrays, the sizes of the arrays, the custom data, in turned order after
an odd number of cycles, and the cubes the vertices lie in, up to `k` times the growth of one cycle. -/
structure Aged (k : Nat) (mn mn' : Mesh (Val b32) × List UInt8) : Prop where
  name : mn'.2 = mn.2
  indices : SameIndices mn.1 mn'.1
  sizes : SameSizes mn.1 mn'.1
  custom : List.Forall₂ KeptWhole (turnedRound k mn.1.customData) mn'.1.customData
  inner : ∀ l l', mn.1.vertices = some l → mn'.1.vertices = some l' → ∀ lo hi, (∀ v ∈ l, InCube lo hi v) →
    ∀ v ∈ l', InCube (lo - k * swell lo hi) (hi + k * swell lo hi) v

end Tmf.Spec
