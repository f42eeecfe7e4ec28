import Verif.Model.CustomApi
import Verif.Spec.CustomPrecision
import Verif.Spec.Loaded
import Verif.Spec.MeshApi
/-
C63: custom data handed to `add_custom_data` as a slice or made by a constructor, and what the accessors should answer after
the mesh was saved and loaded.
-/

namespace Tmf.Spec
open Ieee

/-- What a user can turn into custom data: a slice, or a list of numbers with the largest to expect, for
`CustomData::new_index` or `new_intiger`. -/
inductive Slice (F : Type) where
  | indices (l : List Nat)
  | indicesUpTo (l : List Nat) (largest : Option Nat)
  | integersUpTo (l : List Nat) (largest : Option Nat)
  | floats (l : List F)
  | colors (l : List (Vec4 F))

/-- The call of `into()` on the slice, or of the constructor. -/
def Slice.into (fo : FloatOps) : Slice fo.F → CustomData fo.F
  | .indices l => CustomData.fromIndices l
  | .indicesUpTo l m => CustomData.newIndex l m
  | .integersUpTo l m => CustomData.newInteger l m
  | .floats l => CustomData.fromFloats fo l
  | .colors l => CustomData.fromColors fo l

/-- The mesh after one `add_custom_data(slice.into(), name)` after the other; calls that return an
error are ignored. -/
def addSlices (fo : FloatOps) (m : Mesh fo.F) (adds : List (Slice fo.F × List UInt8)) : Mesh fo.F :=
  addAll m (adds.map fun p => (p.1.into fo, p.2))

/-- Numbers no larger than announced, inside the limits of the format. -/
def NumbersFit (l : List Nat) (largest : Option Nat) : Prop :=
  l.length ≤ 2 ^ 31 ∧ (∀ i ∈ l, i < 2 ^ 31) ∧ ∀ m, largest = some m → m < 2 ^ 31 ∧ ∀ i ∈ l, i ≤ m

/-- A slice inside the limits of the format. -/
def SliceFits {F : Type} : Slice F → Prop
  | .indices l => NumbersFit l none
  | .indicesUpTo l m => NumbersFit l m
  | .integersUpTo l m => NumbersFit l m
  | .floats l => l.length ≤ 2 ^ 31
  | .colors l => l.length ≤ 2 ^ 31

/-- What the accessors should answer: only the one of the right kind answers. Indices and
integers are unchanged and their largest is known, whatever largest was announced. Floats are within `1/49` of the original, and within `1/98` if their range
is at least 1; to this comes the rounding of the largest of them. Colours are less than `1/98` below
the original. -/
inductive Answers : Slice (Val b32) → CustomData (Val b32) → Prop where
  | indices (l : List Nat) (m : Nat) (d : CustomData (Val b32)) (h : d.asIndex = some (l, m)) (hm : IsLargest l m)
      (h2 : d.asInteger = none) (h3 : d.asFloat = none) (h4 : d.asColor = none) : Answers (.indices l) d
  | indicesUpTo (l : List Nat) (k : Option Nat) (m : Nat) (d : CustomData (Val b32)) (h : d.asIndex = some (l, m))
      (hm : IsLargest l m) (h2 : d.asInteger = none) (h3 : d.asFloat = none) (h4 : d.asColor = none) : Answers (.indicesUpTo l k) d
  | integersUpTo (l : List Nat) (k : Option Nat) (m : Nat) (d : CustomData (Val b32)) (h : d.asInteger = some (l, m))
      (hm : IsLargest l m) (h2 : d.asIndex = none) (h3 : d.asFloat = none) (h4 : d.asColor = none) : Answers (.integersUpTo l k) d
  | floats (l l' : List (Val b32)) (p : Val b32) (d : CustomData (Val b32)) (h : d.asFloat = some (l', p))
      (hl : l'.length = l.length)
      (hv : ∀ lo hi, Extent l lo hi → lo < hi → hi - lo ≤ 2 ^ 16 → |lo| ≤ 2 ^ 120 → |hi| ≤ 2 ^ 120 →
        List.Forall₂ (Within (1 / 49 + Max.max |lo| |hi| / 2 ^ 19)) l l' ∧
        (1 ≤ hi - lo → List.Forall₂ (Within (1 / 98 + Max.max |lo| |hi| / 2 ^ 19)) l l'))
      (h2 : d.asIndex = none) (h3 : d.asInteger = none) (h4 : d.asColor = none) : Answers (.floats l) d
  | colors (l l' : List (Vec4 (Val b32))) (p : Val b32) (d : CustomData (Val b32)) (h : d.asColor = some (l', p))
      (hl : l'.length = l.length)
      (hv : (∀ c ∈ l, UnitValue c.1 ∧ UnitValue c.2.1 ∧ UnitValue c.2.2.1 ∧ UnitValue c.2.2.2) →
        List.Forall₂ (fun c c' => Below (1 / 98) c.1 c'.1 ∧ Below (1 / 98) c.2.1 c'.2.1 ∧
          Below (1 / 98) c.2.2.1 c'.2.2.1 ∧ Below (1 / 98) c.2.2.2 c'.2.2.2) l l')
      (h2 : d.asIndex = none) (h3 : d.asInteger = none) (h4 : d.asFloat = none) : Answers (.colors l) d

end Tmf.Spec
