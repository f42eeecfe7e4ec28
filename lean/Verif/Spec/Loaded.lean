import Verif.Spec.Normals
import Verif.Spec.FileFormat
import Verif.Model.Mesh
/-
C61: what holds of everything a file can load as.
-/

namespace Tmf.Spec
open Ieee

/-- The largest of the numbers, or 0 if there are none. -/
structure IsLargest (l : List Nat) (m : Nat) : Prop where
  upper : ∀ i ∈ l, i ≤ m
  reached : l = [] ∧ m = 0 ∨ m ∈ l

/-- Index and integer data of u32 values that carry their largest value. -/
def SoundData {F : Type} : CustomData F → Prop
  | .index l m => (∀ i ∈ l, i < 2 ^ 32) ∧ IsLargest l m
  | .integer l m => (∀ i ∈ l, i < 2 ^ 32) ∧ IsLargest l m
  | .float _ _ => True
  | .color _ _ => True

/-- The index arrays of a mesh. -/
def IndexArray {F : Type} (m : Mesh F) (l : List Nat) : Prop :=
  m.vertexTriangles = some l ∨ m.normalTriangles = some l ∨ m.uvTriangles = some l ∨ m.tangentTriangles = some l

/-- A mesh with a name that is text, u32 indices, and custom data with names of at most 255 bytes and
true maxima. -/
structure Sound {F : Type} (m : Mesh F) (name : List UInt8) : Prop where
  nameLength : name.length < 2 ^ 16
  nameText : IsText name
  indices : ∀ l, IndexArray m l → ∀ i ∈ l, i < 2 ^ 32
  customName : ∀ c ∈ m.customData, c.name.length < 256
  customData : ∀ c ∈ m.customData, SoundData c.data

/-- A corner of the cube, what normals stored in no bits are read as. -/
def CubeCorner (w : Vec3 (Val b32)) : Prop := |valueOf w.1| = 1 ∧ |valueOf w.2.1| = 1 ∧ |valueOf w.2.2| = 1

/-- The numbers of a mesh are in the ranges of their kind: uv coordinates in [0,1], normals and
tangents unit vectors (or corners of the cube), handedness 1 or -1, channels of colours in [0,1] or
NaN. -/
structure NumbersInRange (m : Mesh (Val b32)) : Prop where
  uvs : ∀ l, m.uvs = some l → ∀ uv ∈ l, UnitValue uv.1 ∧ UnitValue uv.2
  normals : ∀ l, m.normals = some l → ∀ n ∈ l, UnitDecoded n ∨ CubeCorner n
  tangents : ∀ l, m.tangents = some l → ∀ t ∈ l, UnitDecoded t.1 ∨ CubeCorner t.1
  hands : ∀ l, m.tangents = some l → ∀ t ∈ l, |valueOf t.2| = 1
  colors : ∀ c ∈ m.customData, ∀ l p, c.data = .color l p → ∀ x ∈ l,
    (UnitValue x.1 ∧ UnitValue x.2.1 ∧ UnitValue x.2.2.1 ∧ UnitValue x.2.2.2) ∨
    (x = (.nan, .nan, .nan, .nan))

end Tmf.Spec
