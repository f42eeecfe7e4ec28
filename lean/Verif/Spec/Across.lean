import Verif.Model.Mesh
import Verif.Spec.DoublePrecision
import Verif.Spec.FastTrig
/-
C67: how a file read without the feature `double_precision` relates to the same file read with it.
-/

namespace Tmf.Spec
open Ieee

/-- Two numbers at most 2^-22 apart. -/
structure NearValue (x : Val b32) (y : Val b64) : Prop where
  finite : isFinite x = true ∧ isFinite y = true
  near : |valueOf x - valueOf y| ≤ 1 / 2 ^ 22

/-- Arrays of which none or both are there, of the same length, with matching entries. -/
def AcrossArray {α β : Type} (R : α → β → Prop) : Option (List α) → Option (List β) → Prop
  | none, none => True
  | some l, some l' => List.Forall₂ R l l'
  | _, _ => False

/-- The f32 nearest to each channel. -/
def nearestColor (c : Vec4 (Val b64)) : Vec4 (Val b32) := (convert c.1, convert c.2.1, convert c.2.2.1, convert c.2.2.2)

/-- Custom data: indices and integers are the same, floats and channels are rounded to the nearest f32. -/
inductive AcrossCustom : CustomData (Val b32) → CustomData (Val b64) → Prop
  | index (l : List Nat) (m : Nat) : AcrossCustom (.index l m) (.index l m)
  | integer (l : List Nat) (m : Nat) : AcrossCustom (.integer l m) (.integer l m)
  | float (l : List (Val b64)) (p : Val b32) (p' : Val b64) : AcrossCustom (.float (l.map convert) p) (.float l p')
  | color (l : List (Vec4 (Val b64))) (p : Val b32) (p' : Val b64) : AcrossCustom (.color (l.map nearestColor) p) (.color l p')

/-- Two loaded meshes: the same arrays of the same lengths, the same indices, nearly the same uv
coordinates and z of normals and tangents, the same handedness, and custom data as above. -/
structure AcrossMesh (m : Mesh (Val b32)) (m' : Mesh (Val b64)) : Prop where
  vertexTriangles : m.vertexTriangles = m'.vertexTriangles
  normalTriangles : m.normalTriangles = m'.normalTriangles
  uvTriangles : m.uvTriangles = m'.uvTriangles
  tangentTriangles : m.tangentTriangles = m'.tangentTriangles
  vertices : AcrossArray (fun _ _ => True) m.vertices m'.vertices
  uvs : AcrossArray (fun u u' => NearValue u.1 u'.1 ∧ NearValue u.2 u'.2) m.uvs m'.uvs
  normals : AcrossArray (fun n n' => NearValue n.2.2 n'.2.2) m.normals m'.normals
  tangents : AcrossArray (fun t t' => NearValue t.1.2.2 t'.1.2.2 ∧ valueOf t.2 = valueOf t'.2) m.tangents m'.tangents
  customData : List.Forall₂ (fun c c' => c.name = c'.name ∧ AcrossCustom c.data c'.data) m.customData m'.customData

/-- At most one step of `p` bits and the rounding of f32 away. -/
def NearUnit (p : Nat) (x : Val b64) (y : Val b32) : Prop := isFinite y = true ∧ |valueOf y - valueOf x| ≤ 1 / (2 ^ p - 1) + 1 / 2 ^ 22

/-- At most `e` away. -/
def WithinF32 (e : ℚ) (x : Val b64) (y : Val b32) : Prop := isFinite y = true ∧ |valueOf y - valueOf x| ≤ e

/-- Custom data saved with `double_precision` and loaded without: as `KeptCustom64`, with the rounding of f32 on top. -/
inductive KeptAcross (pf : List (Val b64) → Val b64 → Nat) (pc : Val b64 → Nat) :
    CustomData (Val b64) → CustomData (Val b32) → Prop
  | index (l : List Nat) (m m' : Nat) : KeptAcross pf pc (.index l m) (.index l m')
  | integer (l : List Nat) (m m' : Nat) : KeptAcross pf pc (.integer l m) (.integer l m')
  | float (data : List (Val b64)) (data' : List (Val b32)) (p : Val b64) (p' : Val b32) (hlen : data'.length = data.length)
      (hp : 1 ≤ pf data p ∧ pf data p ≤ 30)
      (h : ∀ lo hi, Extent data lo hi → lo < hi → |lo| ≤ 2 ^ 120 → |hi| ≤ 2 ^ 120 →
        List.Forall₂ (WithinF32 ((hi - lo) / (2 ^ pf data p - 1) + Max.max |lo| |hi| / 2 ^ 22 + 1 / 2 ^ 149)) data data') :
      KeptAcross pf pc (.float data p) (.float data' p')
  | color (data : List (Vec4 (Val b64))) (data' : List (Vec4 (Val b32))) (p : Val b64) (p' : Val b32)
      (hlen : data'.length = data.length) (hp : pc p ≤ 30)
      (h : 1 ≤ pc p → (∀ c ∈ data, UnitColor c) → List.Forall₂ (fun c c' => NearUnit (pc p) c.1 c'.1 ∧ NearUnit (pc p) c.2.1 c'.2.1 ∧
        NearUnit (pc p) c.2.2.1 c'.2.2.1 ∧ NearUnit (pc p) c.2.2.2 c'.2.2.2) data data') :
      KeptAcross pf pc (.color data p) (.color data' p')

end Tmf.Spec
