import Mathlib.Data.List.Forall2
import Verif.Spec.AnyBuild
import Verif.Spec.CustomPrecision
import Verif.Spec.Edges
import Verif.Spec.FileSize
import Verif.Spec.Normals
import Verif.Spec.OptVertices
/-
Which meshes can be saved and loaded, in terms of what is in them, and what comes back.
-/

namespace Tmf.Spec
open Ieee

/-- Finite coordinates between `-M` and `M`. -/
def VecWithin (M : ℚ) (v : Vec3 (Val b32)) : Prop :=
  (isFinite v.1 = true ∧ isFinite v.2.1 = true ∧ isFinite v.2.2 = true) ∧
    |valueOf v.1| ≤ M ∧ |valueOf v.2.1| ≤ M ∧ |valueOf v.2.2| ≤ M

/-- Vertices whose coordinates take at most `k` bits at precision `P`: the coordinates are between `-M`
and `M`, indices point to vertices, no edge of a triangle is shorter than `δ`, and steps of `δ P` divide
four times `M` into fewer than `2^k` parts. -/
structure SensibleVertices (k : Nat) (P M δ : ℚ) (vs : List (Vec3 (Val b32))) (tris : Option (List Nat)) : Prop where
  some : vs ≠ []
  size : M ≤ 2 ^ 58
  inner : ∀ v ∈ vs, VecWithin M v
  least : 1 / 2 ^ 39 ≤ δ
  most : δ ≤ 1 / 10
  whole : ∀ t, tris = .some t → t ≠ [] → 3 ≤ t.length
  used : ∀ t, tris = .some t → ∀ i ∈ t, i < vs.length
  edges : ∀ t, tris = .some t → ∀ i j a c, IsEdge t i j → vs[i]? = .some a → vs[j]? = .some c → (δ : ℝ) ≤ chord a c
  bits : 4 * M + 1 / 2 ^ 18 ≤ 2 ^ k * (δ * P)

/-- Custom data within its promises: indices up to the declared maximum, floats that are not all alike
and cover at most `2^23` times the precision, colours between 0 and 1 with a precision that is not
absurd. -/
inductive SensibleCustom : CustomSeg (Val b32) → Prop
  | index (name : List UInt8) (l : List Nat) (m : Nat) (hn : name.length < 256) (hi : ∀ i ∈ l, i ≤ m) (hm : m < 2 ^ 31) :
      SensibleCustom ⟨name, .index l m⟩
  | integer (name : List UInt8) (l : List Nat) (m : Nat) (hn : name.length < 256) (hi : ∀ i ∈ l, i ≤ m) (hm : m < 2 ^ 31) :
      SensibleCustom ⟨name, .integer l m⟩
  | float (name : List UInt8) (l : List (Val b32)) (p : Val b32) (lo hi : ℚ) (hn : name.length < 256) (he : Extent l lo hi)
      (hlt : lo < hi) (hlo : |lo| ≤ 2 ^ 120) (hhi : |hi| ≤ 2 ^ 120) (hf : isFinite p = true) (h0 : 0 < valueOf p)
      (hm : (hi - lo) / valueOf p ≤ 2 ^ 23) : SensibleCustom ⟨name, .float l p⟩
  | color (name : List UInt8) (l : List (Vec4 (Val b32))) (p : Val b32) (hn : name.length < 256) (hf : isFinite p = true)
      (h0 : 1 / 2 ^ 23 ≤ valueOf p) (h1 : valueOf p ≤ 1 / 2)
      (hu : ∀ c ∈ l, UnitValue c.1 ∧ UnitValue c.2.1 ∧ UnitValue c.2.2.1 ∧ UnitValue c.2.2.2) :
      SensibleCustom ⟨name, .color l p⟩

/-- Indices below `2^31`. -/
def SmallIndices (o : Option (List Nat)) : Prop := ∀ l, o = some l → ∀ i ∈ l, i < 2 ^ 31

/-- A mesh that can be saved. -/
structure SaveableMesh (k : Nat) (P : ℚ) (m : Mesh (Val b32)) : Prop where
  vertices : ∀ l, m.vertices = some l → ∃ M δ, SensibleVertices k P M δ l m.vertexTriangles
  vertexTriangles : SmallIndices m.vertexTriangles
  normalTriangles : SmallIndices m.normalTriangles
  uvTriangles : SmallIndices m.uvTriangles
  tangentTriangles : SmallIndices m.tangentTriangles
  custom : ∀ c ∈ m.customData, SensibleCustom c
  segments : segmentBound m < 2 ^ 16

/-- Meshes and settings that can be saved, with at most `k` bits for each coordinate of a vertex. -/
structure Saveable (k : Nat) (prec : PrecisionInfo (Val b32)) (meshes : List (Mesh (Val b32) × List UInt8)) : Prop where
  finite : isFinite prec.vertex = true
  vertex : valueOf prec.vertex ≤ 2 ^ 20
  normal : prec.normal ≤ 30
  uv : prec.uv ≤ 30
  tangent : prec.tangent ≤ 30
  names : ∀ mn ∈ meshes, NameOk mn.2
  mesh : ∀ mn ∈ meshes, SaveableMesh k (valueOf prec.vertex) mn.1
  size : 15 + (meshes.map meshSizeBound).sum ≤ 2 ^ 31

/-- A mesh whose normals, tangents and uv coordinates mean something. With 25 bits or more, vectors along an axis and
uv coordinates equal to 1 are left out: those are not kept. -/
structure Meaningful (prec : PrecisionInfo (Val b32)) (m : Mesh (Val b32)) : Prop where
  normals : ∀ l, m.normals = some l → ∀ n ∈ l, UnitNormal n ∧ (25 ≤ prec.normal → OffAxes n)
  tangents : ∀ l, m.tangents = some l → ∀ t ∈ l, UnitNormal t.1 ∧ (25 ≤ prec.tangent → OffAxes t.1)
  uvs : ∀ l, m.uvs = some l → ∀ uv ∈ l, Storable prec.uv uv.1 ∧ Storable prec.uv uv.2

/-- Meshes and settings for which the accuracy is known, with at most `k` bits for each coordinate of a vertex. -/
structure Sensible (k : Nat) (prec : PrecisionInfo (Val b32)) (meshes : List (Mesh (Val b32) × List UInt8)) : Prop where
  saveable : Saveable k prec meshes
  vertex : 1 / 2 ^ 20 ≤ valueOf prec.vertex
  normal : 1 ≤ prec.normal
  uv : 1 ≤ prec.uv
  tangent : 1 ≤ prec.tangent
  meaningful : ∀ mn ∈ meshes, Meaningful prec mn.1

/-- The length of an edge, or the default 1/10 where there are no triangles. -/
def EdgeLength (vs : List (Vec3 (Val b32))) (tris : Option (List Nat)) (L : ℝ) : Prop :=
  (∃ t i j a c, tris = some t ∧ IsEdge t i j ∧ vs[i]? = some a ∧ vs[j]? = some c ∧ L = chord a c) ∨
    ((tris = none ∨ tris = some []) ∧ L = 1 / 10)

/-- How far a coordinate of a saved vertex may be off at precision `P` in a mesh with an edge of length
`L`. -/
noncomputable def vertexError (P M : ℚ) (L : ℝ) : ℝ := 2 * (P * L) * (1 + 1 / 2 ^ 14) + 2 / 10 ^ 6 + M / 2 ^ 18

/-- The x of `v` is not above all x before the last vertex and all y: the box the code computes reaches up to it. This holds
for all but the last vertex. -/
def XReached (p : List (Vec3 (Val b32))) (v : Vec3 (Val b32)) : Prop :=
  (∃ w ∈ p.dropLast, valueOf v.1 ≤ valueOf w.1) ∨ ∃ w ∈ p, valueOf v.1 ≤ valueOf w.2.1

/-- The y of `v` is not below all y before the last vertex and all z: the box the code computes reaches down to it. This holds
for all but the last vertex. -/
def YReached (p : List (Vec3 (Val b32))) (v : Vec3 (Val b32)) : Prop :=
  (∃ w ∈ p.dropLast, valueOf w.2.1 ≤ valueOf v.2.1) ∨ ∃ w ∈ p, valueOf w.2.2 ≤ valueOf v.2.1

/-- No z is above all x and y, and the box reaches down to every y. (The width for z is computed from bounds that mix the
coordinates.) -/
def ZCovered (p : List (Vec3 (Val b32))) : Prop :=
  (∀ v ∈ p, ∃ w ∈ p, valueOf v.2.2 ≤ valueOf w.1 ∨ valueOf v.2.2 ≤ valueOf w.2.1) ∧ ∀ v ∈ p, YReached p v

/-- With more than 24 bits, a coordinate `c` must not be the greatest: another vertex of the run, not the last one, is
further up by `g`. (At the upper end of the box the value written can take one bit too many.) -/
def Topped (k : Nat) (g : ℚ) (p : List (Vec3 (Val b32))) (c : Vec3 (Val b32) → Val b32) (v : Vec3 (Val b32)) : Prop :=
  k ≤ 24 ∨ ∃ w ∈ p.dropLast, valueOf (c v) + g ≤ valueOf (c w)

/-- A run of vertices between `-M` and `M` and what comes back for it when coordinates take at most `k` bits: every
coordinate the box reaches is near the original. -/
structure RunNear (k : Nat) (M : ℚ) (d : ℝ) (p p' : List (Vec3 (Val b32))) : Prop where
  length : p'.length = p.length
  near : ∀ (i : Nat) v v', p[i]? = some v → p'[i]? = some v' →
    (Topped k (M / 2 ^ 20) p (·.1) v → XReached p v → |realOf v'.1 - realOf v.1| ≤ d) ∧
    (Topped k (M / 2 ^ 20) p (·.2.1) v → YReached p v → |realOf v'.2.1 - realOf v.2.1| ≤ d) ∧
    (Topped k (M / 2 ^ 20) p (·.2.2) v → ZCovered p → |realOf v'.2.2 - realOf v.2.2| ≤ d)

/-- Custom data and what comes back: indices exactly, floats within twice the precision `p`, colours at
most `p / (1 - p)` below, each with a stated rounding. -/
inductive CloseCustom : CustomData (Val b32) → CustomData (Val b32) → Prop
  | index (l : List Nat) (m m' : Nat) : CloseCustom (.index l m) (.index l m')
  | integer (l : List Nat) (m m' : Nat) : CloseCustom (.integer l m) (.integer l m')
  | float (l l' : List (Val b32)) (p p' : Val b32) (h : ∀ lo hi d, Extent l lo hi → d = valueOf p * (1 + 1 / 2 ^ 16) →
      List.Forall₂ (Within (2 * d + Max.max |lo| |hi| / 2 ^ 19 + 1 / 2 ^ 148)) l l') : CloseCustom (.float l p) (.float l' p')
  | color (l l' : List (Vec4 (Val b32))) (p p' : Val b32) (h : ∀ d, d = valueOf p * (1 + 1 / 2 ^ 16) →
      List.Forall₂ (fun c c' => Below (d / (1 - d)) c.1 c'.1 ∧ Below (d / (1 - d)) c.2.1 c'.2.1 ∧
        Below (d / (1 - d)) c.2.2.1 c'.2.2.1 ∧ Below (d / (1 - d)) c.2.2.2 c'.2.2.2) l l') :
      CloseCustom (.color l p) (.color l' p')

/-- What comes back for a mesh, with its accuracy. The vertices come back in the runs `cut` makes. -/
structure Faithful (k : Nat) (cut : List (Vec3 (Val b32)) → List (List (Vec3 (Val b32))) → Prop) (prec : PrecisionInfo (Val b32))
    (m m' : Mesh (Val b32)) : Prop where
  uvs : ∀ l, m.uvs = some l → ∃ l', m'.uvs = some l' ∧
    List.Forall₂ (fun uv uv' => StepBelow prec.uv uv.1 uv'.1 ∧ StepBelow prec.uv uv.2 uv'.2) l l'
  normals : ∀ l, m.normals = some l → ∃ l', m'.normals = some l' ∧ List.Forall₂ (KeptNormal prec.normal) l l'
  tangents : ∀ l, m.tangents = some l → ∃ l', m'.tangents = some l' ∧
    List.Forall₂ (fun t t' => KeptNormal prec.tangent t.1 t'.1) l l'
  custom : List.Forall₂ (fun c c' => c'.name = c.name ∧ CloseCustom c.data c'.data) m.customData.reverse m'.customData
  vertices : ∀ l, m.vertices = some l → ∃ runs runs', cut l runs ∧ Cuts l runs ∧ m'.vertices = some runs'.flatten ∧
    ∀ M, (∀ v ∈ l, VecWithin M v) → M ≤ 2 ^ 58 → ∀ L, EdgeLength l m.vertexTriangles L →
      List.Forall₂ (RunNear k M (vertexError (valueOf prec.vertex) M L)) runs runs'

end Tmf.Spec
