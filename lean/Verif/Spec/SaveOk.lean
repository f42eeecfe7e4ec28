import Verif.Model.Export
import Verif.Spec.Verify
import Verif.Spec.OptVertices
/-
When saving a verified mesh works.
-/

namespace Tmf.Spec

/-- The shortest edge of the whole triangles of an index array, starting from `acc`. -/
def edgeMin (fo : FloatOps) (vs : List (Vec3 fo.F)) : List Nat → fo.F → fo.F
  | i :: j :: k :: rest, acc =>
    match vs[i]?, vs[j]?, vs[k]? with
    | some a, some b, some c =>
      edgeMin fo vs rest (fo.min acc (fo.min (distance fo a b) (fo.min (distance fo b c) (distance fo c a))))
    | _, _, _ => acc
  | _, acc => acc

/-- The shortest edge is a finite number. It is not if there are indices but no whole triangle, or
if an edge is too long for a float. -/
def EdgeFinite (fo : FloatOps) (m : Mesh fo.F) : Prop :=
  fo.isFinite (fo.lit 1 1) = true ∧
  ∀ vs t, m.vertices = some vs → m.vertexTriangles = some t → t ≠ [] → fo.isFinite (edgeMin fo vs t fo.infinity) = true

/-- Indices and maxima are `u32` values. -/
structure U32Mesh {F : Type} (m : Mesh F) : Prop where
  vertexTriangles : ∀ t, m.vertexTriangles = some t → ∀ i ∈ t, i < 2 ^ 32
  normalTriangles : ∀ t, m.normalTriangles = some t → ∀ i ∈ t, i < 2 ^ 32
  uvTriangles : ∀ t, m.uvTriangles = some t → ∀ i ∈ t, i < 2 ^ 32
  tangentTriangles : ∀ t, m.tangentTriangles = some t → ∀ i ∈ t, i < 2 ^ 32
  custom : ∀ c ∈ m.customData, ∀ l k, c.data = .index l k ∨ c.data = .integer l k → k < 2 ^ 32

/-- The vertex widths for a run of vertices are at most 30 bits. -/
def VertexWidths (fo : FloatOps) (prec : PrecisionInfo fo.F) (edge : fo.F) (l : List (Vec3 fo.F)) : Prop :=
  ∀ s, vertexBox fo l = .ok s →
    (s.precs fo prec.vertex edge).1 ≤ 30 ∧ (s.precs fo prec.vertex edge).2.1 ≤ 30 ∧ (s.precs fo prec.vertex edge).2.2 ≤ 30

/-- What debug builds need besides: no quantised value is wider than 30 bits (`(1 << bits) - 1` is
computed in `i32`), and the bit counts of the vertex splitter stay within `u8`. -/
structure WidthsFit (fo : FloatOps) (prec : PrecisionInfo fo.F) (m : Mesh fo.F) : Prop where
  normals : ∀ l, m.normals = some l → l ≠ [] → prec.normal ≤ 30
  tangents : ∀ l, m.tangents = some l → l ≠ [] → prec.tangent ≤ 30
  uvs : ∀ l, m.uvs = some l → prec.uv ≤ 30
  counts : ∀ l, m.vertices = some l → CountsFit fo l
  vertices : ∀ l, m.vertices = some l → ∀ edge, calcShortestEdge fo m.vertexTriangles m.vertices = .ok edge →
    ∀ p, p <:+: l → VertexWidths fo prec edge p
  floats : ∀ c ∈ m.customData, ∀ l p, c.data = .float l p → floatPrec fo l p ≤ 30
  colors : ∀ c ∈ m.customData, ∀ l p, c.data = .color l p → colorPrec fo p ≤ 30

end Tmf.Spec
