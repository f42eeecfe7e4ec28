import Verif.Model.Basic
/-
Specification of faces and their triangles.
-/

namespace Tmf.Spec

/-- A corner of a face: vertex, uv and normal index. -/
structure Corner where
  vertex : Nat
  uv : Nat
  normal : Nat
deriving Repr, DecidableEq

/-- The three corners of a triangle. -/
abbrev Triangle := Corner × Corner × Corner

/-- One index of each corner of a list of triangles. -/
def triangleIndices (f : Corner → Nat) (l : List Triangle) : List Nat :=
  l.flatMap fun t => [f t.1, f t.2.1, f t.2.2]

/-- The corners of all triangles are corners of the face. -/
def CornersFrom (face : List Corner) (l : List Triangle) : Prop :=
  ∀ t ∈ l, t.1 ∈ face ∧ t.2.1 ∈ face ∧ t.2.2 ∈ face

/-- The edges of a polygon, in order. -/
def outline (face : List Corner) : List (Corner × Corner) := face.zip (face.tail ++ face.head?.toList)

/-- The edges of triangles. -/
def triangleEdges (l : List Triangle) : List (Corner × Corner) :=
  l.flatMap fun t => [(t.1, t.2.1), (t.2.1, t.2.2), (t.2.2, t.1)]

/-- How many more edges lead from `x` to `y` than back. -/
def netEdges (l : List (Corner × Corner)) (x y : Corner) : Int := (l.count (x, y) : Int) - l.count (y, x)

/-- The triangles cover the face: inner edges are used in both directions, and what is left is the outline. -/
def Covers (face : List Corner) (l : List Triangle) : Prop :=
  ∀ x y, netEdges (triangleEdges l) x y = netEdges (outline face) x y

/-- The triangles come from cutting off the corners at the given positions, one after the other, until three are left.
Each triangle is made of the corner, the next one, and the one before; for the corner at position 0 the last
one is meant, but it is the one at position `(2^64 - 1) % n` that is taken. -/
inductive CutOff : List Corner → List Nat → List Triangle → Prop
  | last (a b c : Corner) : CutOff [a, b, c] [] [(a, b, c)]
  | corner {face : List Corner} {i : Nat} {x y z : Corner} {ps : List Nat} {l : List Triangle} (h : 4 ≤ face.length)
      (hx : face[if i = 0 then (2 ^ 64 - 1) % face.length else i - 1]? = some x) (hy : face[i]? = some y)
      (hz : face[(i + 1) % face.length]? = some z) (hr : CutOff (face.eraseIdx i) ps l) : CutOff face (i :: ps) ((x, y, z) :: l)

end Tmf.Spec
