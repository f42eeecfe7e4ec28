import Verif.Model.Mesh
/-
How many segments a mesh can take.
-/

namespace Tmf.Spec

/-- An array that may be cut into as many pieces as it has elements (an empty one is stored as one). -/
def mostPieces {α : Type} : Option (List α) → Nat
  | none => 0
  | some l => l.length + 1

/-- An index array is cut only where this saves more than 88 bits, so its pieces are limited by the bits of
its indices. -/
def indexPieces : Option (List Nat) → Nat
  | none => 0
  | some l => 1 + l.length * (Nat.log2 (l.foldr max 0) + 1) / 89

/-- An array that is stored in one piece. -/
def onePiece {α : Type} : Option (List α) → Nat
  | none => 0
  | some _ => 1

/-- The most segments a mesh can take. -/
def segmentBound {F : Type} (m : Mesh F) : Nat :=
  m.customData.length + indexPieces m.tangentTriangles + onePiece m.tangents + indexPieces m.uvTriangles +
    indexPieces m.normalTriangles + indexPieces m.vertexTriangles + onePiece m.uvs + onePiece m.normals + mostPieces m.vertices

end Tmf.Spec
