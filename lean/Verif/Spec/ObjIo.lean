import Verif.Model.Obj
/-
C70: output of the .obj exporter on targets that fail, and after a mesh was refused.
-/

namespace Tmf.Spec

/-- The mesh without its faces. -/
def withoutFaces {F : Type} (m : Mesh F) : Mesh F :=
  { m with vertexTriangles := none, normalTriangles := none, uvTriangles := none }

/-- A way of cutting texts into pieces that loses nothing. -/
def Lossless (pieces : List UInt8 → List (List UInt8)) : Prop := ∀ t, (pieces t).flatten = t

end Tmf.Spec
