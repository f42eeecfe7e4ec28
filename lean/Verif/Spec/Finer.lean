import Verif.Model.Export
import Verif.Spec.Log2
import Verif.Spec.BitCount
/-
C82: settings that ask for more accuracy than others.
-/

namespace Tmf.Spec
open Ieee

/-- Every array is to be stored at least as accurately: vertices within a smaller part of the shortest edge, the others
with as many bits or more. -/
structure Finer (fine coarse : PrecisionInfo (Val b32)) : Prop where
  positive : isFinite fine.vertex = true ∧ 0 < valueOf fine.vertex
  vertex : isFinite coarse.vertex = true ∧ valueOf fine.vertex ≤ valueOf coarse.vertex
  normal : coarse.normal ≤ fine.normal
  uv : coarse.uv ≤ fine.uv
  tangent : coarse.tangent ≤ fine.tangent

end Tmf.Spec
