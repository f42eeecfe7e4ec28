import Verif.Model.Memory
import Verif.Spec.DecodedSize
/-
How much memory loading may ask for.
-/

namespace Tmf

/-- The bytes one element of a decoded segment takes in memory, with 32-bit floats and indices. -/
def SectionType.elementBytes : SectionType → Nat
  | invalid => 0
  | vertex | normal => 12
  | uv => 8
  | tangent | customColor => 16
  | vertexTriangle | normalTriangle | uvTriangle | tangentTriangle | sharedTriangle => 4
  | customIndex | customInteger | customFloat => 4

/-- The memory asked for in total. -/
def totalBytes (l : List Request) : Nat := (l.map Request.bytes).sum

/-- No request exceeds a fixed size, whatever the file says: 64 KiB for a name, 2 GiB for the data
of a segment, 32 GiB for its array. -/
def Request.Modest : Request → Prop
  | name n => n < 2 ^ 16
  | data n => n ≤ 2 ^ 31
  | array _ n => n ≤ 2 ^ 35

end Tmf
