import Verif.Model.Segments
/-
How many array elements a decoded segment holds, and where a segment says how many bits an
element takes.
-/

namespace Tmf

/-- The number of array elements in a decoded segment. -/
def DecodedSegment.elements {F : Type} : DecodedSegment F → Nat
  | vertex l => l.length
  | normal l => l.length
  | uv l => l.length
  | triVertex l => l.length
  | triNormal l => l.length
  | triUv l => l.length
  | custom ⟨_, .index l _⟩ => l.length
  | custom ⟨_, .integer l _⟩ => l.length
  | custom ⟨_, .float l _⟩ => l.length
  | custom ⟨_, .color l _⟩ => l.length
  | tangent l => l.length
  | triTangent l => l.length
  | shared _ l => l.length
  | nothing => 0

/-- Byte `i` of a segment (0 if there is none). -/
def byteAt (data : List UInt8) (i : Nat) : Nat := (data[i]?.getD 0).toNat

/-- Widths at which reading a pair takes bits from the stream: the double width must not reach
64, unless the two are read one by one. -/
def PairWidth (w : Nat) : Prop := 0 < w ∧ w < 64 ∧ w ≠ 32

/-- The width bytes of a segment make every element take at least one bit. Normals and tangents
always do, because of their sign bits. -/
def TakesBits (kind : SectionType) (data : List UInt8) : Prop :=
  match kind with
  | .vertex => 0 < byteAt data 56 + byteAt data 57 + byteAt data 58
  | .uv | .vertexTriangle | .normalTriangle | .uvTriangle | .tangentTriangle => PairWidth (byteAt data 0)
  | .sharedTriangle => PairWidth (byteAt data 1)
  | .customIndex | .customInteger => PairWidth (byteAt data (1 + byteAt data 0))
  | .customFloat => 0 < byteAt data (1 + byteAt data 0 + 24)
  | .customColor => PairWidth (byteAt data (1 + byteAt data 0 + 8))
  | .normal | .tangent | .invalid => True

end Tmf
