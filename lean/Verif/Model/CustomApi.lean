import Verif.Model.Custom
/-
The public side of custom data, src/custom_data.rs:57-83,148-183: how it is made from slices and how
it is looked into.
-/

namespace Tmf

namespace CustomData

variable {F : Type}

/-- `as_index`, src/custom_data.rs:60-65. -/
def asIndex : CustomData F → Option (List Nat × Nat)
  | .index array maxIdx => some (array, maxIdx)
  | _ => none

/-- `as_intiger`, src/custom_data.rs:66-71. -/
def asInteger : CustomData F → Option (List Nat × Nat)
  | .integer array maxIdx => some (array, maxIdx)
  | _ => none

/-- `as_float`, src/custom_data.rs:72-77. -/
def asFloat : CustomData F → Option (List F × F)
  | .float array prec => some (array, prec)
  | _ => none

/-- `as_color_rgba`, src/custom_data.rs:78-83. -/
def asColor : CustomData F → Option (List (Vec4 F) × F)
  | .color array prec => some (array, prec)
  | _ => none

/-- `new_float`, src/custom_data.rs:148-150. -/
def newFloat (floats : List F) (prec : F) : CustomData F := .float floats prec

/-- `new_color_rgba`, src/custom_data.rs:151-153. -/
def newColor (colors : List (Vec4 F)) (prec : F) : CustomData F := .color colors prec

/-- `new_index`, src/custom_data.rs:154-160. `iter().max().copied().unwrap_or(0)` is `List.max?`. -/
def newIndex (indices : List Nat) (maxIdx : Option Nat) : CustomData F :=
  .index indices (match maxIdx with
    | some m => m
    | none => indices.max?.getD 0)

/-- `new_intiger`, src/custom_data.rs:161-167. -/
def newInteger (indices : List Nat) (maxIdx : Option Nat) : CustomData F :=
  .integer indices (match maxIdx with
    | some m => m
    | none => indices.max?.getD 0)

/-- `From<&[IndexType]>`, src/custom_data.rs:169-173. -/
def fromIndices (indices : List Nat) : CustomData F := newIndex indices none

/-- `From<&[FloatType]>`, src/custom_data.rs:174-178: the precision is 0.01. -/
def fromFloats (fo : FloatOps) (floats : List fo.F) : CustomData fo.F := newFloat floats (fo.lit 1 2)

/-- `From<&[Vector4]>`, src/custom_data.rs:179-183: the precision is 0.01. -/
def fromColors (fo : FloatOps) (colors : List (Vec4 fo.F)) : CustomData fo.F := newColor colors (fo.lit 1 2)

end CustomData

end Tmf
