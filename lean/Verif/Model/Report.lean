import Verif.Model.Obj
import Verif.Model.Verify
/-
The text of integrity reports, src/verify.rs.
-/

namespace Tmf

/-- `Display` for `TMFIntegrityStatus`, src/verify.rs:35-54, single errors. `print` is `Display` of floats. -/
def Integrity.text {F : Type} (print : F → List UInt8) : Integrity F → List UInt8
  | .vertexArrayMissing => ascii "VertexArrayMissing"
  | .indexOutsideVertexArray index length =>
    ascii "IndexOutsideVertexArray{index:" ++ decimal index ++ ascii ",length" ++ decimal length ++ ascii "}"
  | .normalArrayMissing => ascii "NormalArrayMissing"
  | .normalsNotNormalized => ascii "NormalsNotNormalized"
  | .indexOutsideNormalArray index length =>
    ascii "IndexOutsideNormalArray{index:" ++ decimal index ++ ascii ",length" ++ decimal length ++ ascii "}"
  | .indexOutsideUvArray index length =>
    ascii "IndexOutsideUVArray{index:" ++ decimal index ++ ascii ",length" ++ decimal length ++ ascii "}"
  | .uvOutsideRange x y => ascii "UVOutsideRange{x:" ++ print x ++ ascii ",y:" ++ print y ++ ascii "}"
  | .uvArrayMissing => ascii "UVArrayMissing"

/-- `Display` and `Debug` for `TMFIntegrityStatus`, src/verify.rs:25-60. Composites of composites, which
`verify` never builds, are not modelled. -/
def IntegrityStatus.text {F : Type} (print : F → List UInt8) : IntegrityStatus F → List UInt8
  | .single e => e.text print
  | .composite es => ascii "MultipleErrors{" ++ es.flatMap (fun e => ascii "," ++ e.text print) ++ ascii "}"

end Tmf
