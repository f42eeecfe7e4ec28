import Verif.Model.One
import Verif.Spec.Obj
/-
C97: meshes written and read one at a time.
-/

namespace Tmf.Spec

variable {fo : FloatOps}

/-- Calling `write_tmf_one` for one mesh after the other with the same output, stopping at the first failure. -/
def writeTmfOnes (fb : F64Bytes fo) (b : Build) : List (PrecisionInfo fo.F × Mesh fo.F × List UInt8) → Sink →
    Outcome ExportError Unit × Sink
  | [], s => (.ok (), s)
  | (prec, m, name) :: rest, s =>
    match (writeTmfOne fo fb b prec m name).run s with
    | (.ok (), s) => writeTmfOnes fb b rest s
    | (.err e, s) => (.err e, s)
    | (.panic, s) => (.panic, s)

/-- Calling `read_tmf_one` `n` times on the same reader, stopping at the first failure. -/
def readTmfOnes (fb : F64Bytes fo) (b : Build) : Nat → Source → Outcome ImportError (List (Mesh fo.F × List UInt8))
  | 0, _ => .ok []
  | n + 1, s =>
    match takeTmfOne fo fb b s with
    | .ok (m, s) =>
      match readTmfOnes fb b n s with
      | .ok ms => .ok (m :: ms)
      | .err e => .err e
      | .panic => .panic
    | .err e => .err e
    | .panic => .panic

/-- Calling `write_obj_one` for one mesh after the other with the same output: the text written. -/
def writeObjOnes (ft : FloatText fo) (b : Build) : List (Mesh fo.F × List UInt8) → Outcome IoError (List UInt8)
  | [] => .ok []
  | (m, name) :: rest =>
    match writeObjOne ft b m name, writeObjOnes ft b rest with
    | .ok t, .ok ts => .ok (t ++ ts)
    | .ok _, e => e
    | e, _ => e

/-- Each mesh with its own triangles, but over the elements of all meshes so far, itself included. -/
def piled {F : Type} (v n : List (Vec3 F)) (u : List (Vec2 F)) : List (Mesh F × List UInt8) → List (Mesh F × List UInt8)
  | [] => []
  | (m, name) :: rest =>
    let v := v ++ m.vertices.getD []
    let n := n ++ m.normals.getD []
    let u := u ++ m.uvs.getD []
    ({ m with vertices := some v, normals := some n, uvs := some u }, name) :: piled v n u rest

end Tmf.Spec
