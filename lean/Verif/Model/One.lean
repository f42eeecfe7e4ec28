import Verif.Model.Tasks
import Verif.Model.Export
import Verif.Model.Obj
/-
The functions for a single mesh. Cloning the mesh (src/lib.rs:716, 757) makes no difference here.
-/

namespace Tmf

/-- `write_tmf_one`, src/lib.rs:751-758. -/
def writeTmfOne (fo : FloatOps) (fb : F64Bytes fo) (b : Build) (prec : PrecisionInfo fo.F) (m : Mesh fo.F) (name : List UInt8) :
    Writes Unit :=
  writeTmf fo fb b prec [(m, name)]

/-- What `read_tmf_one` and `read_tmf_one_async` do with the meshes, src/lib.rs:854-863 and 881-890. -/
def onlyMesh {F : Type} : List (Mesh F × List UInt8) → Outcome ImportError (Mesh F × List UInt8)
  | [] => .err .noMeshes
  | [m] => .ok m
  | _ :: _ :: _ => .err .tooManyMeshes

/-- `read_tmf_one`, src/lib.rs:852-864, with the reader afterwards. -/
def takeTmfOne (fo : FloatOps) (fb : F64Bytes fo) (b : Build) (s : Source) : Outcome ImportError ((Mesh fo.F × List UInt8) × Source) := do
  let (meshes, s) ← (importTmf fo fb b).run s
  let m ← onlyMesh meshes
  .ok (m, s)

/-- `read_tmf_one_async`, src/lib.rs:877-891; `orders` says in which order the decoding tasks finish. -/
def readTmfOneAsync (fo : FloatOps) (fb : F64Bytes fo) (b : Build) (orders : Nat → Nat → List Nat) (s : Source) :
    Outcome ImportError (Mesh fo.F × List UInt8) := do
  let meshes ← readTmfTasks fo fb b orders s
  onlyMesh meshes

/-- `write_obj_one`, src/lib.rs:715-717. -/
def writeObjOne {fo : FloatOps} (ft : FloatText fo) (b : Build) (m : Mesh fo.F) (name : List UInt8) : Outcome IoError (List UInt8) :=
  writeObj ft b [(m, name)]

end Tmf
