import Verif.Model.Reorder
/-
Mesh verification, src/verify.rs.
-/

namespace Tmf

/-- `TMFIntegrityStatus`, src/verify.rs:5-24, without the composite case. -/
inductive Integrity (F : Type) where
  | vertexArrayMissing
  | indexOutsideVertexArray (index length : Nat)
  | normalArrayMissing
  | normalsNotNormalized
  | indexOutsideNormalArray (index length : Nat)
  | uvOutsideRange (x y : F)
  | uvArrayMissing
  | indexOutsideUvArray (index length : Nat)
deriving Repr, DecidableEq

/-- An error as reported: a single one or a composite (`CompositeError`, which `verify` only
builds from single errors). -/
inductive IntegrityStatus (F : Type) where
  | single (e : Integrity F)
  | composite (es : List (Integrity F))
deriving Repr, DecidableEq

/-- `indices_inside_array`, src/verify.rs:62-69. -/
def indicesInsideArray : List Nat → (length : Nat) → Option Nat
  | [], _ => none
  | i :: rest, length => if i > length then some i else indicesInsideArray rest length

/-- `verify_vertices`, src/verify.rs:70-90. -/
def verifyVertices {F : Type} (m : Mesh F) : Option (Integrity F) :=
  match m.vertices with
  | none => if m.vertexTriangles.isSome then some .vertexArrayMissing else none
  | some vertices =>
    match m.vertexTriangles with
    | some triangles =>
      match indicesInsideArray triangles (vertices.length % 2 ^ 32) with
      | some index => some (.indexOutsideVertexArray index (vertices.length % 2 ^ 32))
      | none => none
    | none => none

/-- The loop over uvs, src/verify.rs:101-105. -/
def uvLoop (fo : FloatOps) : List (Vec2 fo.F) → Option (Integrity fo.F)
  | [] => none
  | uv :: rest =>
    if fo.lt uv.1 fo.zero && fo.lt uv.2 fo.zero && fo.lt fo.one uv.1 && fo.lt fo.one uv.2 then
      some (.uvOutsideRange uv.1 uv.2)
    else uvLoop fo rest

/-- `verify_uvs`, src/verify.rs:91-118. -/
def verifyUvs (fo : FloatOps) (m : Mesh fo.F) : Option (Integrity fo.F) :=
  match m.uvs with
  | none => if m.uvTriangles.isSome then some .uvArrayMissing else none
  | some uvs =>
    match uvLoop fo uvs with
    | some e => some e
    | none =>
      match m.uvTriangles with
      | some triangles =>
        match indicesInsideArray triangles (uvs.length % 2 ^ 32) with
        | some index => some (.indexOutsideUvArray index (uvs.length % 2 ^ 32))
        | none => none
      | none => none

/-- `(1.0 - magnitude(*normal)).abs() > 0.001`, src/verify.rs:131. -/
def notUnit (fo : FloatOps) (n : Vec3 fo.F) : Bool :=
  fo.lt (fo.lit 1 3) (fo.abs (fo.sub fo.one (magnitude fo n)))

/-- `verify_normals`, src/verify.rs:120-149. -/
def verifyNormals (fo : FloatOps) (m : Mesh fo.F) : Option (Integrity fo.F) :=
  match m.normals with
  | none => if m.normalTriangles.isSome then some .normalArrayMissing else none
  | some normals =>
    if normals.any (notUnit fo) then some .normalsNotNormalized
    else
      match m.normalTriangles with
      | some triangles =>
        match indicesInsideArray triangles (normals.length % 2 ^ 32) with
        | some index => some (.indexOutsideNormalArray index (normals.length % 2 ^ 32))
        | none => none
      | none => none

/-- `verify_tmf_mesh`, src/verify.rs:150-173, called from src/lib.rs:642-644. -/
def Mesh.verify (fo : FloatOps) (m : Mesh fo.F) : Outcome (IntegrityStatus fo.F) Unit :=
  let errors := (verifyVertices m).toList ++ (verifyNormals fo m).toList ++ (verifyUvs fo m).toList
  match errors with
  | [] => .ok ()
  | [e] => .err (.single e)
  | es => .err (.composite es)

end Tmf
