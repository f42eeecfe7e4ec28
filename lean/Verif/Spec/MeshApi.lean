import Verif.Model.Mesh
/-
Specification of the plain mesh API: histories of calls and what the getters should return.
-/

namespace Tmf.Spec

/-- The eight arrays of a mesh. -/
inductive ArrayName where
  | vertices
  | normals
  | tangents
  | uvs
  | vertexTriangles
  | normalTriangles
  | uvTriangles
  | tangentTriangles
deriving Repr, DecidableEq

/-- Element type of an array. -/
abbrev ArrayName.Elem (F : Type) : ArrayName → Type
  | vertices => Vec3 F
  | normals => Vec3 F
  | tangents => Tangent F
  | uvs => Vec2 F
  | vertexTriangles => Nat
  | normalTriangles => Nat
  | uvTriangles => Nat
  | tangentTriangles => Nat

/-- A call on one array. -/
inductive ArrayCall (α : Type) where
  | set (l : List α)
  | append (l : List α)

/-- A call on a mesh. -/
structure MeshCall (F : Type) where
  array : ArrayName
  call : ArrayCall (array.Elem F)

/-- The getter of an array. -/
def getArr {F : Type} (m : Mesh F) : (a : ArrayName) → Option (List (a.Elem F))
  | .vertices => m.getVertices
  | .normals => m.getNormals
  | .tangents => m.getTangents
  | .uvs => m.getUvs
  | .vertexTriangles => m.getVertexTriangles
  | .normalTriangles => m.getNormalTriangles
  | .uvTriangles => m.getUvTriangles
  | .tangentTriangles => m.getTangentTriangles

/-- The setter of an array. -/
def setArr {F : Type} (m : Mesh F) : (a : ArrayName) → List (a.Elem F) → Mesh F × Option (List (a.Elem F))
  | .vertices, l => m.setVertices l
  | .normals, l => m.setNormals l
  | .tangents, l => m.setTangents l
  | .uvs, l => m.setUvs l
  | .vertexTriangles, l => m.setVertexTriangles l
  | .normalTriangles, l => m.setNormalTriangles l
  | .uvTriangles, l => m.setUvTriangles l
  | .tangentTriangles, l => m.setTangentTriangles l

/-- The appender of an array. -/
def appendArr {F : Type} (m : Mesh F) : (a : ArrayName) → List (a.Elem F) → Mesh F
  | .vertices, l => m.appendVertices l
  | .normals, l => m.appendNormals l
  | .tangents, l => m.appendTangents l
  | .uvs, l => m.appendUvs l
  | .vertexTriangles, l => m.appendVertexTriangles l
  | .normalTriangles, l => m.appendNormalTriangles l
  | .uvTriangles, l => m.appendUvTriangles l
  | .tangentTriangles, l => m.appendTangentTriangles l

/-- Perform a call, ignoring what it returns. -/
def perform {F : Type} (m : Mesh F) (c : MeshCall F) : Mesh F :=
  match c.call with
  | .set l => (setArr m c.array l).1
  | .append l => appendArr m c.array l

/-- The calls of a history that concern one array. -/
def callsOn {F : Type} (a : ArrayName) (h : List (MeshCall F)) : List (ArrayCall (a.Elem F)) :=
  h.filterMap (fun c => if e : c.array = a then some (e ▸ c.call) else none)

/-- What an array should hold, given the calls on it, latest call first: nothing without calls;
after `set` what was set; after `append` the previous content followed by what was appended. -/
def contentRev {α : Type} : List (ArrayCall α) → Option (List α)
  | [] => none
  | .set l :: _ => some l
  | .append l :: earlier => some ((contentRev earlier).getD [] ++ l)

/-- What an array should hold after a history of calls on a mesh. -/
def content {F : Type} (a : ArrayName) (h : List (MeshCall F)) : Option (List (a.Elem F)) :=
  contentRev (callsOn a h).reverse

/-- `buf` is the lookup of `data` through `indices`: present exactly when both are present and all
indices are inside; entry `k` is the element named by index `k`. -/
structure IsBuffer {α : Type} (data : Option (List α)) (indices : Option (List Nat)) (buf : Option (List α)) : Prop where
  present : buf.isSome ↔ ∃ d t, data = some d ∧ indices = some t ∧ ∀ i ∈ t, i < d.length
  entries : ∀ d t l, data = some d → indices = some t → buf = some l →
    l.length = t.length ∧ ∀ (k i : Nat), t[k]? = some i → l[k]? = d[i]?

/-- Add custom data entries one after another, ignoring what the calls return. -/
def addAll {F : Type} (m : Mesh F) (adds : List (CustomData F × List UInt8)) : Mesh F :=
  adds.foldl (fun m p => (m.addCustomData p.1 p.2).1) m

end Tmf.Spec
