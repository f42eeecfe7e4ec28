import Verif.Model.Verify
/-
Specification of mesh verification: what a valid mesh is, written without the model's loops.
-/

namespace Tmf.Spec

/-- A triangle array comes with its data array and stays inside it. -/
def IndicesValid {α : Type} (data : Option (List α)) (indices : Option (List Nat)) : Prop :=
  ∀ t, indices = some t → ∃ d, data = some d ∧ ∀ i ∈ t, i < d.length

/-- The same with the bound the code uses: an index equal to the length passes. -/
def IndicesPass {α : Type} (data : Option (List α)) (indices : Option (List Nat)) : Prop :=
  ∀ t, indices = some t → ∃ d, data = some d ∧ ∀ i ∈ t, i ≤ d.length

/-- The length of a normal, as computed in floating point, is within 0.001 of 1: the comparison
"differs by more than 0.001" is false. -/
def UnitLength (fo : FloatOps) (n : Vec3 fo.F) : Prop :=
  fo.lt (fo.lit 1 3) (fo.abs (fo.sub (fo.lit 1 0)
    (fo.sqrt (fo.add (fo.add (fo.mul n.1 n.1) (fo.mul n.2.1 n.2.1)) (fo.mul n.2.2 n.2.2))))) = false

/-- A coordinate is not outside [0,1]. -/
def InUnit (fo : FloatOps) (x : fo.F) : Prop := fo.lt x (fo.lit 0 0) = false ∧ fo.lt (fo.lit 1 0) x = false

/-- A valid mesh. -/
structure Valid (fo : FloatOps) (m : Mesh fo.F) : Prop where
  vertexIndices : IndicesValid m.vertices m.vertexTriangles
  normalIndices : IndicesValid m.normals m.normalTriangles
  uvIndices : IndicesValid m.uvs m.uvTriangles
  tangentIndices : IndicesValid m.tangents m.tangentTriangles
  normals : ∀ l, m.normals = some l → ∀ n ∈ l, UnitLength fo n
  uvs : ∀ l, m.uvs = some l → ∀ p ∈ l, InUnit fo p.1 ∧ InUnit fo p.2

/-- What the code accepts: indices may equal the length, uvs are not checked, tangents are not
checked. -/
structure Passes (fo : FloatOps) (m : Mesh fo.F) : Prop where
  vertexIndices : IndicesPass m.vertices m.vertexTriangles
  normalIndices : IndicesPass m.normals m.normalTriangles
  uvIndices : IndicesPass m.uvs m.uvTriangles
  normals : ∀ l, m.normals = some l → ∀ n ∈ l, UnitLength fo n

/-- The lengths of the data arrays fit in `u32`, the type of indices. -/
structure SmallArrays {F : Type} (m : Mesh F) : Prop where
  vertices : ∀ l, m.vertices = some l → l.length < 2 ^ 32
  normals : ∀ l, m.normals = some l → l.length < 2 ^ 32
  uvs : ∀ l, m.uvs = some l → l.length < 2 ^ 32

/-- No float is below 0 and above 1. -/
def UvLaw (fo : FloatOps) : Prop := ∀ x, fo.lt x (fo.lit 0 0) = true → fo.lt (fo.lit 1 0) x = false

/-- The reported errors. -/
def reported {F : Type} : IntegrityStatus F → List (Integrity F)
  | .single e => [e]
  | .composite es => es

/-- The part of a mesh an error is about. -/
inductive Part where
  | vertices
  | normals
  | uvs
deriving DecidableEq

def partOf {F : Type} : Integrity F → Part
  | .vertexArrayMissing => .vertices
  | .indexOutsideVertexArray _ _ => .vertices
  | .normalArrayMissing => .normals
  | .normalsNotNormalized => .normals
  | .indexOutsideNormalArray _ _ => .normals
  | .uvOutsideRange _ _ => .uvs
  | .uvArrayMissing => .uvs
  | .indexOutsideUvArray _ _ => .uvs

/-- The mesh has the problem an error names. -/
def Accurate (fo : FloatOps) (m : Mesh fo.F) : Integrity fo.F → Prop
  | .vertexArrayMissing => m.vertices = none ∧ m.vertexTriangles ≠ none
  | .indexOutsideVertexArray i n => ∃ d t, m.vertices = some d ∧ m.vertexTriangles = some t ∧ n = d.length ∧ i ∈ t ∧ n < i
  | .normalArrayMissing => m.normals = none ∧ m.normalTriangles ≠ none
  | .normalsNotNormalized => ∃ l, m.normals = some l ∧ ∃ n ∈ l, ¬ UnitLength fo n
  | .indexOutsideNormalArray i n => ∃ d t, m.normals = some d ∧ m.normalTriangles = some t ∧ n = d.length ∧ i ∈ t ∧ n < i
  | .uvOutsideRange x y => ∃ l, m.uvs = some l ∧ (x, y) ∈ l ∧ ¬ InUnit fo x
  | .uvArrayMissing => m.uvs = none ∧ m.uvTriangles ≠ none
  | .indexOutsideUvArray i n => ∃ d t, m.uvs = some d ∧ m.uvTriangles = some t ∧ n = d.length ∧ i ∈ t ∧ n < i

end Tmf.Spec
