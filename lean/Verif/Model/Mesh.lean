import Verif.Model.Float
/-
`TMFMesh` and its plain accessors, src/lib.rs and src/custom_data.rs:1-49.
-/

namespace Tmf

/-- `CustomData`, src/custom_data.rs:52-57. -/
inductive CustomData (F : Type) where
  | index (data : List Nat) (maxIdx : Nat)
  | integer (data : List Nat) (maxIdx : Nat)
  | float (data : List F) (prec : F)
  | color (data : List (Vec4 F)) (prec : F)
deriving Repr, DecidableEq

/-- `CustomDataSegment`, src/custom_data.rs:5-9. Simplified: `name_len` is the length of
`name` (`new_raw`, lines 19-26, makes them agree and both are private). -/
structure CustomSeg (F : Type) where
  name : List UInt8
  data : CustomData F
deriving Repr, DecidableEq

/-- `DataSegmentError`, src/custom_data.rs:12-17. -/
inductive DataSegmentError where
  | noName
  | nameTooLong
deriving Repr, DecidableEq

/-- `CustomDataSegment::new`, src/custom_data.rs:36-48. -/
def CustomSeg.new {F : Type} (data : CustomData F) (name : List UInt8) :
    Outcome DataSegmentError (CustomSeg F) :=
  if name.length > 255 then .err .nameTooLong
  else if name.length = 0 then .err .noName
  else .ok ⟨name, data⟩

/-- `TMFMesh`, src/lib.rs:128-139. -/
structure Mesh (F : Type) where
  normals : Option (List (Vec3 F))
  normalTriangles : Option (List Nat)
  vertices : Option (List (Vec3 F))
  vertexTriangles : Option (List Nat)
  uvs : Option (List (Vec2 F))
  uvTriangles : Option (List Nat)
  tangents : Option (List (Tangent F))
  tangentTriangles : Option (List Nat)
  customData : List (CustomSeg F)
deriving Repr, DecidableEq

namespace Mesh
variable {F : Type}

/-- `empty`, src/lib.rs:788-801. -/
def empty : Mesh F := ⟨none, none, none, none, none, none, none, none, []⟩

/-- `set_vertices`, src/lib.rs:270-272: `Option::replace` returns the old content. -/
def setVertices (m : Mesh F) (v : List (Vec3 F)) : Mesh F × Option (List (Vec3 F)) :=
  ({ m with vertices := some v }, m.vertices)
/-- `set_normals`, src/lib.rs:294-296. -/
def setNormals (m : Mesh F) (v : List (Vec3 F)) : Mesh F × Option (List (Vec3 F)) :=
  ({ m with normals := some v }, m.normals)
/-- `set_tangents`, src/lib.rs:318-320. -/
def setTangents (m : Mesh F) (v : List (Tangent F)) : Mesh F × Option (List (Tangent F)) :=
  ({ m with tangents := some v }, m.tangents)
/-- `set_uvs`, src/lib.rs:344-346. -/
def setUvs (m : Mesh F) (v : List (Vec2 F)) : Mesh F × Option (List (Vec2 F)) :=
  ({ m with uvs := some v }, m.uvs)
/-- `set_vertex_triangles`, src/lib.rs:355-360. -/
def setVertexTriangles (m : Mesh F) (v : List Nat) : Mesh F × Option (List Nat) :=
  ({ m with vertexTriangles := some v }, m.vertexTriangles)
/-- `set_normal_triangles`, src/lib.rs:369-374. -/
def setNormalTriangles (m : Mesh F) (v : List Nat) : Mesh F × Option (List Nat) :=
  ({ m with normalTriangles := some v }, m.normalTriangles)
/-- `set_uv_triangles`, src/lib.rs:383-388. -/
def setUvTriangles (m : Mesh F) (v : List Nat) : Mesh F × Option (List Nat) :=
  ({ m with uvTriangles := some v }, m.uvTriangles)
/-- `set_tangent_triangles`, src/lib.rs:397-402. -/
def setTangentTriangles (m : Mesh F) (v : List Nat) : Mesh F × Option (List Nat) :=
  ({ m with tangentTriangles := some v }, m.tangentTriangles)

/-- `get_vertices`, src/lib.rs:411-416. -/
def getVertices (m : Mesh F) : Option (List (Vec3 F)) := m.vertices
/-- `get_normals`, src/lib.rs:425-430. -/
def getNormals (m : Mesh F) : Option (List (Vec3 F)) := m.normals
/-- `get_tangents`, src/lib.rs:439-444. -/
def getTangents (m : Mesh F) : Option (List (Tangent F)) := m.tangents
/-- `get_uvs`, src/lib.rs:453-458. -/
def getUvs (m : Mesh F) : Option (List (Vec2 F)) := m.uvs
/-- `get_vertex_triangles`, src/lib.rs:467-472. -/
def getVertexTriangles (m : Mesh F) : Option (List Nat) := m.vertexTriangles
/-- `get_normal_triangles`, src/lib.rs:481-486. -/
def getNormalTriangles (m : Mesh F) : Option (List Nat) := m.normalTriangles
/-- `get_uv_triangles`, src/lib.rs:495-500. -/
def getUvTriangles (m : Mesh F) : Option (List Nat) := m.uvTriangles
/-- `get_tangent_triangles`, src/lib.rs:509-514. -/
def getTangentTriangles (m : Mesh F) : Option (List Nat) := m.tangentTriangles

/-- `append_vertices`, src/lib.rs:974-981. -/
def appendVertices (m : Mesh F) (v : List (Vec3 F)) : Mesh F :=
  match m.vertices with
  | some old => { m with vertices := some (old ++ v) }
  | none => (m.setVertices v).1
/-- `append_normals`, src/lib.rs:992-999. -/
def appendNormals (m : Mesh F) (v : List (Vec3 F)) : Mesh F :=
  match m.normals with
  | some old => { m with normals := some (old ++ v) }
  | none => (m.setNormals v).1
/-- `append_tangents`, src/lib.rs:1010-1017. -/
def appendTangents (m : Mesh F) (v : List (Tangent F)) : Mesh F :=
  match m.tangents with
  | some old => { m with tangents := some (old ++ v) }
  | none => (m.setTangents v).1
/-- `append_uvs`, src/lib.rs:1028-1035. -/
def appendUvs (m : Mesh F) (v : List (Vec2 F)) : Mesh F :=
  match m.uvs with
  | some old => { m with uvs := some (old ++ v) }
  | none => (m.setUvs v).1
/-- `append_vertex_triangles`, src/lib.rs:1046-1053. -/
def appendVertexTriangles (m : Mesh F) (v : List Nat) : Mesh F :=
  match m.vertexTriangles with
  | some old => { m with vertexTriangles := some (old ++ v) }
  | none => (m.setVertexTriangles v).1
/-- `append_normal_triangles`, src/lib.rs:1064-1071. -/
def appendNormalTriangles (m : Mesh F) (v : List Nat) : Mesh F :=
  match m.normalTriangles with
  | some old => { m with normalTriangles := some (old ++ v) }
  | none => (m.setNormalTriangles v).1
/-- `append_uv_triangles`, src/lib.rs:1082-1089. -/
def appendUvTriangles (m : Mesh F) (v : List Nat) : Mesh F :=
  match m.uvTriangles with
  | some old => { m with uvTriangles := some (old ++ v) }
  | none => (m.setUvTriangles v).1
/-- `append_tangent_triangles`, src/lib.rs:1100-1107. -/
def appendTangentTriangles (m : Mesh F) (v : List Nat) : Mesh F :=
  match m.tangentTriangles with
  | some old => { m with tangentTriangles := some (old ++ v) }
  | none => (m.setTangentTriangles v).1

/-- `add_custom_data_seg`, src/lib.rs:921-923. -/
def addCustomDataSeg (m : Mesh F) (seg : CustomSeg F) : Mesh F :=
  { m with customData := m.customData ++ [seg] }

/-- `add_custom_data`, src/lib.rs:913-920: the new mesh and the result. -/
def addCustomData (m : Mesh F) (data : CustomData F) (name : List UInt8) :
    Mesh F × Outcome DataSegmentError Unit :=
  match CustomSeg.new data name with
  | .ok seg => (m.addCustomDataSeg seg, .ok ())
  | .err e => (m, .err e)
  | .panic => (m, .panic)

/-- The loop of `lookup_custom_data`, src/lib.rs:955-961. -/
def lookupLoop (name : List UInt8) : List (CustomSeg F) → Option (CustomData F)
  | [] => none
  | seg :: rest =>
    if seg.name.length = name.length ∧ name = seg.name then some seg.data else lookupLoop name rest

/-- `lookup_custom_data`, src/lib.rs:949-963. -/
def lookupCustomData (m : Mesh F) (name : List UInt8) : Option (CustomData F) :=
  if name.length > 255 then none else lookupLoop name m.customData

/-- The loop of the buffer getters, src/lib.rs:534-539. -/
def bufferLoop {α : Type} (data : List α) : List Nat → List α → Option (List α)
  | [], acc => some acc
  | i :: rest, acc =>
    match data[i]? with
    | some x => bufferLoop data rest (acc ++ [x])
    | none => none

/-- `get_vertex_buffer`, src/lib.rs:530-541. -/
def getVertexBuffer (m : Mesh F) : Option (List (Vec3 F)) := do
  let vertices ← m.getVertices
  let triangles ← m.getVertexTriangles
  bufferLoop vertices triangles []
/-- `get_normal_buffer`, src/lib.rs:558-569. -/
def getNormalBuffer (m : Mesh F) : Option (List (Vec3 F)) := do
  let normals ← m.getNormals
  let triangles ← m.getNormalTriangles
  bufferLoop normals triangles []
/-- `get_uv_buffer`, src/lib.rs:585-596. -/
def getUvBuffer (m : Mesh F) : Option (List (Vec2 F)) := do
  let uvs ← m.getUvs
  let triangles ← m.getUvTriangles
  bufferLoop uvs triangles []

end Mesh

end Tmf
