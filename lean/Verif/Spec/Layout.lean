import Verif.Spec.RoundTrip
import Verif.Spec.F64
/-
What lies in a file, written down without the reader and the writer: which bytes a segment of each
type consists of, and which array of the mesh they belong to. It follows TMF_SPEC.md where that says
something (type codes 1-6, vertex segments, index segments, bit arrays) and is the layout of version
0.2 for the rest.
-/

namespace Tmf.Spec

/-- The bytes are the given (width, value) fields one after another without padding between them, filled
up to a whole byte with zeros. -/
def PackedAs (payload : List UInt8) (fields : List (Nat × Nat)) : Prop :=
  ∃ k < 8, byteBits payload = fieldBits fields ++ List.replicate k false

/-- The bytes of an index array: width, count, smallest index, and what each index exceeds it by. -/
inductive IndexData : List UInt8 → List Nat → Prop where
  | mk (width min : Nat) (payload : List UInt8) (l : List Nat) (hw : width < 256) (hm : min < 2 ^ 64)
      (hl : l.length < 2 ^ 64) (hi : ∀ i ∈ l, min ≤ i ∧ i - min < 2 ^ width)
      (hp : PackedAs payload (l.map fun i => (width, i - min))) :
      IndexData (leBytes 1 width ++ leBytes 8 l.length ++ leBytes 8 min ++ payload) l

/-- A stored normal: which components are negative, the code of the angle in the xy plane and the code
of the height. -/
structure NormalBits where
  nx : Bool
  ny : Bool
  nz : Bool
  angle : Nat
  height : Nat
deriving Repr, DecidableEq

def NormalBits.fields (w : Nat) (c : NormalBits) : List (Nat × Nat) :=
  [(1, c.nx.toNat), (1, c.ny.toNat), (1, c.nz.toNat), (w, c.angle), (w, c.height)]

/-- The six f64 values in front of a vertex array. -/
structure BoxBytes where
  minX : List UInt8
  maxX : List UInt8
  minY : List UInt8
  maxY : List UInt8
  minZ : List UInt8
  maxZ : List UInt8
deriving Repr, DecidableEq

def BoxBytes.bytes (s : BoxBytes) : List UInt8 := s.minX ++ s.maxX ++ s.minY ++ s.maxY ++ s.minZ ++ s.maxZ

structure BoxBytes.Ok (s : BoxBytes) : Prop where
  minX : s.minX.length = 8
  maxX : s.maxX.length = 8
  minY : s.minY.length = 8
  maxY : s.maxY.length = 8
  minZ : s.minZ.length = 8
  maxZ : s.maxZ.length = 8

/-- What a custom segment holds. -/
inductive CustomContent where
  | index (l : List Nat)
  | integer (l : List Nat)
  | float (lo hi : List UInt8) (width : Nat) (codes : List Nat)
  | color (width : Nat) (codes : List (Nat × Nat × Nat × Nat))
deriving Repr, DecidableEq

/-- The bytes of a custom segment of the given type after its name. -/
inductive CustomLies : Nat → List UInt8 → CustomContent → Prop where
  | index (data : List UInt8) (l : List Nat) (h : IndexData data l) : CustomLies 15 data (.index l)
  | integer (data : List UInt8) (l : List Nat) (h : IndexData data l) : CustomLies 24 data (.integer l)
  | float (lo hi payload : List UInt8) (w : Nat) (codes : List Nat) (hlo : lo.length = 8) (hhi : hi.length = 8)
      (hw : w < 256) (hl : codes.length < 2 ^ 64) (hc : ∀ c ∈ codes, c < 2 ^ w)
      (hp : PackedAs payload (codes.map fun c => (w, c))) :
      CustomLies 16 (leBytes 8 codes.length ++ lo ++ hi ++ leBytes 1 w ++ payload) (.float lo hi w codes)
  | color (payload : List UInt8) (w : Nat) (codes : List (Nat × Nat × Nat × Nat)) (hw : w < 256)
      (hl : codes.length < 2 ^ 64) (hc : ∀ c ∈ codes, c.1 < 2 ^ w ∧ c.2.1 < 2 ^ w ∧ c.2.2.1 < 2 ^ w ∧ c.2.2.2 < 2 ^ w)
      (hp : PackedAs payload (codes.flatMap fun c => [(w, c.1), (w, c.2.1), (w, c.2.2.1), (w, c.2.2.2)])) :
      CustomLies 23 (leBytes 8 codes.length ++ leBytes 1 w ++ payload) (.color w codes)

/-- What a segment holds. -/
inductive Content where
  | vertices (box : BoxBytes) (widths : Nat × Nat × Nat) (codes : List (Nat × Nat × Nat))
  | normals (width : Nat) (codes : List NormalBits)
  | uvs (width : Nat) (codes : List (Nat × Nat))
  | tangents (width : Nat) (codes : List (Bool × NormalBits))
  | vertexIndices (l : List Nat)
  | normalIndices (l : List Nat)
  | uvIndices (l : List Nat)
  | tangentIndices (l : List Nat)
  | sharedIndices (mask : Nat) (l : List Nat)
  | custom (name : List UInt8) (data : CustomContent)
deriving Repr, DecidableEq

/-- The segments, by type code. None is compressed. -/
inductive Lies : RawSeg → Content → Prop where
  | vertices (box : BoxBytes) (wx wy wz : Nat) (codes : List (Nat × Nat × Nat)) (payload : List UInt8) (hb : box.Ok)
      (hx : wx < 256) (hy : wy < 256) (hz : wz < 256) (hl : codes.length < 2 ^ 64)
      (hc : ∀ c ∈ codes, c.1 < 2 ^ wx ∧ c.2.1 < 2 ^ wy ∧ c.2.2 < 2 ^ wz)
      (hp : PackedAs payload (codes.flatMap fun c => [(wx, c.1), (wy, c.2.1), (wz, c.2.2)])) :
      Lies ⟨1, 0, leBytes 8 codes.length ++ box.bytes ++ leBytes 1 wx ++ leBytes 1 wy ++ leBytes 1 wz ++ payload⟩
        (.vertices box (wx, wy, wz) codes)
  | normals (w : Nat) (codes : List NormalBits) (payload : List UInt8) (hw : w < 256) (hl : codes.length < 2 ^ 64)
      (hc : ∀ c ∈ codes, c.angle < 2 ^ w ∧ c.height < 2 ^ w) (hp : PackedAs payload (codes.flatMap (NormalBits.fields w))) :
      Lies ⟨3, 0, leBytes 8 codes.length ++ leBytes 1 w ++ payload⟩ (.normals w codes)
  | uvs (w : Nat) (codes : List (Nat × Nat)) (payload : List UInt8) (hw : w < 256) (hl : codes.length < 2 ^ 64)
      (hc : ∀ c ∈ codes, c.1 < 2 ^ w ∧ c.2 < 2 ^ w) (hp : PackedAs payload (codes.flatMap fun c => [(w, c.1), (w, c.2)])) :
      Lies ⟨5, 0, leBytes 1 w ++ leBytes 8 codes.length ++ payload⟩ (.uvs w codes)
  | tangents (w : Nat) (codes : List (Bool × NormalBits)) (payload : List UInt8) (hw : w < 256) (hl : codes.length < 2 ^ 64)
      (hc : ∀ c ∈ codes, c.2.angle < 2 ^ w ∧ c.2.height < 2 ^ w)
      (hp : PackedAs payload (codes.flatMap fun c => (1, c.1.toNat) :: c.2.fields w)) :
      Lies ⟨9, 0, leBytes 8 codes.length ++ leBytes 1 w ++ payload⟩ (.tangents w codes)
  | vertexIndices (data : List UInt8) (l : List Nat) (h : IndexData data l) : Lies ⟨2, 0, data⟩ (.vertexIndices l)
  | normalIndices (data : List UInt8) (l : List Nat) (h : IndexData data l) : Lies ⟨4, 0, data⟩ (.normalIndices l)
  | uvIndices (data : List UInt8) (l : List Nat) (h : IndexData data l) : Lies ⟨6, 0, data⟩ (.uvIndices l)
  | tangentIndices (data : List UInt8) (l : List Nat) (h : IndexData data l) : Lies ⟨10, 0, data⟩ (.tangentIndices l)
  | sharedIndices (mask : Nat) (data : List UInt8) (l : List Nat) (hm : mask < 256) (h : IndexData data l) :
      Lies ⟨25, 0, leBytes 1 mask ++ data⟩ (.sharedIndices mask l)
  | custom (kind : Nat) (name data : List UInt8) (c : CustomContent) (hn : name.length < 256) (h : CustomLies kind data c) :
      Lies ⟨kind, 0, leBytes 1 name.length ++ name ++ data⟩ (.custom name c)

namespace Content

/-- The piece of the index array of the vertices: a segment of its own or shared with bit 0 of the mask. -/
def vertexIndexPieces : Content → List (List Nat)
  | vertexIndices l => [l]
  | sharedIndices mask l => if mask.testBit 0 then [l] else []
  | _ => []

/-- Bit 1 of the mask stands for normals. -/
def normalIndexPieces : Content → List (List Nat)
  | normalIndices l => [l]
  | sharedIndices mask l => if mask.testBit 1 then [l] else []
  | _ => []

/-- Bit 2 of the mask stands for uvs. -/
def uvIndexPieces : Content → List (List Nat)
  | uvIndices l => [l]
  | sharedIndices mask l => if mask.testBit 2 then [l] else []
  | _ => []

def tangentIndexPieces : Content → List (List Nat)
  | tangentIndices l => [l]
  | _ => []

def vertexPieces : Content → List (BoxBytes × (Nat × Nat × Nat) × List (Nat × Nat × Nat))
  | vertices box widths codes => [(box, widths, codes)]
  | _ => []

def normalPieces : Content → List (Nat × List NormalBits)
  | normals w codes => [(w, codes)]
  | _ => []

def uvPieces : Content → List (Nat × List (Nat × Nat))
  | uvs w codes => [(w, codes)]
  | _ => []

def tangentPieces : Content → List (Nat × List (Bool × NormalBits))
  | tangents w codes => [(w, codes)]
  | _ => []

def customPieces : Content → List (List UInt8 × CustomContent)
  | custom name data => [(name, data)]
  | _ => []

end Content

/-- What the stored codes have to do with the elements they stand for. -/
structure Meaning (F : Type) where
  vertex : BoxBytes → Nat × Nat × Nat → Vec3 F → Nat × Nat × Nat → Prop
  normal : Nat → Vec3 F → NormalBits → Prop
  hand : F → Bool → Prop
  uv : Nat → Vec2 F → Nat × Nat → Prop
  float : List UInt8 → List UInt8 → Nat → F → Nat → Prop
  channel : Nat → F → Nat → Prop

/-- Nothing is claimed but that every element has its codes. -/
def Meaning.none (F : Type) : Meaning F :=
  ⟨fun _ _ _ _ => True, fun _ _ _ => True, fun _ _ => True, fun _ _ _ => True, fun _ _ _ _ _ => True, fun _ _ _ => True⟩

/-- A custom segment holds the custom array. -/
inductive CustomHolds {F : Type} (μ : Meaning F) : CustomSeg F → List UInt8 × CustomContent → Prop where
  | index (name : List UInt8) (l : List Nat) (m : Nat) : CustomHolds μ ⟨name, .index l m⟩ (name, .index l)
  | integer (name : List UInt8) (l : List Nat) (m : Nat) : CustomHolds μ ⟨name, .integer l m⟩ (name, .integer l)
  | float (name : List UInt8) (l : List F) (p : F) (lo hi : List UInt8) (w : Nat) (codes : List Nat)
      (h : List.Forall₂ (μ.float lo hi w) l codes) : CustomHolds μ ⟨name, .float l p⟩ (name, .float lo hi w codes)
  | color (name : List UInt8) (l : List (Vec4 F)) (p : F) (w : Nat) (codes : List (Nat × Nat × Nat × Nat))
      (h : List.Forall₂ (fun x c => μ.channel w x.1 c.1 ∧ μ.channel w x.2.1 c.2.1 ∧ μ.channel w x.2.2.1 c.2.2.1 ∧
        μ.channel w x.2.2.2 c.2.2.2) l codes) : CustomHolds μ ⟨name, .color l p⟩ (name, .color w codes)

/-- The segments hold the mesh: index arrays exactly, cut into pieces at will; one segment for the
normals, the uvs and the tangents with the width asked for; vertices cut into pieces; custom arrays
last to first. -/
structure Holds {F : Type} (μ : Meaning F) (prec : PrecisionInfo F) (m : Mesh F) (cs : List Content) : Prop where
  vertexIndices : joined (cs.flatMap Content.vertexIndexPieces) = m.vertexTriangles
  normalIndices : joined (cs.flatMap Content.normalIndexPieces) = m.normalTriangles
  uvIndices : joined (cs.flatMap Content.uvIndexPieces) = m.uvTriangles
  tangentIndices : joined (cs.flatMap Content.tangentIndexPieces) = m.tangentTriangles
  vertices : ∃ pieces, joined pieces = m.vertices ∧
    List.Forall₂ (fun l c => List.Forall₂ (μ.vertex c.1 c.2.1) l c.2.2) pieces (cs.flatMap Content.vertexPieces)
  normals : List.Forall₂ (fun l c => c.1 = prec.normal ∧ List.Forall₂ (μ.normal c.1) l c.2) m.normals.toList
    (cs.flatMap Content.normalPieces)
  uvs : List.Forall₂ (fun l c => c.1 = prec.uv ∧ List.Forall₂ (μ.uv c.1) l c.2) m.uvs.toList (cs.flatMap Content.uvPieces)
  tangents : List.Forall₂ (fun l c => c.1 = prec.tangent ∧ List.Forall₂ (fun t x => μ.hand t.2 x.1 ∧ μ.normal c.1 t.1 x.2) l c.2)
    m.tangents.toList (cs.flatMap Content.tangentPieces)
  custom : List.Forall₂ (CustomHolds μ) m.customData.reverse (cs.flatMap Content.customPieces)

/-- The file holds the meshes in order under their names. -/
def FileHolds {F : Type} (μ : Meaning F) (prec : PrecisionInfo F) (meshes : List (Mesh F × List UInt8)) (raws : List RawMesh) : Prop :=
  List.Forall₂ (fun mn r => r.name = mn.2 ∧ ∃ cs, List.Forall₂ Lies r.segs cs ∧ Holds μ prec mn.1 cs) meshes raws

/-- The eight bytes mean the number. -/
def IsF64 (bytes : List UInt8) (q : ℚ) : Prop :=
  ∃ s e m, e < 2047 ∧ m < 2 ^ 52 ∧ bytes = binary64Bytes s e m ∧ q = binary64 s e m

end Tmf.Spec
