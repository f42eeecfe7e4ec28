import Verif.Spec.Text
import Verif.Spec.Bits
import Verif.Spec.Concat
/-
The layout of TMF files, written down independently of the reader and the writer.
-/

namespace Tmf.Spec

/-- The two layouts: files declaring minimum version 0.0 or 0.1, and files declaring 0.2. -/
inductive Layout where
  | old
  | new
deriving Repr, DecidableEq

/-- The layout belonging to a minimum minor version. -/
def layoutOf (minMinor : Nat) : Layout := if minMinor ≤ 1 then .old else .new

/-- A segment as it lies in a file: type code, compression code, payload. -/
structure RawSeg where
  kind : Nat
  comp : Nat
  data : List UInt8
deriving Repr, DecidableEq

/-- The bytes in front of a segment's payload. -/
def segHead (L : Layout) (kind len comp : Nat) : List UInt8 :=
  match L with
  | .old => leBytes 2 kind ++ leBytes 8 len ++ leBytes 1 comp
  | .new => leBytes 1 kind ++ leBytes 4 len ++ leBytes 1 comp

/-- A segment with its payload. -/
def RawSeg.bytes (L : Layout) (s : RawSeg) : List UInt8 := segHead L s.kind s.data.length s.comp ++ s.data

/-- Type codes that fit the field. -/
def KindFits (L : Layout) (kind : Nat) : Prop :=
  match L with
  | .old => kind < 65536
  | .new => kind < 256

/-- Lengths that fit the field. -/
def LenFits (L : Layout) (len : Nat) : Prop :=
  match L with
  | .old => len < 2 ^ 64
  | .new => len < 2 ^ 32

/-- A segment that can be framed: its type fits, its compression code is one of the known four and
it is at most 2^31 bytes long. -/
structure RawSeg.Framed (L : Layout) (s : RawSeg) : Prop where
  kind : KindFits L s.kind
  comp : s.comp = 0 ∨ s.comp = 1 ∨ s.comp = 2 ∨ s.comp = 255
  len : s.data.length ≤ 2 ^ 31

/-- A mesh name that fits its length field. -/
structure NameOk (name : List UInt8) : Prop where
  len : name.length < 2 ^ 16
  utf8 : IsText name

/-- A mesh as it lies in a file. -/
structure RawMesh where
  name : List UInt8
  segs : List RawSeg
deriving Repr, DecidableEq

/-- Name and number of segments. -/
def meshHead (name : List UInt8) (segCount : Nat) : List UInt8 :=
  leBytes 2 name.length ++ name ++ leBytes 2 segCount

def RawMesh.bytes (L : Layout) (m : RawMesh) : List UInt8 :=
  meshHead m.name m.segs.length ++ m.segs.flatMap (RawSeg.bytes L)

/-- A mesh that can be framed. -/
structure RawMesh.Framed (L : Layout) (m : RawMesh) : Prop where
  name : NameOk m.name
  count : m.segs.length < 2 ^ 16
  segs : ∀ s ∈ m.segs, s.Framed L

/-- Magic, version 0.2, minimum version, number of meshes. -/
def fileHead (minMajor minMinor meshCount : Nat) : List UInt8 :=
  [84, 77, 70] ++ leBytes 2 0 ++ leBytes 2 2 ++ leBytes 2 minMajor ++ leBytes 2 minMinor ++ leBytes 4 meshCount

/-- A file with the given four version bytes (which the reader ignores). -/
def fileBytesV (ver : List UInt8) (minMinor : Nat) (meshes : List RawMesh) : List UInt8 :=
  [84, 77, 70] ++ ver ++ leBytes 2 0 ++ leBytes 2 minMinor ++ leBytes 4 meshes.length ++
    meshes.flatMap (RawMesh.bytes (layoutOf minMinor))

/-- A whole file. -/
def fileBytes (minMinor : Nat) (meshes : List RawMesh) : List UInt8 :=
  fileHead 0 minMinor meshes.length ++ meshes.flatMap (RawMesh.bytes (layoutOf minMinor))

/-- The type codes in use. -/
def knownKinds : List Nat := [1, 2, 3, 4, 5, 6, 9, 10, 15, 16, 23, 24, 25]

/-- The start of an index array: width, number of indices and, in the new layout, the minimum. -/
def indexHead (L : Layout) (width len min : Nat) : List UInt8 :=
  leBytes 1 width ++ leBytes 8 len ++ (match L with | .old => [] | .new => leBytes 8 min)

/-- The payload of a segment of the given type begins with a complete header that announces `len`
elements. -/
inductive Declares (L : Layout) (len : Nat) : (kind : Nat) → (data : List UInt8) → Prop where
  | index (kind width min : Nat) (rest : List UInt8) (hk : kind = 2 ∨ kind = 4 ∨ kind = 6 ∨ kind = 10)
      (hw : width < 256) (hm : min < 2 ^ 64) : Declares L len kind (indexHead L width len min ++ rest)
  | shared (mask : UInt8) (width min : Nat) (rest : List UInt8) (hw : width < 256) (hm : min < 2 ^ 64) :
      Declares L len 25 (mask :: (indexHead L width len min ++ rest))
  | customIndex (kind width min : Nat) (name rest : List UInt8) (hk : kind = 15 ∨ kind = 24)
      (hn : name.length < 256) (hw : width < 256) (hm : min < 2 ^ 64) :
      Declares L len kind (leBytes 1 name.length ++ name ++ indexHead L width len min ++ rest)
  | vertex (box rest : List UInt8) (px py pz : Nat) (hb : box.length = 48) (hx : px < 64) (hy : py < 64) (hz : pz < 64) :
      Declares L len 1 (leBytes 8 len ++ box ++ leBytes 1 px ++ leBytes 1 py ++ leBytes 1 pz ++ rest)
  | normal (kind : Nat) (rest : List UInt8) (hk : kind = 3 ∨ kind = 9) : Declares L len kind (leBytes 8 len ++ rest)
  | uv (width : Nat) (rest : List UInt8) (hw : width < 256) : Declares L len 5 (leBytes 1 width ++ leBytes 8 len ++ rest)
  | customFloat (name rest : List UInt8) (hn : name.length < 256) :
      Declares L len 16 (leBytes 1 name.length ++ name ++ leBytes 8 len ++ rest)

/-- The payloads that can make the reader panic: colours announcing 2^59 or more entries and, with
overflow checks, colours of 64 or more bits and index arrays whose minimum is above 2^63. -/
inductive Bait (checks : Prop) (L : Layout) : (kind : Nat) → (data : List UInt8) → Prop where
  | color (name rest : List UInt8) (len p : Nat) (hn : name.length < 256) (hl : len < 2 ^ 64) (hp : p < 256)
      (h : 2 ^ 59 ≤ len ∨ checks ∧ 64 ≤ p) :
      Bait checks L 23 (leBytes 1 name.length ++ name ++ leBytes 8 len ++ leBytes 1 p ++ rest)
  | index (kind width len min : Nat) (before rest : List UInt8) (hc : checks) (hL : L = .new)
      (hk : (kind = 2 ∨ kind = 4 ∨ kind = 6 ∨ kind = 10) ∧ before = [] ∨ kind = 25 ∧ before.length = 1 ∨
        (kind = 15 ∨ kind = 24) ∧ ∃ name : List UInt8, name.length < 256 ∧ before = leBytes 1 name.length ++ name)
      (hw : width < 256) (hl : len ≤ 2 ^ 31) (hm : 2 ^ 63 < min) (hm' : min < 2 ^ 64) :
      Bait checks L kind (before ++ indexHead L width len min ++ rest)

/-- An index array of the old layout: `width` bits per index, no minimum. The payload is the packed
indices, padded in any way. -/
structure OldArray where
  kind : Nat
  width : Nat
  indices : List Nat
  payload : List UInt8
  padding : List Bool

structure OldArray.Ok (a : OldArray) : Prop where
  kind : a.kind = 2 ∨ a.kind = 4 ∨ a.kind = 6 ∨ a.kind = 10
  width : a.width < 64
  fits : ∀ i ∈ a.indices, i < 2 ^ a.width ∧ i < 2 ^ 32
  length : a.indices.length ≤ 2 ^ 31
  packed : byteBits a.payload = fieldBits (a.indices.map (fun i => (a.width, i))) ++ a.padding
  size : a.payload.length + 9 ≤ 2 ^ 31

/-- The same for every width a byte can hold. -/
structure OldArray.Packed (a : OldArray) : Prop where
  kind : a.kind = 2 ∨ a.kind = 4 ∨ a.kind = 6 ∨ a.kind = 10
  width : a.width < 256
  fits : ∀ i ∈ a.indices, i < 2 ^ a.width ∧ i < 2 ^ 32
  length : a.indices.length ≤ 2 ^ 31
  packed : byteBits a.payload = fieldBits (a.indices.map (fun i => (a.width, i))) ++ a.padding
  size : a.payload.length + 9 ≤ 2 ^ 31

/-- What the program makes of it. With 32 bits the pairs are read as zeros and a last odd index as the first one stored;
from 64 bits on everything is read as zeros. -/
def OldArray.loaded (a : OldArray) : OldArray :=
  if a.width = 32 then
    { a with indices := List.replicate (a.indices.length / 2 * 2) 0 ++
                          if a.indices.length % 2 = 1 then a.indices.take 1 else [] }
  else if 64 ≤ a.width then { a with indices := List.replicate a.indices.length 0 }
  else a

def OldArray.seg (a : OldArray) : RawSeg := ⟨a.kind, 0, leBytes 1 a.width ++ leBytes 8 a.indices.length ++ a.payload⟩

/-- The pieces of a given kind. -/
def piecesOf (kind : Nat) (l : List OldArray) : List (List Nat) :=
  (l.filter (fun a => a.kind == kind)).map OldArray.indices

end Tmf.Spec
