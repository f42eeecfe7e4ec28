import Verif.Model.Analize
import Verif.Spec.FileFormat
/-
C74: what a size report has to say about a mesh of a file.
-/

namespace Tmf.Spec

/-- Type codes out of use count as code 0. -/
def shownCode (kind : Nat) : Nat := if kind ∈ knownKinds then kind else 0

/-- The bytes of all payloads shown under a code. -/
def sizeUnder (code : Nat) (m : RawMesh) : Nat :=
  ((m.segs.filter fun s => shownCode s.kind == code).map fun s => s.data.length).sum

/-- The bytes of all payloads. -/
def payloadSize (m : RawMesh) : Nat := (m.segs.map fun s => s.data.length).sum

/-- One row for each code with payload, no others; smaller ones first, equal ones by code; and the total. -/
structure Reports (m : RawMesh) (r : MeshReport) : Prop where
  name : r.name = m.name
  total : r.total = payloadSize m
  rows : ∀ t n, (t, n) ∈ r.rows ↔ n ≠ 0 ∧ n = sizeUnder t.toU8 m
  sorted : r.rows.Pairwise fun x y => x.2 < y.2 ∨ x.2 = y.2 ∧ x.1.toU8 < y.1.toU8

/-- The bytes in front of the payload of a segment. -/
def segOverhead : Layout → Nat
  | .old => 11
  | .new => 6

end Tmf.Spec
