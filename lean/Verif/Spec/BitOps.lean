import Verif.Spec.Bits
import Verif.Model.Bits
/-
Histories of calls on a bit reader, and what they should return.
-/

namespace Tmf.Spec

/-- One call on a bit reader. -/
inductive BitOp where
  /-- `read_bit` -/
  | bit
  /-- `read_unaligned` -/
  | one (w : Nat)
  /-- `read2_unaligned` -/
  | two (w : Nat)
  /-- `read3_unaligned` -/
  | three (w : Nat)
  /-- `read_pair_unaligned` -/
  | pair (w1 w2 : Nat)
deriving Repr, DecidableEq

/-- Perform one call; the values it returned, as a list. -/
def BitOp.call (b : Build) : BitOp → BitReader → Outcome ImportError (List Nat × BitReader)
  | .bit, r => r.readBit >>= fun (v, r) => .ok ([v.toNat], r)
  | .one w, r => r.read w >>= fun (v, r) => .ok ([v], r)
  | .two w, r => r.read2 w >>= fun ((v1, v2), r) => .ok ([v1, v2], r)
  | .three w, r => r.read3 b w >>= fun ((v1, v2, v3), r) => .ok ([v1, v2, v3], r)
  | .pair w1 w2, r => r.readPair b w1 w2 >>= fun ((v1, v2), r) => .ok ([v1, v2], r)

/-- Perform a history of calls, collecting everything returned; stops at the first error. -/
def runOps (b : Build) : List BitOp → BitReader → Outcome ImportError (List Nat)
  | [], _ => .ok []
  | op :: ops, r => do
    let (vs, r) ← op.call b r
    let rest ← runOps b ops r
    .ok (vs ++ rest)

/-- What reading consecutive fields of the given widths from a bit string yields: the fields
as big-endian numbers, or nothing if the bits run out. -/
def takeFields : List Nat → List Bool → Option (List Nat)
  | [], _ => some []
  | w :: ws, l =>
    if w ≤ l.length then (takeFields ws (l.drop w)).map (value (l.take w) :: ·) else none

end Tmf.Spec
