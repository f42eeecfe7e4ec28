import Verif.Model.Import
import Verif.Model.Export
/-
C95: several files one after another in the same reader.
-/

namespace Tmf.Spec

variable (fo : FloatOps) (fb : F64Bytes fo) (b : Build)

/-- Calling `read_tmf(&mut reader)` `n` times on the same reader (src/lib.rs:820-822 takes the reader by
reference, src/tmf_importer.rs:176-186 reads from it without a buffer of its own), stopping at the first
error: what the calls return, and the reader afterwards. -/
def readFiles : Nat → Source → Outcome ImportError (List (List (Mesh fo.F × List UInt8)) × Source)
  | 0, s => .ok ([], s)
  | n + 1, s =>
    match (importTmf fo fb b).run s with
    | .ok (out, s) =>
      match readFiles n s with
      | .ok (outs, s) => .ok (out :: outs, s)
      | .err e => .err e
      | .panic => .panic
    | .err e => .err e
    | .panic => .panic

/-- `file` loads on its own as `out`, and nothing of it can be left out at the end. -/
structure Whole (file : List UInt8) (out : List (Mesh fo.F × List UInt8)) : Prop where
  loads : ∀ sched, readTmf fo fb b ⟨file, sched, false⟩ = .ok out
  full : ∀ n < file.length, ∀ sched, readTmf fo fb b ⟨file.take n, sched, false⟩ = .err (.io .unexpectedEof)

end Tmf.Spec
