import Verif.Model.Import
/-
The size report of a file, `analize`, src/tmf_importer.rs:155-176 and 189-198. What is printed for a mesh is the value
`MeshReport`; simplified: what was printed before a failure is not part of the result, and type names are the types
themselves.
-/

namespace Tmf

/-- The two printed lines, src/tmf_importer.rs:157 and 174. -/
structure MeshReport where
  name : List UInt8
  rows : List (SectionType × Nat)
  total : Nat
deriving Repr, DecidableEq

/-- `+=` on `usize`. -/
def addUsize (b : Build) (x y : Nat) : Outcome ImportError Nat :=
  if x + y ≥ 2 ^ 64 ∧ b = .checked then .panic else .ok ((x + y) % 2 ^ 64)

/-- The loop over the segments, src/tmf_importer.rs:160-163. `results` has 256 entries, and `as u8` is below 256. -/
def analizeSegments (b : Build) (ctx : ImportCtx) : Nat → List Nat → Prog (List Nat)
  | 0, results => pure results
  | n + 1, results => do
    let encoded ← readSegment ctx
    let i := encoded.segType.toU8
    let sum ← Prog.ofOutcome (addUsize b (results.getD i 0) encoded.data.length)
    analizeSegments b ctx n (results.set i sum)

/-- The loop over the table, src/tmf_importer.rs:164-172, from entry `i` on. -/
def analizeTable (b : Build) : Nat → List Nat → List (SectionType × Nat) → Nat →
    Outcome ImportError (List (SectionType × Nat) × Nat)
  | _, [], res, total => .ok (res, total)
  | i, byteLen :: results, res, total => do
    let total ← addUsize b total byteLen
    analizeTable b (i + 1) results (if byteLen ≠ 0 then res ++ [(SectionType.fromU8 i, byteLen)] else res) total

/-- `analize_mesh`, src/tmf_importer.rs:155-176. `sort_by` is a stable sort. -/
def analizeMesh (b : Build) (ctx : ImportCtx) : Prog MeshReport := do
  let name ← readString
  let count ← Prog.readU16
  let results ← analizeSegments b ctx count (List.replicate 256 0)
  let (res, total) ← Prog.ofOutcome (analizeTable b 0 results [] 0)
  pure ⟨name, res.mergeSort (fun x y => x.2 ≤ y.2), total⟩

/-- `analize`, src/tmf_importer.rs:189-198. -/
def analize (b : Build) (s : Source) : Outcome ImportError (List MeshReport) := do
  let (l, _) ← (do
    let ctx ← readHeader
    let count ← Prog.readU32
    Prog.replicate count (analizeMesh b ctx)).run s
  .ok l

end Tmf
