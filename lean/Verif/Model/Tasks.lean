import Verif.Model.Import
/-
Loading with the decoding tasks of every mesh finishing in any order, src/tmf_importer.rs:122-188. With the feature
`tokio_runtime` the tasks are spawned while the segments are read (a panic in one of them comes out of the `unwrap` of
line 145); without it `join_all` polls them one after the other. In both cases a failure to read returns before any
result is looked at.
-/

namespace Tmf

/-- `import_mesh`, src/tmf_importer.rs:122-154. `order n` is the order in which `n` tasks finish. Simplified: if not all
tasks finish, the function waits for ever; this is a panic here. -/
def importMeshTasks (fo : FloatOps) (fb : F64Bytes fo) (b : Build) (ctx : ImportCtx) (order : Nat → List Nat) :
    Prog (Mesh fo.F × List UInt8) := do
  let name ← readString
  let count ← Prog.readU16
  let segs ← Prog.replicate count (readSegment ctx)
  let mesh ← Prog.ofOutcome ((assembleInOrder fo fb b ctx.decode (order segs.length) segs).getD .panic)
  pure (mesh, name)

/-- The loop of `import`, src/tmf_importer.rs:184-186, from mesh `i` on. -/
def importLoopTasks (fo : FloatOps) (fb : F64Bytes fo) (b : Build) (ctx : ImportCtx) (orders : Nat → Nat → List Nat) :
    Nat → Nat → Prog (List (Mesh fo.F × List UInt8))
  | _, 0 => pure []
  | i, n + 1 => do
    let m ← importMeshTasks fo fb b ctx (orders i)
    let l ← importLoopTasks fo fb b ctx orders (i + 1) n
    pure (m :: l)

/-- `import`, src/tmf_importer.rs:177-188. -/
def importTmfTasks (fo : FloatOps) (fb : F64Bytes fo) (b : Build) (orders : Nat → Nat → List Nat) :
    Prog (List (Mesh fo.F × List UInt8)) := do
  let ctx ← readHeader
  let count ← Prog.readU32
  importLoopTasks fo fb b ctx orders 0 count

/-- `read_tmf`, src/lib.rs:820-822. -/
def readTmfTasks (fo : FloatOps) (fb : F64Bytes fo) (b : Build) (orders : Nat → Nat → List Nat) (s : Source) :
    Outcome ImportError (List (Mesh fo.F × List UInt8)) := do
  let (l, _) ← (importTmfTasks fo fb b orders).run s
  .ok l

end Tmf
