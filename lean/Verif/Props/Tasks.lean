import Verif.Lemmas.Assemble
import Verif.Lemmas.Decode
import Verif.Model.Tasks
import Verif.Props.Loading
/-
C24 for whole files: the order in which decoding tasks finish does not matter.
-/

namespace Tmf.Props
open Spec
variable {fo : FloatOps} {fb : F64Bytes fo} {b : Build}

theorem assembleInOrder_eq (ctx : DecodeCtx) (order : List Nat) (segs : List EncodedSegment) (hall : ∀ i < segs.length, i ∈ order) :
    assembleInOrder fo fb b ctx order segs = some (assembleMesh fo fb b ctx segs) := by
  unfold assembleInOrder
  rw [joinAll_eq _ _ (by simpa using hall)]
  rfl

theorem importMeshTasks_eq (ctx : ImportCtx) {order : Nat → List Nat} (h : ∀ n, ∀ i < n, i ∈ order n) :
    importMeshTasks fo fb b ctx order = importMesh fo fb b ctx := by
  unfold importMeshTasks importMesh
  congr 1; funext name
  congr 1; funext count
  congr 1; funext segs
  rw [assembleInOrder_eq _ _ _ (h segs.length)]
  rfl

theorem importLoopTasks_eq (ctx : ImportCtx) {orders : Nat → Nat → List Nat} (h : ∀ k n, ∀ i < n, i ∈ orders k n) :
    ∀ n k, importLoopTasks fo fb b ctx orders k n = Prog.replicate n (importMesh fo fb b ctx)
  | 0, _ => rfl
  | n + 1, k => by
    rw [importLoopTasks, Prog.replicate, importMeshTasks_eq ctx (h k), importLoopTasks_eq ctx h n]

/-- C24 for whole files: whatever the file holds, however it is delivered and wherever the reader fails, and in whatever
order the tasks of each mesh finish, the result of loading is the same. -/
theorem C24_file (orders : Nat → Nat → List Nat) (h : ∀ k n, ∀ i < n, i ∈ orders k n) (s : Source) :
    readTmfTasks fo fb b orders s = readTmf fo fb b s := by
  have e : importTmfTasks fo fb b orders = importTmf fo fb b := by
    unfold importTmfTasks importTmf
    congr 1; funext ctx
    congr 1; funext count
    exact importLoopTasks_eq ctx h count 0
  rw [readTmfTasks, e]
  rfl

/-- Last task first in the first mesh, and two rounds in the others. -/
example : ∀ k n, ∀ i < n, i ∈ (fun k n => if k = 0 then (List.range n).reverse else List.range n ++ List.range n) k n := by
  intro k n i hi
  dsimp only
  split <;> simp [hi]

/-- A file with two meshes in which all tasks finish in reverse order. -/
example : readTmfTasks fo fb b (fun _ n => (List.range n).reverse)
    ⟨fileBytes 2 [⟨[65], [triSeg, ⟨4, 0, triSeg.data⟩]⟩, ⟨[66], [triSeg]⟩], [], false⟩ =
    .ok [({ (Mesh.empty : Mesh fo.F) with vertexTriangles := some [0, 1, 2], normalTriangles := some [0, 1, 2] }, [65]),
      ({ (Mesh.empty : Mesh fo.F) with vertexTriangles := some [0, 1, 2] }, [66])] := by cases b <;> rfl

/-- Two bad segments: the first one in the file is reported, though the second one fails first. -/
example : readTmfTasks fo fb b (fun _ n => (List.range n).reverse)
    ⟨fileBytes 2 [⟨[65], [triSeg, ⟨2, 1, []⟩, ⟨2, 2, []⟩]⟩], [], false⟩ = .err (.unsuportedCompressionType 1) := by cases b <;> rfl

end Tmf.Props
