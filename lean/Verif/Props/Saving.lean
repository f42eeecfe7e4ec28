import Verif.Lemmas.Saving
import Verif.Spec.FileFormat
/-
C17: saving to a target that fails.
-/

namespace Tmf.Props

variable (fo : FloatOps) (fb : F64Bytes fo) (b : Build) (prec : PrecisionInfo fo.F)

/-- C17. With room for `k` bytes, saving fails with an IO error exactly if the file is longer than
`k` bytes, and the target holds the first `k` bytes of the file, however it splits the writes. -/
theorem C17_failing_sink {meshes : List (Mesh fo.F × List UInt8)} {bytes : List UInt8}
    (h : tmfBytes fo fb b prec meshes = .ok bytes) (k : Nat) (sched : List Nat) :
    ((writeTmf fo fb b prec meshes).run ⟨[], some k, sched⟩).2.data = bytes.take k ∧
    ((writeTmf fo fb b prec meshes).run ⟨[], some k, sched⟩).1 =
      if k < bytes.length then .err .io else .ok () := by
  rw [tmfBytes_eq, Outcome.bind_eq_ok] at h
  obtain ⟨_, hr, e⟩ := h
  simp only [Outcome.ok.injEq] at e
  subst e
  obtain ⟨s', ha, h1, h2⟩ := Sink.writeChunks_spec (writeTmf fo fb b prec meshes).chunks ⟨[], some k, sched⟩
  have hd : s'.data = (writeTmf fo fb b prec meshes).chunks.flatten.take k := by simpa using ha.data
  by_cases hk : k < (writeTmf fo fb b prec meshes).chunks.flatten.length
  · rw [if_pos hk]
    have : ¬ Sink.fits ⟨[], some k, sched⟩ (writeTmf fo fb b prec meshes).chunks.flatten.length := by
      intro hf
      have := hf k rfl
      omega
    rw [Writes.run, h2 this]
    exact ⟨hd, rfl⟩
  · rw [if_neg hk]
    have : Sink.fits ⟨[], some k, sched⟩ (writeTmf fo fb b prec meshes).chunks.flatten.length := by
      intro k' hk'
      simp only [Option.some.injEq] at hk'
      omega
    rw [Writes.run, h1 this]
    exact ⟨hd, hr⟩

/-- Even if saving panics half-way, what arrived is the beginning of what an unlimited target
would have received. -/
theorem C17_prefix (meshes : List (Mesh fo.F × List UInt8)) (k : Nat) (sched sched' : List Nat) :
    ((writeTmf fo fb b prec meshes).run ⟨[], some k, sched⟩).2.data =
      (((writeTmf fo fb b prec meshes).run ⟨[], none, sched'⟩).2.data).take k := by
  obtain ⟨s', ha, h1, h2⟩ := Sink.writeChunks_spec (writeTmf fo fb b prec meshes).chunks ⟨[], some k, sched⟩
  have hd : s'.data = (writeTmf fo fb b prec meshes).chunks.flatten.take k := by simpa using ha.data
  obtain ⟨s, e, hs⟩ := (writeTmf fo fb b prec meshes).run_unlimited sched'
  rw [e]
  dsimp only
  rw [hs, ← hd]
  by_cases hf : Sink.fits ⟨[], some k, sched⟩ (writeTmf fo fb b prec meshes).chunks.flatten.length
  · rw [Writes.run, h1 hf]
  · rw [Writes.run, h2 hf]

/-- A mesh with three vertex indices and five normal indices. -/
def indexMesh : Mesh fo.F × List UInt8 :=
  ({ (Mesh.empty : Mesh fo.F) with vertexTriangles := some [0, 1, 2], normalTriangles := some [3, 1, 2, 1, 0] }, [65, 66])

/-- Its file, as the format describes it. -/
def indexMeshBytes : List UInt8 :=
  Spec.fileBytes 2 [⟨[65, 66], [⟨4, 0, [2] ++ leBytes 8 5 ++ leBytes 8 0 ++ [0xd9, 0]⟩,
    ⟨2, 0, [2] ++ leBytes 8 3 ++ leBytes 8 0 ++ [0x18]⟩]⟩]

theorem indexMesh_saved : tmfBytes fo fb b prec [indexMesh fo] = .ok indexMeshBytes := by
  rw [tmfBytes_of fo fb b prec (enc := [[⟨.normalTriangle, .none, [2] ++ leBytes 8 5 ++ leBytes 8 0 ++ [0xd9, 0]⟩,
    ⟨.vertexTriangle, .none, [2] ++ leBytes 8 3 ++ leBytes 8 0 ++ [0x18]⟩]]) (by cases b <;> rfl)]
  rfl

example : indexMeshBytes.length = 70 := by decide
example : ((writeTmf fo fb b prec [indexMesh fo]).run ⟨[], some 69, [1, 5]⟩).1 = .err .io := by
  rw [(C17_failing_sink fo fb b prec (indexMesh_saved fo fb b prec) 69 [1, 5]).2, if_pos (by decide)]

end Tmf.Props
