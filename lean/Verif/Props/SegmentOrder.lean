import Verif.Lemmas.SegmentOrder
import Verif.Lemmas.SteadyFile
import Verif.Props.Damage
/-
C101: the order of the segments of a mesh matters only within an array.
-/

namespace Tmf.Props
open Tmf Spec

variable {fo : FloatOps} {fb : F64Bytes fo} {b : Build}

/-- **C101.** If a file loads, then so does every file in which each mesh has the same name and gives
every array the same segments in the same order, however the segments of different arrays are
interleaved and whatever segments of unknown type stand between them or are left out; and it loads to
the same meshes. -/
theorem C101_file {minMinor : Nat} (h2 : minMinor ≤ 2) {raws raws' : List RawMesh}
    (h : ∀ m ∈ raws, RawMesh.Framed (layoutOf minMinor) m) (h' : ∀ m ∈ raws', RawMesh.Framed (layoutOf minMinor) m)
    (hn : raws.length < 2 ^ 32)
    (hs : List.Forall₂ (fun m m' => m'.name = m.name ∧ SameSegments m.segs m'.segs) raws raws')
    (junk junk' : List UInt8) (sched sched' : List Nat) {l : List (Mesh fo.F × List UInt8)}
    (e : readTmf fo fb b ⟨fileBytes minMinor raws ++ junk, sched, false⟩ = .ok l) :
    readTmf fo fb b ⟨fileBytes minMinor raws' ++ junk', sched', false⟩ = .ok l := by
  rw [readTmf_file fo fb b h2 h hn] at e
  rw [readTmf_file fo fb b h2 h' (by rw [← hs.length_eq]; exact hn)]
  obtain ⟨l', e', hl⟩ := mapAll_forall₂_step (f := rawMesh fo fb b (layoutOf minMinor)) (Q := Eq) hs (fun m m' y _ hm ey => by
    rw [rawMesh, Outcome.bind_eq_ok] at ey
    obtain ⟨mesh, em, ey⟩ := ey
    cases ey
    refine ⟨_, ?_, rfl⟩
    rw [rawMesh, assembleMesh_order fo fb b hm.2 em, hm.1]
    rfl) e
  rw [List.forall₂_eq_eq_eq] at hl
  rw [e', hl]

/-- The indices of the vertices in two segments, the indices of the normals between them. -/
def twoParts (first second : RawSeg) : RawMesh := ⟨[97], [first, ⟨4, 0, threeBytes 5 6 7⟩, second]⟩

theorem twoParts_framed {first second : RawSeg} (h1 : RawSeg.Framed .new first) (h2 : RawSeg.Framed .new second) :
    RawMesh.Framed .new (twoParts first second) :=
  ⟨⟨by simp [twoParts], ['a'], rfl⟩, by simp [twoParts], by
    intro s hs
    simp only [twoParts, List.mem_cons, List.not_mem_nil, or_false] at hs
    rcases hs with rfl | rfl | rfl
    · exact h1
    · exact ⟨(by decide : 4 < 256), Or.inl rfl, by simp [threeBytes, length_leBytes]⟩
    · exact h2⟩

/-- **C101, within an array.** Exchanging two segments of one array can change the mesh: the segments of
a file are the same but for their order, and the indices load in another order. -/
theorem C101_within_an_array : ∃ (raws raws' : List RawMesh) (l l' : List (Mesh fo.F × List UInt8)),
    (∀ m ∈ raws, RawMesh.Framed .new m) ∧ (∀ m ∈ raws', RawMesh.Framed .new m) ∧
    List.Forall₂ (fun m m' => m'.name = m.name ∧ List.Perm m'.segs m.segs) raws raws' ∧
    readTmf fo fb b ⟨fileBytes 2 raws, [], false⟩ = .ok l ∧
    readTmf fo fb b ⟨fileBytes 2 raws', [], false⟩ = .ok l' ∧
    l.map (fun mn => mn.1.vertexTriangles) = [some [101, 102, 103, 104, 105, 106]] ∧
    l'.map (fun mn => mn.1.vertexTriangles) = [some [104, 105, 106, 101, 102, 103]] := by
  have f1 : RawSeg.Framed .new ⟨2, 0, threeBytes 1 2 3⟩ :=
    ⟨(by decide : 2 < 256), Or.inl rfl, by simp [threeBytes, length_leBytes]⟩
  have f2 : RawSeg.Framed .new ⟨2, 0, threeBytes 4 5 6⟩ :=
    ⟨(by decide : 2 < 256), Or.inl rfl, by simp [threeBytes, length_leBytes]⟩
  have g1 : ∀ m ∈ [twoParts ⟨2, 0, threeBytes 1 2 3⟩ ⟨2, 0, threeBytes 4 5 6⟩], RawMesh.Framed .new m := by
    intro m hm
    rw [List.mem_singleton.mp hm]
    exact twoParts_framed f1 f2
  have g2 : ∀ m ∈ [twoParts ⟨2, 0, threeBytes 4 5 6⟩ ⟨2, 0, threeBytes 1 2 3⟩], RawMesh.Framed .new m := by
    intro m hm
    rw [List.mem_singleton.mp hm]
    exact twoParts_framed f2 f1
  refine ⟨_, _, [({ (Mesh.empty : Mesh fo.F) with vertexTriangles := some [101, 102, 103, 104, 105, 106], normalTriangles := some [105, 106, 107] }, [97])],
    [({ (Mesh.empty : Mesh fo.F) with vertexTriangles := some [104, 105, 106, 101, 102, 103], normalTriangles := some [105, 106, 107] }, [97])],
    g1, g2, .cons ⟨rfl, ?_⟩ .nil, ?_, ?_, rfl, rfl⟩
  · show List.Perm [_, _, _] [_, _, _]
    exact ((List.Perm.swap _ _ _).trans ((List.Perm.swap _ _ _).cons _)).trans (List.Perm.swap _ _ _)
  · rw [← List.append_nil (fileBytes 2 _), readTmf_file fo fb b (le_refl 2) g1 (by simp)]
    cases b <;> rfl
  · rw [← List.append_nil (fileBytes 2 _), readTmf_file fo fb b (le_refl 2) g2 (by simp)]
    cases b <;> rfl

/-- `twoArrays` with its two segments exchanged and one of an unknown type between them. -/
def exchanged : RawMesh := ⟨[97], [⟨4, 0, threeBytes 5 6 7⟩, ⟨77, 0, [1, 2, 3]⟩, ⟨2, 0, threeBytes 1 2 3⟩]⟩

theorem exchanged_same : SameSegments (twoArrays 2).segs exchanged.segs := by
  constructor
  · intro a
    cases a <;> rfl
  · intro s hs
    simp only [exchanged, List.mem_cons, List.not_mem_nil, or_false] at hs
    rcases hs with rfl | rfl | rfl
    · exact Or.inl (by simp [twoArrays])
    · exact Or.inr (by decide)
    · exact Or.inl (by simp [twoArrays])

/-- It loads to the mesh `twoArrays` loads to. -/
example (junk : List UInt8) (sched : List Nat) :
    readTmf fo fb b ⟨fileBytes 2 [exchanged, twoArrays 2] ++ junk, sched, false⟩ =
      .ok [({ (Mesh.empty : Mesh fo.F) with vertexTriangles := some [101, 102, 103], normalTriangles := some [105, 106, 107] }, [97]),
        ({ (Mesh.empty : Mesh fo.F) with vertexTriangles := some [101, 102, 103], normalTriangles := some [105, 106, 107] }, [97])] := by
  have h0 : readTmf fo fb b ⟨fileBytes 2 [twoArrays 2, twoArrays 2] ++ junk, [], false⟩ = .ok
      [({ (Mesh.empty : Mesh fo.F) with vertexTriangles := some [101, 102, 103], normalTriangles := some [105, 106, 107] }, [97]),
        ({ (Mesh.empty : Mesh fo.F) with vertexTriangles := some [101, 102, 103], normalTriangles := some [105, 106, 107] }, [97])] :=
    (twoMeshes_load (fo := fo) (fb := fb) (b := b) junk 2 []).trans (by cases b <;> rfl)
  refine C101_file (raws := [twoArrays 2, twoArrays 2]) (raws' := [exchanged, twoArrays 2]) (le_refl 2) ?_ ?_ (by simp)
    (.cons ⟨rfl, exchanged_same⟩ (.cons ⟨rfl, fun _ => rfl, fun _ h => Or.inl h⟩ .nil)) junk junk [] sched h0
  · intro m hm
    simp only [List.mem_cons, List.not_mem_nil, or_false, or_self] at hm
    subst hm
    exact twoArrays_framed 2
  · intro m hm
    simp only [List.mem_cons, List.not_mem_nil, or_false] at hm
    rcases hm with rfl | rfl
    · refine ⟨⟨by simp [exchanged], ['a'], rfl⟩, by simp [exchanged], ?_⟩
      intro s hs
      simp only [exchanged, List.mem_cons, List.not_mem_nil, or_false] at hs
      rcases hs with rfl | rfl | rfl
      · exact ⟨(by decide : 4 < 256), Or.inl rfl, by simp [threeBytes, length_leBytes]⟩
      · exact ⟨(by decide : 77 < 256), Or.inl rfl, by simp⟩
      · exact ⟨(by decide : 2 < 256), Or.inl rfl, by simp [threeBytes, length_leBytes]⟩
    · exact twoArrays_framed 2

end Tmf.Props
