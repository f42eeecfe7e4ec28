import Verif.Lemmas.Builds
import Verif.Props.FileAccuracy
import Verif.Props.Loading
/-
C64: debug and release builds do the same wherever the debug build does not panic. The other
properties can then be carried over from one build to the other.
-/

namespace Tmf.Props
open Spec

variable {fo : FloatOps}

/-- C64, saving: whatever the target (it may take buffers in parts and refuse at any point), a debug
build panics, or leaves the target and the result exactly as a release build does. -/
theorem C64_save (fb : F64Bytes fo) (prec : PrecisionInfo fo.F) (meshes : List (Mesh fo.F × List UInt8)) (s : Sink) :
    ((writeTmf fo fb .checked prec meshes).run s).1 = .panic ∨
      (writeTmf fo fb .checked prec meshes).run s = (writeTmf fo fb .wrapping prec meshes).run s :=
  (writeTmf_sub fb prec meshes).run s

/-- C64, files: the bytes a debug build writes are those a release build writes. -/
theorem C64_bytes {fb : F64Bytes fo} {prec : PrecisionInfo fo.F} {meshes : List (Mesh fo.F × List UInt8)} {bytes : List UInt8}
    (h : tmfBytes fo fb .checked prec meshes = .ok bytes) : tmfBytes fo fb .wrapping prec meshes = .ok bytes := by
  rw [tmfBytes] at h ⊢
  rcases C64_save fb prec meshes ⟨[], none, []⟩ with e | e
  · split at h
    · next heq => rw [heq] at e; cases e
    · cases h
    · cases h
  · rw [← e]
    exact h

/-- C64, loading: whatever the reader delivers (any bytes, any short reads, with or without a device
error at the end), a debug build panics or gives what a release build gives: the same meshes, or the
same error. -/
theorem C64_load (fb : F64Bytes fo) (s : Source) :
    readTmf fo fb .checked s = .panic ∨ readTmf fo fb .checked s = readTmf fo fb .wrapping s :=
  readTmf_sub fb s

/-- C64, loading one mesh. -/
theorem C64_load_one (fb : F64Bytes fo) (s : Source) :
    readTmfOne fo fb .checked s = .panic ∨ readTmfOne fo fb .checked s = readTmfOne fo fb .wrapping s :=
  readTmfOne_sub fb s

/-- C64, reading .obj text, with any treatment of faces. (For writing see `C59_debug`.) -/
theorem C64_read_obj (ft : FloatText fo) (face : PushFace fo.F) (text : List UInt8) :
    readFromObj ft face .checked text = .panic ∨ readFromObj ft face .checked text = readFromObj ft face .wrapping text :=
  readObjLoop_sub ft face _ _

/-- C64, reading .obj text with one mesh. -/
theorem C64_read_obj_one (ft : FloatText fo) (face : PushFace fo.F) (text : List UInt8) :
    readFromObjOne ft face .checked text = .panic ∨
      readFromObjOne ft face .checked text = readFromObjOne ft face .wrapping text :=
  (readObjLoop_sub ft face _ _).bind fun _ => .refl _

/-- C64, compressed arrays (lz77.rs): writing and reading. -/
theorem C64_compressed (prec len : Nat) (data : List Nat) (s : Source) :
    (saveCompressedArray .checked prec data = .panic ∨
      saveCompressedArray .checked prec data = saveCompressedArray .wrapping prec data) ∧
    (readCompressedArray .checked prec len s = .panic ∨
      readCompressedArray .checked prec len s = readCompressedArray .wrapping prec len s) :=
  ⟨(saveCompressedLoop_sub _ _ _ _ _).bind fun _ => .refl _, readCompressedLoop_sub _ _ _ _ _⟩

/-- C64, a round trip: what one debug build writes and another one loads, release builds write and load,
in any combination. -/
theorem C64_round_trip {fb : F64Bytes fo} {prec : PrecisionInfo fo.F} {meshes out : List (Mesh fo.F × List UInt8)}
    {bytes junk : List UInt8} {sched : List Nat} (h : tmfBytes fo fb .checked prec meshes = .ok bytes)
    (hr : readTmf fo fb .checked ⟨bytes ++ junk, sched, false⟩ = .ok out) (b b' : Build) :
    tmfBytes fo fb b prec meshes = .ok bytes ∧ readTmf fo fb b' ⟨bytes ++ junk, sched, false⟩ = .ok out := by
  refine ⟨?_, ?_⟩
  · cases b
    · exact h
    · exact C64_bytes h
  · cases b'
    · exact hr
    · rcases C64_load fb ⟨bytes ++ junk, sched, false⟩ with e | e
      · rw [hr] at e
        cases e
      · rw [← e]
        exact hr

/-- The exception is needed: a file a debug build panics on and a release build loads. -/
theorem C64_load_differs (fb : F64Bytes fo) : ∃ (bytes : List UInt8) (out : List (Mesh fo.F × List UInt8)),
    readTmf fo fb .checked ⟨bytes, [], false⟩ = .panic ∧ readTmf fo fb .wrapping ⟨bytes, [], false⟩ = .ok out :=
  ⟨fileBytes 2 [⟨[], [⟨2, 0, [1] ++ leBytes 8 1 ++ leBytes 8 (2 ^ 64 - 1) ++ [128]⟩]⟩],
    [({ (Mesh.empty : Mesh fo.F) with vertexTriangles := some [0] }, [])], rfl, rfl⟩

/-- Both sides of `C64_load` occur: a file loaded alike by both builds. -/
example (fb : F64Bytes fo) : readTmf fo fb .checked ⟨fileBytes 2 [⟨[65], [⟨2, 0, [2] ++ leBytes 8 3 ++ leBytes 8 7 ++ [24]⟩]⟩], [3, 1], false⟩ =
    .ok [({ (Mesh.empty : Mesh fo.F) with vertexTriangles := some [7, 8, 9] }, [65])] := rfl

end Tmf.Props
