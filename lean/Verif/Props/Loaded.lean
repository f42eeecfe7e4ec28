import Verif.Lemmas.Loaded
import Verif.Props.Loading
import Verif.Lemmas.LibmWitness
/-
C61: whatever the file, the meshes that are loaded from it are sound (`Sound`, `NumbersInRange`).

Nothing is assumed about who wrote the file: it can be of any origin, damaged, or hostile. The
exceptions in `NumbersInRange` are real: normals stored in no bits are read as corners of the cube and
colours stored in no bits as NaN (`C61_violated`). What is not checked at
all when loading are vertices (which can be NaN) and whether indices point into their arrays (use
`verify`, C14).
-/

set_option exponentiation.threshold 2000

namespace Tmf.Props
open Spec

variable {fo : FloatOps} {fb : F64Bytes fo} {b : Build}

open DecodedSegment in
/-- C61, for any arithmetic. -/
theorem C61_sound {bytes : List UInt8} {sched : List Nat} {vs : List (Mesh fo.F × List UInt8)}
    (h : readTmf fo fb b ⟨bytes, sched, false⟩ = .ok vs) : ∀ v ∈ vs, Sound v.1 v.2 := by
  intro v hv
  obtain ⟨hn, ctx, ds, hd, e⟩ := loaded_inv h v hv
  rw [applyAll_eq] at e
  have hc : ∀ c ∈ v.1.customData, ∃ kind data, CustomSeg.read fo fb b ctx kind data = .ok c := by
    rw [e]
    intro c hc
    obtain ⟨d, hd', hc⟩ := List.mem_flatMap.mp hc
    obtain ⟨seg, hs⟩ := hd d hd'
    exact ⟨_, _, (decode_parts hs).2.2.2.2 c hc⟩
  refine ⟨hn.1, hn.2, ?_, ?_, ?_⟩
  · intro l hl i hi
    have : ∃ p, i ∈ p ∧ ∃ d ∈ ds, p ∈ d.pVertexTriangles ∨ p ∈ d.pNormalTriangles ∨ p ∈ d.pUvTriangles ∨
        p ∈ d.pTangentTriangles := by
      rw [e] at hl
      rcases hl with hl | hl | hl | hl
      · obtain ⟨p, hp, hi⟩ := joined_mem hl hi
        obtain ⟨d, hd', hp⟩ := List.mem_flatMap.mp hp
        exact ⟨p, hi, d, hd', .inl hp⟩
      · obtain ⟨p, hp, hi⟩ := joined_mem hl hi
        obtain ⟨d, hd', hp⟩ := List.mem_flatMap.mp hp
        exact ⟨p, hi, d, hd', .inr (.inl hp)⟩
      · obtain ⟨p, hp, hi⟩ := joined_mem hl hi
        obtain ⟨d, hd', hp⟩ := List.mem_flatMap.mp hp
        exact ⟨p, hi, d, hd', .inr (.inr (.inl hp))⟩
      · obtain ⟨p, hp, hi⟩ := joined_mem hl hi
        obtain ⟨d, hd', hp⟩ := List.mem_flatMap.mp hp
        exact ⟨p, hi, d, hd', .inr (.inr (.inr hp))⟩
    obtain ⟨p, hi, d, hd', hp⟩ := this
    obtain ⟨seg, hs⟩ := hd d hd'
    exact (decode_parts hs).1 p hp i hi
  · intro c h
    obtain ⟨kind, data, h⟩ := hc c h
    exact (custom_sound h).1
  · intro c h
    obtain ⟨kind, data, h⟩ := hc c h
    exact (custom_sound h).2

/-- A file of another program: index data [2, 5] under the name "B", with the smallest index stored
as 4294967295 (the sums are cut to 32 bits). -/
example : ∀ v ∈ [(({ Mesh.empty with customData := [⟨[66], .index [2, 5] 5⟩] } : Mesh fo.F), [65])], Sound v.1 v.2 :=
  C61_sound (fb := fb) (b := b) (bytes := fileBytes 2 [⟨[65], [⟨15, 0, [1, 66] ++ [3] ++ leBytes 8 2 ++ leBytes 8 4294967295 ++ [0x78]⟩]⟩])
    (sched := []) (by rfl)

variable {lib : Ieee.Libm}

open DecodedSegment Ieee in
/-- C61, the numbers. -/
theorem C61_numbers (hlib : AccurateLibm lib) {fb : F64Bytes (ops lib)} {bytes : List UInt8} {sched : List Nat}
    {vs : List (Mesh (Val b32) × List UInt8)} (h : readTmf (ops lib) fb b ⟨bytes, sched, false⟩ = .ok vs) :
    ∀ v ∈ vs, NumbersInRange v.1 := by
  intro v hv
  obtain ⟨hn, ctx, ds, hd, e⟩ := loaded_inv h v hv
  rw [applyAll_eq] at e
  have ht : ∀ l, v.1.tangents = some l → ∀ t ∈ l, (UnitDecoded t.1 ∨ CubeCorner t.1) ∧ |valueOf t.2| = 1 := by
    rw [e]
    intro l hl x hx
    obtain ⟨p, hp, hx⟩ := joined_mem hl hx
    obtain ⟨d, hd', hp⟩ := List.mem_flatMap.mp hp
    obtain ⟨seg, hs⟩ := hd d hd'
    exact readTangents_range hlib ((decode_parts hs).2.2.2.1 p hp) x hx
  refine ⟨?_, ?_, fun l hl t h => (ht l hl t h).1, fun l hl t h => (ht l hl t h).2, ?_⟩
  · rw [e]
    intro l hl x hx
    obtain ⟨p, hp, hx⟩ := joined_mem hl hx
    obtain ⟨d, hd', hp⟩ := List.mem_flatMap.mp hp
    obtain ⟨seg, hs⟩ := hd d hd'
    exact readUvs_unit ((decode_parts hs).2.1 p hp) x hx
  · rw [e]
    intro l hl x hx
    obtain ⟨p, hp, hx⟩ := joined_mem hl hx
    obtain ⟨d, hd', hp⟩ := List.mem_flatMap.mp hp
    obtain ⟨seg, hs⟩ := hd d hd'
    exact readNormals_range hlib ((decode_parts hs).2.2.1 p hp) x hx
  · rw [e]
    intro c hc l p hl
    obtain ⟨d, hd', hc⟩ := List.mem_flatMap.mp hc
    obtain ⟨seg, hs⟩ := hd d hd'
    exact custom_colors ((decode_parts hs).2.2.2.2 c hc) hl

open Ieee

/-- A file with a normal stored in no bits (signs: negative, positive, negative) and a colour stored in
no bits. -/
def bitlessFile : List UInt8 :=
  fileBytes 2 [⟨[65], [⟨3, 0, leBytes 8 1 ++ [0] ++ [0xA0]⟩, ⟨23, 0, [1, 66] ++ leBytes 8 1 ++ [0]⟩]⟩]

/-- The corner and the colour. -/
def bitlessMesh (lib : Libm) : Mesh (Val b32) :=
  { Mesh.empty with
    normals := some [((ops lib).negOne, (ops lib).one, (ops lib).negOne)]
    customData := [⟨[66], .color [(channelOfCode (ops lib) 0 0, channelOfCode (ops lib) 0 0,
      channelOfCode (ops lib) 0 0, channelOfCode (ops lib) 0 0)] (colorLoadedPrec (ops lib) 1)⟩] }

theorem bitlessFile_loads {fb : F64Bytes (ops lib)} : readTmf (ops lib) fb b ⟨bitlessFile, [], false⟩ =
    .ok [(bitlessMesh lib, [65])] := by
  rfl

/-- The exceptions of `C61_numbers` occur: the normal in this file is read as a vector of length √3,
the colour as NaN. -/
theorem C61_violated {fb : F64Bytes (ops lib)} : ∃ n c p, readTmf (ops lib) fb b ⟨bitlessFile, [], false⟩ =
      .ok [({ Mesh.empty with normals := some [n], customData := [⟨[66], .color [c] p⟩] }, [65])] ∧
    valueOf n.1 ^ 2 + valueOf n.2.1 ^ 2 + valueOf n.2.2 ^ 2 = 3 ∧ c = (.nan, .nan, .nan, .nan) := by
  refine ⟨_, _, _, bitlessFile_loads, ?_, ?_⟩
  · have key : ∀ w : Vec3 (Val b32), CubeCorner w → valueOf w.1 ^ 2 + valueOf w.2.1 ^ 2 + valueOf w.2.2 ^ 2 = 3 := by
      rintro w ⟨h1, h2, h3⟩
      rw [← sq_abs, ← sq_abs (valueOf w.2.1), ← sq_abs (valueOf w.2.2), h1, h2, h3]
      norm_num
    exact key _ (corner_signs ⟨0, 0, true, false, true⟩)
  · rw [channelOfCode_ops, zero_by_zero]

example (fb : F64Bytes (ops someLibm)) (b : Build) : NumbersInRange (bitlessMesh someLibm) :=
  C61_numbers someLibm_accurate (bitlessFile_loads (fb := fb) (b := b)) _ List.mem_cons_self

end Tmf.Props
