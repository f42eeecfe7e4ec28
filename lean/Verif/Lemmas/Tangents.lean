import Verif.Lemmas.Arrays
/-
Tangent arrays saved by either build.
-/

namespace Tmf
open Spec

section
variable {fo : FloatOps}

def tangentFieldsWith (fo : FloatOps) (p mul : Nat) (t : Tangent fo.F) : List (Nat × Nat) :=
  let c := normalCode fo mul t.1
  [(1, (fo.isSignNegative t.2).toNat), (1, c.sx.toNat), (1, c.sy.toNat), (1, c.sz.toNat), (p, c.asine), (p, c.z)]

/-- What comes back when the multiplier is `mul`. -/
def loadedTangent (fo : FloatOps) (p mul : Nat) (t : Tangent fo.F) : Tangent fo.F :=
  let c := normalCode fo mul t.1
  (normalFromEncoding fo p ⟨c.asine % 2 ^ p, c.z % 2 ^ p, c.sx, c.sy, c.sz⟩, htFromBool fo (fo.isSignNegative t.2))

theorem readTangents_any {b : Build} {l : List (Tangent fo.F)} {p : Nat} {bytes : List UInt8} (hp : p < 64)
    (hl : l.length ≤ MAX_SEG_SIZE) (h : saveTangents fo b l p = .ok bytes) :
    ∃ mul, ∀ suffix, readTangents fo (bytes ++ suffix) = .ok (l.map (loadedTangent fo p mul)) := by
  have hm : l = [] ∨ ∃ mul, mulI32 b p = .ok mul := by
    cases l with
    | nil => exact .inl rfl
    | cons t l =>
      right
      simp only [saveTangents, Outcome.mapAll, tangentFields, normalToEncoding, Outcome.bind_eq_ok] at h
      obtain ⟨_, ⟨_, ⟨_, ⟨mul, hm, _⟩, _⟩, _⟩, _⟩ := h
      exact ⟨mul, hm⟩
  obtain ⟨mul, hmul⟩ : ∃ mul, Outcome.mapAll (tangentFields fo b p) l = .ok (l.map (tangentFieldsWith fo p mul)) := by
    rcases hm with rfl | ⟨mul, hm⟩
    · exact ⟨0, rfl⟩
    · exact ⟨mul, mapAll_of_ok (fun a _ => by simp [tangentFields, normalToEncoding, hm, tangentFieldsWith])⟩
  obtain ⟨w, pad, e, _, hb⟩ := written_bits b (fields := l.flatMap (tangentFieldsWith fo p mul)) (by
    intro q hq
    obtain ⟨x, hx, hq⟩ := List.mem_flatMap.mp hq
    simp only [tangentFieldsWith, List.mem_cons, List.not_mem_nil, or_false] at hq
    rcases hq with rfl | rfl | rfl | rfl | rfl | rfl <;> dsimp only <;> omega)
  have hbytes : bytes = leBytes 8 l.length ++ leBytes 1 p ++ w.finish := by
    simp only [saveTangents, hmul, Outcome.bind_ok, ← List.flatMap_def, e, Outcome.ok.injEq] at h
    exact h.symm
  refine ⟨mul, fun suffix => ?_⟩
  rw [hbytes]
  unfold readTangents
  rw [List.append_assoc, readNormalsHeader_ok hl hp]
  simp only [Outcome.bind_ok]
  obtain ⟨r', e2, _⟩ := readMany_ok (f := readTangent fo p) (g := tangentFieldsWith fo p mul)
    (dec := loadedTangent fo p mul) (l := l)
    (fun a ha r rest hr h => by
      simp only [tangentFieldsWith, fieldBits_cons, fieldBits_nil, List.append_nil, List.append_assoc] at h
      obtain ⟨r0, e0, hi0, hd0⟩ := BitReader.readBit_field hr h
      obtain ⟨r1, e1, hi1, hd1⟩ := BitReader.readBit_field hi0 hd0
      obtain ⟨r2, e2, hi2, hd2⟩ := BitReader.readBit_field hi1 hd1
      obtain ⟨r3, e3, hi3, hd3⟩ := BitReader.readBit_field hi2 hd2
      obtain ⟨r4, e4, hi4, hd4⟩ := BitReader.read_field hi3 hp hd3
      obtain ⟨r5, e5, hi5, hd5⟩ := BitReader.read_field hi4 hp hd4
      refine ⟨r5, ?_, hi5, hd5⟩
      simp [readTangent, e0, e1, e2, e3, e4, e5, loadedTangent])
    (BitReader.inv_new (.slice (w.finish ++ suffix))) (by rw [BitReader.rem_new]; exact hb suffix)
  rw [e2]
  rfl

end
end Tmf
