import Verif.Lemmas.OptTris
import Verif.Spec.SavedSize
/-
Bounds for the size of saved index arrays.
-/

namespace Tmf
open Spec

theorem maxIndex_append_le (l m : List Nat) : maxIndex l ≤ maxIndex (l ++ m) ∧ maxIndex m ≤ maxIndex (l ++ m) := by
  constructor
  · have := (foldl_max_spec l 0).2.2
    rcases this with h | h
    · unfold maxIndex at *; omega
    · exact le_maxIndex (List.mem_append_left _ h)
  · have := (foldl_max_spec m 0).2.2
    rcases this with h | h
    · unfold maxIndex at *; omega
    · exact le_maxIndex (List.mem_append_right _ h)

theorem savedSize_cons (b : Build) (l : List Nat) (ps : List (List Nat)) (hl : ∀ i ∈ l, i < 2 ^ 32) {m : Nat}
    (h : savedSize b ps = .ok m) :
    savedSize b (l :: ps) = .ok (23 + (calcPrec (maxIndex l) * l.length + 7) / 8 + m) := by
  obtain ⟨payload, e, hlen, _⟩ := saveTriangles_ok b l
    (lt_of_lt_of_le (maxIndex_lt (by positivity) hl) (show 2 ^ 32 ≤ 2 ^ 64 by decide))
  rw [savedSize, e, h]
  simp only [Outcome.bind_ok, segmentBytes, List.length_append, length_leBytes, hlen]
  congr 1
  omega

theorem savedSize_bound (b : Build) (ps : List (List Nat)) (W : Nat) :
    (∀ i ∈ ps.flatten, i < 2 ^ 32) → calcPrec (maxIndex ps.flatten) ≤ W → ps ≠ [] →
    ∃ m, savedSize b ps = .ok m ∧ 8 * m ≤ 8 * 23 * ps.length + W * ps.flatten.length + 7 * ps.length := by
  intro hl hW hne
  induction ps with
  | nil => exact absurd rfl hne
  | cons p ps ih =>
    have hlp : ∀ i ∈ p, i < 2 ^ 32 := fun i hi => hl i (by simp [hi])
    have hlq : ∀ i ∈ ps.flatten, i < 2 ^ 32 := fun i hi => hl i (by
      rw [List.flatten_cons]; exact List.mem_append_right _ hi)
    have hmax := maxIndex_append_le p ps.flatten
    have htot : maxIndex (p ++ ps.flatten) < 2 ^ 64 :=
      lt_of_lt_of_le (maxIndex_lt (by positivity) (by simpa using hl)) (show 2 ^ 32 ≤ 2 ^ 64 by decide)
    rw [List.flatten_cons] at hW
    have hp : calcPrec (maxIndex p) ≤ W := le_trans (calcPrec_mono hmax.1 htot) hW
    have hq : calcPrec (maxIndex ps.flatten) ≤ W := le_trans (calcPrec_mono hmax.2 htot) hW
    have hmul := Nat.mul_le_mul_right p.length hp
    by_cases h0 : ps = []
    · subst h0
      refine ⟨_, savedSize_cons b p [] hlp rfl, ?_⟩
      simp
      omega
    · obtain ⟨m, e, hm⟩ := ih hlq hq h0
      refine ⟨_, savedSize_cons b p ps hlp e, ?_⟩
      simp only [List.length_cons, List.flatten_cons, List.length_append, Nat.mul_add]
      omega

end Tmf
