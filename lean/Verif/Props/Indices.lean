import Verif.Lemmas.SavedSize
/-
C06, C07, C08, C43: widths of indices, saving index arrays, splitting them.
-/

namespace Tmf.Props
open Spec

/-- C06. The stored width is the least number of bits that can hold the largest index. -/
theorem C06_width_minimal (maxIdx : Nat) (h : maxIdx < 2 ^ 64) :
    Fits maxIdx (calcPrec maxIdx) ∧ ∀ w, Fits maxIdx w → calcPrec maxIdx ≤ w := by
  refine ⟨(calcPrec_spec h).1, fun w hw => calcPrec_le h hw⟩

example : [0, 1, 2, 3, 4, 255, 256, 2 ^ 63, 2 ^ 64 - 1].map calcPrec = [0, 1, 2, 2, 3, 8, 9, 64, 64] := by decide

/-- C07 (part: indices below 2^31). A saved triangle index array reads back unchanged,
whatever bytes follow. Missing: indices from 2^31 on, see below. -/
theorem C07_triangles_roundtrip_partial (b b' : Build) (l : List Nat) (hl : ∀ i ∈ l, i < 2 ^ 31)
    (hlen : l.length ≤ MAX_SEG_SIZE) :
    ∃ bytes, saveTriangles b l (maxIndex l) = .ok bytes ∧
      ∀ suffix, readDefaultTriangles b' ⟨true⟩ (bytes ++ suffix) = .ok l :=
  readDefaultTriangles_saved b b' l hl hlen

example : ∀ i ∈ [7, 2 ^ 31 - 1, 0, 5, 5], i < 2 ^ 31 := by decide

/-- C07 (part: declared maximum below 2^63 and outside 2^31..2^32). A saved custom index or
integer array with a declared maximum that bounds its values reads back unchanged. -/
theorem C07_custom_roundtrip_partial (b b' : Build) (l : List Nat) (m : Nat) (hl : ∀ i ∈ l, i ≤ m ∧ i < 2 ^ 32)
    (hm : m < 2 ^ 31 ∨ 2 ^ 32 ≤ m ∧ m < 2 ^ 63) (hlen : l.length ≤ MAX_SEG_SIZE) :
    ∃ bytes, saveTriangles b l m = .ok bytes ∧
      ∀ suffix, readTriangles b' ⟨true⟩ (bytes ++ suffix) = .ok l := by
  refine readTriangles_saved b b' l (by omega) ?_ (fun i hi => (hl i hi).1) (fun i hi => (hl i hi).2) hlen
  rcases hm with hm | hm
  · have := calcPrec_le (m := m) (k := 31) (by omega) hm
    omega
  · have := lt_calcPrec (m := m) (k := 32) (by omega) hm.1
    omega

example : ∀ i ∈ [7, 2 ^ 32 - 1, 0, 5, 5], i ≤ 2 ^ 33 ∧ i < 2 ^ 32 := by decide

/-- C07 is false for indices of 2^31 and more: the width is then 32, where the double read is
broken, and two or more indices come back as other numbers. -/
theorem C07_large_index_violated (b b' : Build) :
    ∃ l : List Nat, (∀ i ∈ l, i < 2 ^ 32) ∧ ∃ bytes, saveTriangles b l (maxIndex l) = .ok bytes ∧
      ∃ l', readDefaultTriangles b' ⟨true⟩ bytes = .ok l' ∧ l' ≠ l :=
  ⟨[1, 2 ^ 31], by decide, _, by cases b <;> rfl, [1, 1], by cases b' <;> decide, by decide⟩

/-- C07 is false for custom data with a declared maximum of 2^63 or more: nothing is read. -/
theorem C07_large_max_violated (b b' : Build) :
    ∃ (l : List Nat) (m : Nat), (∀ i ∈ l, i ≤ m ∧ i < 2 ^ 32) ∧ m < 2 ^ 64 ∧
      ∃ bytes, saveTriangles b l m = .ok bytes ∧
      ∃ l', readTriangles b' ⟨true⟩ bytes = .ok l' ∧ l' ≠ l :=
  ⟨[1, 5], 2 ^ 63, by decide, by decide, _, by cases b <;> rfl, [1, 1], by cases b' <;> decide, by decide⟩

/-- C07 is false for custom data whose declared maximum is too small (nothing checks it):
the values are silently cut to the declared width. -/
theorem C07_small_max_violated (b b' : Build) :
    ∃ (l : List Nat) (m : Nat), (∀ i ∈ l, i < 2 ^ 32) ∧ m < 2 ^ 31 ∧
      ∃ bytes, saveTriangles b l m = .ok bytes ∧
      ∃ l', readTriangles b' ⟨true⟩ bytes = .ok l' ∧ l' ≠ l :=
  ⟨[0, 5], 3, by decide, by decide, _, by cases b <;> rfl, [0, 1], by cases b' <;> decide, by decide⟩

/-- C08. The optimiser always terminates without panicking and cuts the array into
consecutive non-empty pieces. -/
theorem C08_opt_tris (b : Build) (l : List Nat) (hl : ∀ i ∈ l, i < 2 ^ 32) :
    ∃ pieces, optTris b l = .ok pieces ∧ CutInto l pieces := by
  obtain ⟨ps, e, h1, h2, h3⟩ := optTris_ok b l hl
  exact ⟨ps, e, h1, h3, h2⟩

/-- An empty array stays one empty piece. -/
theorem C08_empty (b : Build) : optTris b [] = .ok [[]] := by cases b <;> rfl

/-- A case where a split really happens, at 99. -/
example : optTris .checked (List.replicate 100 0 ++ [1])
    = .ok [List.replicate 99 0, [0, 1]] := by decide +kernel

/-- C43 is false: splitting 100 zeros followed by a one costs 11 bytes more. -/
theorem C43_size_violated (b : Build) :
    ∃ l pieces n m, (∀ i ∈ l, i < 2 ^ 32) ∧ optTris b l = .ok pieces ∧
      savedSize b [l] = .ok n ∧ savedSize b pieces = .ok m ∧ n < m :=
  ⟨List.replicate 100 0 ++ [1], [List.replicate 99 0, [0, 1]], 36, 47, by decide,
    by cases b <;> decide +kernel, by cases b <;> decide +kernel, by cases b <;> decide +kernel, by decide⟩

/-- C43 (part). Optimisation costs at most 24 bytes for each cut it makes. -/
theorem C43_size_bounded_partial (b : Build) (l : List Nat) (hl : ∀ i ∈ l, i < 2 ^ 32) :
    ∃ pieces n m, optTris b l = .ok pieces ∧ savedSize b [l] = .ok n ∧ savedSize b pieces = .ok m ∧
      m ≤ n + 24 * (pieces.length - 1) := by
  obtain ⟨ps, e, h1, h2, _⟩ := optTris_ok b l hl
  obtain ⟨m, em, hm⟩ := savedSize_bound b ps (calcPrec (maxIndex l)) (by rw [h1]; exact hl) (by rw [h1]) h2
  refine ⟨ps, _, m, e, savedSize_cons b l [] hl rfl, em, ?_⟩
  rw [h1] at hm
  have : 0 < ps.length := List.length_pos_iff.mpr h2
  omega

/-- Without a cut the size is unchanged. -/
theorem C43_no_cut (b : Build) (l : List Nat) (hl : ∀ i ∈ l, i < 2 ^ 32) (p : List Nat)
    (h : optTris b l = .ok [p]) : p = l := by
  obtain ⟨ps, e, h1, _⟩ := optTris_ok b l hl
  rw [h] at e
  simp only [Outcome.ok.injEq] at e
  subst e
  simpa using h1

end Tmf.Props
