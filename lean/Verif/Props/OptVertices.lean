import Verif.Lemmas.OptVertices
import Verif.Lemmas.Ieee
import Verif.Lemmas.LibmWitness
/-
C09: splitting vertex arrays. `log2CeilU8` and the divisions under it are arbitrary: only the
comparisons, `min` and `max` are constrained (by `OrderLaws`, which IEEE arithmetic meets).
-/

namespace Tmf.Props
open Spec
variable {fo : FloatOps}

/-- C09, the assertion: in either build, when the scan of a vertex array finds a split, it is
neither at the front nor at the last vertex. The assertion at src/tmf_exporter.rs:340 holds. -/
theorem C09_assertion (laws : OrderLaws fo) (b : Build) (vs : List (Vec3 fo.F)) (edge : fo.F) {total : Nat} {best : Best}
    (ht : rangeToVertexBitCount fo b (spanOf fo vs) edge = .ok total)
    (hs : vertexScan fo b edge total 0 (zeroSpan fo) 0 vs ⟨none, 0⟩ = .ok best) {i : Nat} (hi : best.split = some i) :
    0 < i ∧ i < vs.length - 1 := by
  have := (vertexScan_inner laws b edge total vs ht vs [] 0 ⟨none, 0⟩ best rfl (by simp) (inner_start _) hs).split hi
  omega

/-- C09 for release builds: every vertex array is cut into consecutive, non-empty pieces; no
assertion fires and the recursion ends. -/
theorem C09_release (laws : OrderLaws fo) (vs : List (Vec3 fo.F)) :
    ∃ ps, optVertices fo .wrapping vs = .ok ps ∧ Cuts vs ps :=
  optVerticesFuel_ok laws .wrapping (vs.length + 1) vs (by omega) (fun _ _ => bitCount_wrapping _ _)
    (fun _ _ _ _ total n _ _ => subU8_wrapping total n)

/-- C09 for debug builds, for vertex arrays on which the `u8` arithmetic of the estimate does not
overflow. -/
theorem C09_debug_partial (laws : OrderLaws fo) (vs : List (Vec3 fo.F)) (h : CountsFit fo vs) :
    ∃ ps, optVertices fo .checked vs = .ok ps ∧ Cuts vs ps := by
  refine optVerticesFuel_ok laws .checked (vs.length + 1) vs (by omega) h.total ?_
  intro l p hl hp total n ht hn
  have := h.mono l p hl hp total n ht hn
  exact ⟨total - n, by simp [subU8, this]⟩

/-- The laws hold for IEEE arithmetic. -/
theorem C09_laws_ieee (lib : Ieee.Libm) : OrderLaws (Ieee.ops lib) := Ieee.orderLaws lib

/-- A vertex whose coordinates are 2^100. -/
def farVertex : Vec3 (Ieee.Val Ieee.b32) := (Ieee.ofNat (2 ^ 100), Ieee.ofNat (2 ^ 100), Ieee.ofNat (2 ^ 100))

/-- The quotient whose logarithm gives the bit count of each axis of `farVertex`. -/
def farSteps : Ieee.Val Ieee.b32 := Ieee.div (Ieee.lit 1 0) (Ieee.div (Ieee.lit 1 2)
  (Ieee.sub (Ieee.max (Ieee.lit 0 0) (Ieee.ofNat (2 ^ 100))) (Ieee.min (Ieee.lit 0 0) (Ieee.ofNat (2 ^ 100)))))

theorem farVertex_overflows (lib : Ieee.Libm) (hlog : AccurateLog2 lib) :
    rangeToVertexBitCount (Ieee.ops lib) .checked (spanOf (Ieee.ops lib) [farVertex]) ((Ieee.ops lib).lit 1 2) = .panic := by
  have hb : Ieee.bitsFor lib farSteps = 107 := by
    rw [Ieee.bits_clear hlog] <;> decide +kernel
  have h : (do
      let s ← addU8 .checked (Ieee.bitsFor lib farSteps) (Ieee.bitsFor lib farSteps)
      addU8 .checked s (Ieee.bitsFor lib farSteps)) = (.panic : Outcome ExportError Nat) := by
    rw [hb]; rfl
  exact h

/-- C09 is false in debug builds: three bit counts of 107 add up to more than 255, and the addition
panics. -/
theorem C09_debug_violated (lib : Ieee.Libm) (hlog : AccurateLog2 lib) : ∃ vs, optVertices (Ieee.ops lib) .checked vs = .panic := by
  refine ⟨[farVertex], ?_⟩
  have h := farVertex_overflows lib hlog
  unfold optVertices optVerticesFuel findBestVertexSplit
  simp only
  rw [show List.foldl (expandSpan (Ieee.ops lib)) (zeroSpan (Ieee.ops lib)) [farVertex] = spanOf (Ieee.ops lib) [farVertex] from rfl, h]
  rfl

/-! Examples: an array that is cut after its second vertex. -/

/-- All runs of consecutive elements. -/
def runs {α : Type} (l : List α) : List (List α) := l.tails.flatMap List.inits

theorem mem_runs {α : Type} {l p : List α} (h : p <:+: l) : p ∈ runs l := by
  obtain ⟨s, t, rfl⟩ := h
  refine List.mem_flatMap.mpr ⟨p ++ t, ?_, ?_⟩
  · exact (List.mem_tails _ _).mpr ⟨s, by simp⟩
  · exact (List.mem_inits _ _).mpr ⟨t, rfl⟩

/-- `CountsFit` as a computation. -/
def countsFit (fo : FloatOps) (vs : List (Vec3 fo.F)) : Bool :=
  (runs vs).all fun l => l.inits.all fun p =>
    match rangeToVertexBitCount fo .checked (spanOf fo l) (fo.lit 1 2), rangeToVertexBitCount fo .checked (spanOf fo p) (fo.lit 1 2) with
    | .ok n, .ok k => k ≤ n
    | _, _ => false

theorem countsFit_sound {vs : List (Vec3 fo.F)} (h : countsFit fo vs = true) : CountsFit fo vs := by
  simp only [countsFit, List.all_eq_true] at h
  constructor
  · intro l hl
    have := h l (mem_runs hl) l ((List.mem_inits _ _).mpr (List.prefix_refl l))
    cases e : rangeToVertexBitCount fo .checked (spanOf fo l) (fo.lit 1 2) with
    | ok n => exact ⟨n, rfl⟩
    | err x => rw [e] at this; cases this
    | panic => rw [e] at this; cases this
  · intro l p hl hp n k hn hk
    have := h l (mem_runs hl) p ((List.mem_inits _ _).mpr hp)
    rw [hn, hk] at this
    simpa using this

/-- Three vertices near the origin and one far away. -/
def stretchedVertices : List (Vec3 (Ieee.Val Ieee.b32)) :=
  [(Ieee.ofNat 8, Ieee.ofNat 8, Ieee.ofNat 8), (Ieee.ofNat 1, Ieee.ofNat 1, Ieee.ofNat 1),
   (Ieee.ofNat 1, Ieee.ofNat 2, Ieee.ofNat 1), (Ieee.ofNat (2 ^ 20), Ieee.ofNat (2 ^ 20), Ieee.ofNat (2 ^ 20))]

example : findBestVertexSplit (Ieee.ops ⟨id, id, id, Ieee.ceilLog2⟩) .checked stretchedVertices (Ieee.lit 1 2) = .ok (some 2) := by decide +kernel

example : ∃ ps, optVertices (Ieee.ops ⟨id, id, id, Ieee.ceilLog2⟩) .checked stretchedVertices = .ok ps ∧ Cuts stretchedVertices ps :=
  C09_debug_partial (fo := Ieee.ops ⟨id, id, id, Ieee.ceilLog2⟩) (Ieee.orderLaws _) stretchedVertices (countsFit_sound (by decide +kernel))

example : optVertices (Ieee.ops ⟨id, id, id, Ieee.ceilLog2⟩) .wrapping stretchedVertices =
    .ok [stretchedVertices.take 2, stretchedVertices.drop 2] := by decide +kernel

end Tmf.Props
