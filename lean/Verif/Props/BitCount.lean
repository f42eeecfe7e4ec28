import Verif.Lemmas.BitCount
import Verif.Lemmas.Builds
import Verif.Props.OptVertices
/-
C09 where the coordinates stay below `2^76`: no build panics, and every build cuts alike.
-/

namespace Tmf.Props
open Spec

/-- C09 in every build, for finite coordinates up to `2^76` and a `log2` that is accurate and does not
fall: the splitter ends, debug and release builds cut in the same places, and the pieces put together are
the array. -/
theorem C09_bounded {lib : Ieee.Libm} (hlog : AccurateLog2 lib) (hmono : MonotoneLog2 lib)
    {vs : List (Vec3 (Ieee.Val Ieee.b32))} (h : ∀ v ∈ vs, WithinSpan v) :
    ∃ ps, (∀ b, optVertices (Ieee.ops lib) b vs = .ok ps) ∧ Cuts vs ps := by
  obtain ⟨ps, h1, h2⟩ := C09_debug_partial (Ieee.orderLaws lib) vs (Ieee.countsFit_moderate hlog hmono h)
  refine ⟨ps, ?_, h2⟩
  intro b
  cases b with
  | checked => exact h1
  | wrapping =>
    rcases optVerticesFuel_sub (fo := Ieee.ops lib) (vs.length + 1) vs with e | e
    · rw [optVertices, e] at h1
      cases h1
    · rw [optVertices, ← e]
      exact h1

/-- The bound meets an array with far and near vertices, which is cut in two. -/
example : (∃ ps, (∀ b, optVertices (Ieee.ops Ieee.someLibm) b stretchedVertices = .ok ps) ∧ Cuts stretchedVertices ps) :=
  C09_bounded Ieee.someLibm_log2 Ieee.someLibm_monotone (by
    unfold WithinSpan stretchedVertices
    decide +kernel)

end Tmf.Props
