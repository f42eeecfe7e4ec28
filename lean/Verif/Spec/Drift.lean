import Verif.Model.Arrays
import Verif.Spec.Normals
/-
Saving and loading the same normals again and again.
-/

namespace Tmf.Spec
open Ieee

/-- `v` is a finite value, and none is nearer to `r`. -/
def NearestVal (r : ℝ) (v : Val b32) : Prop := isFinite v = true ∧ ∀ w : Val b32, isFinite w = true → |realOf v - r| ≤ |realOf w - r|

/-- A libm without any error besides the last rounding: sine, cosine and arcsine are the values nearest to the true ones. -/
structure CorrectLibm (lib : Libm) : Prop where
  sin : ∀ x, isFinite x = true → NearestVal (Real.sin (realOf x)) (lib.sin x)
  cos : ∀ x, isFinite x = true → NearestVal (Real.cos (realOf x)) (lib.cos x)
  asin : ∀ x, UnitValue x → NearestVal (Real.arcsin (realOf x)) (lib.asin x)

/-- One cycle: `l` is saved with `p` bits and `l'` read back. -/
def NormalCycle (fo : FloatOps) (b : Build) (p : Nat) (l l' : List (Vec3 fo.F)) : Prop :=
  ∃ bytes, saveNormals fo b l p = .ok bytes ∧ readNormals fo bytes = .ok l'

/-- `k` cycles lead from `l` to `l'`. -/
inductive NormalCycles (fo : FloatOps) (b : Build) (p : Nat) : Nat → List (Vec3 fo.F) → List (Vec3 fo.F) → Prop
  | none (l : List (Vec3 fo.F)) : NormalCycles fo b p 0 l l
  | more {k : Nat} {l l' l'' : List (Vec3 fo.F)} : NormalCycle fo b p l l' → NormalCycles fo b p k l' l'' → NormalCycles fo b p (k + 1) l l''

end Tmf.Spec
