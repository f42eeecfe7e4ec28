import Mathlib.Analysis.SpecialFunctions.Log.Base
import Verif.Spec.Normals
/-
What is assumed of the platform's `log2`: right about special arguments and signs, exact on powers of
two, and off by at most `2^-17` (one unit in the last place of results from 64 to 128).
-/

namespace Tmf.Spec
open Ieee

structure AccurateLog2 (lib : Libm) : Prop where
  nan : lib.log2 .nan = .nan
  infinite : lib.log2 (.inf false) = .inf false
  negative : lib.log2 (.inf true) = .nan ∧ ∀ n h, n ≠ 0 → lib.log2 (.fin true n h) = .nan
  zero : ∀ s h, lib.log2 (.fin s 0 h) = .inf true
  below_one : ∀ x, isFinite x = true → 0 < valueOf x → valueOf x < 1 →
    isFinite (lib.log2 x) = true ∧ valueOf (lib.log2 x) ≤ 0
  near : ∀ x, isFinite x = true → 1 ≤ valueOf x →
    isFinite (lib.log2 x) = true ∧ 0 ≤ valueOf (lib.log2 x) ∧ |realOf (lib.log2 x) - Real.logb 2 (realOf x)| ≤ 1 / 2 ^ 17
  power : ∀ x, isFinite x = true → ∀ k : Nat, valueOf x = 2 ^ k → valueOf (lib.log2 x) = k

end Tmf.Spec
