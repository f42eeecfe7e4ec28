import Verif.Model.Ieee
import Verif.Model.Mesh
/-
C111: vertices with an infinite coordinate.
-/

namespace Tmf.Spec
open Ieee

/-- A vertex array with an infinite coordinate other than `z = +∞` and `y = -∞`, where one of the other
two coordinates is finite throughout. -/
inductive Endless (vs : List (Vec3 (Val b32))) : Prop where
  | above (v : Vec3 (Val b32)) (hv : v ∈ vs) (h : v.1 = .inf false ∨ v.2.1 = .inf false) (hz : ∀ w ∈ vs, isFinite w.2.2 = true)
  | left (v : Vec3 (Val b32)) (hv : v ∈ vs) (h : v.1 = .inf true) (hy : ∀ w ∈ vs, isFinite w.2.1 = true)
  | behind (v : Vec3 (Val b32)) (hv : v ∈ vs) (h : v.2.2 = .inf true) (hx : ∀ w ∈ vs, isFinite w.1 = true)

/-- A piece in which a vertex other than the last has `y = -∞`, while all `x` are numbers. -/
structure SunkBefore (p : List (Vec3 (Val b32))) : Prop where
  sunk : ∃ v ∈ p.dropLast, v.2.1 = .inf true
  plain : ∀ v ∈ p, isFinite v.1 = true

/-- A piece whose infinite coordinates are `y = -∞` and `z = +∞`, at least one of them; any `x` will do. -/
structure Deep (p : List (Vec3 (Val b32))) : Prop where
  y : ∀ v ∈ p, v.2.1 = .inf true ∨ isFinite v.2.1 = true
  z : ∀ v ∈ p, v.2.2 = .inf false ∨ isFinite v.2.2 = true
  some : ∃ v ∈ p, v.2.1 = .inf true ∨ v.2.2 = .inf false

end Tmf.Spec
