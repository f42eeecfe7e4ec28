import Mathlib.Data.Rat.Cast.Order
import Mathlib.Tactic.Linarith
import Mathlib.Tactic.Ring
import Mathlib.Tactic.Positivity
import Mathlib.Data.Real.Basic
/-
Polynomials with rational coefficients that are nowhere negative on an interval: a checker, and a
proof that it is right.
-/

namespace Tmf.PolyBound

/-- The polynomial with these coefficients, lowest first. -/
def eval : List ℚ → ℝ → ℝ
  | [], _ => 0
  | c :: cs, x => c + x * eval cs x

def addP : List ℚ → List ℚ → List ℚ
  | [], q => q
  | p, [] => p
  | a :: p, b :: q => (a + b) :: addP p q

def scaleP (k : ℚ) (p : List ℚ) : List ℚ := p.map (k * ·)

/-- The coefficients of `x ↦ p (x + a)`. -/
def shiftP (a : ℚ) : List ℚ → List ℚ
  | [] => []
  | c :: cs => addP [c] (addP (0 :: shiftP a cs) (scaleP a (shiftP a cs)))

/-- A lower bound on [0, w]. -/
def low (w : ℚ) : List ℚ → ℚ
  | [] => 0
  | c :: cs => c + min 0 (w * low w cs)

/-- Whether the polynomial is seen to be nonnegative on `[a, b]` by halving it often enough. -/
def good (p : List ℚ) : Nat → ℚ → ℚ → Bool
  | 0, _, _ => false
  | fuel + 1, a, b => decide (0 ≤ low (b - a) (shiftP a p)) || (good p fuel a ((a + b) / 2) && good p fuel ((a + b) / 2) b)

theorem eval_addP (p q : List ℚ) (x : ℝ) : eval (addP p q) x = eval p x + eval q x := by
  induction p generalizing q with
  | nil => simp [addP, eval]
  | cons a p ih =>
    cases q with
    | nil => simp [addP, eval]
    | cons b q => simp only [addP, eval, ih]; push_cast; ring

theorem eval_scaleP (k : ℚ) (p : List ℚ) (x : ℝ) : eval (scaleP k p) x = k * eval p x := by
  induction p with
  | nil => simp [scaleP, eval]
  | cons a p ih =>
    have h : scaleP k (a :: p) = (k * a) :: scaleP k p := rfl
    rw [h, eval, eval, ih]
    push_cast
    ring

theorem eval_shiftP (a : ℚ) (p : List ℚ) (x : ℝ) : eval (shiftP a p) x = eval p (x + a) := by
  induction p with
  | nil => rfl
  | cons c cs ih =>
    rw [shiftP, eval_addP, eval_addP, eval_scaleP]
    simp only [eval, ih]
    push_cast
    ring

theorem low_le {w : ℚ} (p : List ℚ) {x : ℝ} (h0 : 0 ≤ x) (h1 : x ≤ w) : (low w p : ℝ) ≤ eval p x := by
  induction p with
  | nil => simp [low, eval]
  | cons c cs ih =>
    rw [low, eval]
    push_cast
    refine add_le_add le_rfl ?_
    rcases le_or_gt 0 (low w cs) with h | h
    · have h' : (0 : ℝ) ≤ low w cs := by exact_mod_cast h
      exact le_trans (min_le_left _ _) (mul_nonneg h0 (le_trans h' ih))
    · have h' : (low w cs : ℝ) ≤ 0 := by exact_mod_cast h.le
      refine le_trans (min_le_right _ _) ?_
      calc (w : ℝ) * low w cs ≤ x * low w cs := mul_le_mul_of_nonpos_right h1 h'
        _ ≤ x * eval cs x := mul_le_mul_of_nonneg_left ih h0

theorem good_sound {p : List ℚ} {fuel : Nat} {a b : ℚ} (h : good p fuel a b = true) {x : ℝ} (h0 : (a : ℝ) ≤ x) (h1 : x ≤ b) :
    0 ≤ eval p x := by
  induction fuel generalizing a b with
  | zero => cases h
  | succ fuel ih =>
    rw [good, Bool.or_eq_true, Bool.and_eq_true] at h
    rcases h with h | ⟨h2, h3⟩
    · have hl := of_decide_eq_true h
      have hl' : (0 : ℝ) ≤ (low (b - a) (shiftP a p) : ℝ) := by exact_mod_cast hl
      have := low_le (w := b - a) (shiftP a p) (x := x - a) (by linarith) (by push_cast; linarith)
      rw [eval_shiftP, sub_add_cancel] at this
      exact le_trans hl' this
    · rcases le_total x (((a + b) / 2 : ℚ) : ℝ) with hx | hx
      · exact ih h2 h0 hx
      · exact ih h3 hx h1

end Tmf.PolyBound
