import Verif.Model.Triangles
/-
Splitting index arrays, src/tmf_exporter.rs:215-280.
-/

namespace Tmf

/-- A `u64`/`usize` read as `i64`/`isize` (`as isize`). -/
def asI64 (n : Nat) : Int := if n % 2 ^ 64 < 2 ^ 63 then ((n % 2 ^ 64 : Nat) : Int) else ((n % 2 ^ 64 : Nat) : Int) - 2 ^ 64

/-- `calc_spilt_score`, src/tmf_exporter.rs:217-226. The loss is (6 + 1 + 4) bytes. The
subtraction of the two widths is on `usize`: an underflow panics or wraps. Simplified: the
product is not wrapped when there is no underflow (a gain of at most 64 times the length of an
array in memory stays below 2^63), nor is the final `isize` subtraction. -/
def calcSpiltScore (b : Build) (len : Nat) (deltaSpan : Nat × Nat) : Outcome ExportError Int :=
  let p0 := calcPrec deltaSpan.1
  let p1 := calcPrec deltaSpan.2
  if p0 < p1 then
    match b with
    | .checked => .panic
    | .wrapping => .ok (asI64 ((2 ^ 64 + p0 - p1) * len) - 88)
  else .ok ((((p0 - p1) * len : Nat) : Int) - 88)

/-- State of the scan loops: best score (`none` = `isize::MIN`), best index. -/
structure Best where
  score : Option Int
  index : Nat
deriving Repr, DecidableEq

/-- `if score > best_score { ... }`. -/
def Best.update (best : Best) (index : Nat) (score : Int) : Best :=
  match best.score with
  | none => ⟨some score, index⟩
  | some s => if score > s then ⟨some score, index⟩ else best

/-- First loop of `opt_tris`, src/tmf_exporter.rs:232-239. -/
def scanMax (b : Build) (totalMax : Nat) :
    (index maxIdx : Nat) → List Nat → Best → Outcome ExportError Best
  | _, _, [], best => .ok best
  | index, maxIdx, tri :: rest, best => do
    let maxIdx := max maxIdx tri
    let score ← calcSpiltScore b index (totalMax, maxIdx)
    scanMax b totalMax (index + 1) maxIdx rest (best.update index score)

/-- Second loop of `opt_tris`, src/tmf_exporter.rs:257-264. -/
def scanMin (b : Build) (totalMin : Nat) :
    (index minIdx : Nat) → List Nat → Best → Outcome ExportError Best
  | _, _, [], best => .ok best
  | index, minIdx, tri :: rest, best => do
    let minIdx := min minIdx tri
    let score ← calcSpiltScore b index (minIdx, totalMin)
    scanMin b totalMin (index + 1) minIdx rest (best.update index score)

/-- `best_score > 0`: the split position, if any. -/
def Best.split (best : Best) : Option Nat :=
  match best.score with
  | some s => if s > 0 then some best.index else none
  | none => none

/-- Where `opt_tris` splits, if at all: by the running maximum, else by the running minimum.
`unwrap_or(&1)` for the empty array as in the source. -/
def trisSplit (b : Build) (triangles : List Nat) : Outcome ExportError (Option Nat) := do
  let totalMax := if triangles = [] then 1 else maxIndex triangles
  let best ← scanMax b totalMax 0 0 triangles ⟨none, 0⟩
  match best.split with
  | some i => .ok (some i)
  | none => do
    let totalMin := if triangles = [] then 1 else minIndex triangles
    let best ← scanMin b totalMin 0 (2 ^ 32 - 1) triangles ⟨none, 0⟩
    .ok best.split

/-- `opt_tris`, src/tmf_exporter.rs:227-280, with fuel for the recursion; running out of fuel
(unbounded recursion) is a panic. Simplified: `split_at` beyond the end is not a panic here
(`C08_opt_tris` shows the position is inside). -/
def optTrisFuel (b : Build) : Nat → List Nat → Outcome ExportError (List (List Nat))
  | 0, _ => .panic
  | fuel + 1, triangles => do
    let split ← trisSplit b triangles
    match split with
    | some i => do
      let r1 ← optTrisFuel b fuel (triangles.take i)
      let r2 ← optTrisFuel b fuel (triangles.drop i)
      .ok (r1 ++ r2)
    | none => .ok [triangles]

/-- `opt_tris`, with a recursion depth of at most the length plus one. -/
def optTris (b : Build) (triangles : List Nat) : Outcome ExportError (List (List Nat)) :=
  optTrisFuel b (triangles.length + 1) triangles

end Tmf
