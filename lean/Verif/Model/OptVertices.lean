import Verif.Model.Float
import Verif.Model.OptTris
/-
Splitting vertex arrays, src/tmf_exporter.rs:281-364.
-/

namespace Tmf

/-- `Range<Vector3>`: start and end. -/
abbrev Span (F : Type) := Vec3 F × Vec3 F

/-- `prec_x + prec_y + prec_z` on `u8`. -/
def addU8 (b : Build) (x y : Nat) : Outcome ExportError Nat :=
  if x + y < 256 then .ok (x + y)
  else match b with
    | .checked => .panic
    | .wrapping => .ok ((x + y) % 256)

/-- `range_to_vertex_bit_count`, src/tmf_exporter.rs:281-292 (`inc_z` is computed from
`dy`). -/
def rangeToVertexBitCount (fo : FloatOps) (b : Build) (span : Span fo.F) (edge : fo.F) :
    Outcome ExportError Nat := do
  let dx := fo.sub span.2.1 span.1.1
  let dy := fo.sub span.2.2.1 span.1.2.1
  let px := fo.log2CeilU8 (fo.div fo.one (fo.div edge dx))
  let py := fo.log2CeilU8 (fo.div fo.one (fo.div edge dy))
  let pz := fo.log2CeilU8 (fo.div fo.one (fo.div edge dy))
  let s ← addU8 b px py
  addU8 b s pz

/-- `expand_vertex_span`, src/tmf_exporter.rs:293-299. -/
def expandSpan (fo : FloatOps) (span : Span fo.F) (p : Vec3 fo.F) : Span fo.F :=
  ((fo.min span.1.1 p.1, fo.min span.1.2.1 p.2.1, fo.min span.1.2.2 p.2.2),
   (fo.max span.2.1 p.1, fo.max span.2.2.1 p.2.1, fo.max span.2.2.2 p.2.2))

/-- `inside_span`, src/tmf_exporter.rs:300-307. -/
def insideSpan (fo : FloatOps) (span : Span fo.F) (p : Vec3 fo.F) : Bool :=
  fo.lt span.1.1 p.1 && fo.lt p.1 span.2.1 && fo.lt span.1.2.1 p.2.1 && fo.lt p.2.1 span.2.2.1
    && fo.lt span.1.2.2 p.2.2 && fo.lt p.2.2 span.2.2.2

/-- `(0.0,0.0,0.0)..(0.0,0.0,0.0)`. -/
def zeroSpan (fo : FloatOps) : Span fo.F := ((fo.zero, fo.zero, fo.zero), (fo.zero, fo.zero, fo.zero))

/-- `total - per_vertex` on `u8`, src/tmf_exporter.rs:325. -/
def subU8 (b : Build) (x y : Nat) : Outcome ExportError Nat :=
  if y ≤ x then .ok (x - y)
  else match b with
    | .checked => .panic
    | .wrapping => .ok (256 + x - y)

/-- The scan loop, src/tmf_exporter.rs:319-338: vertices that extend the running span only
update it; the others are scored. The loss is 6 + 8 + 48 + 3 = 65. -/
def vertexScan (fo : FloatOps) (b : Build) (edge : fo.F) (total : Nat) :
    (index : Nat) → (span : Span fo.F) → (bits : Nat) → List (Vec3 fo.F) → Best → Outcome ExportError Best
  | _, _, _, [], best => .ok best
  | index, span, bits, v :: rest, best =>
    if insideSpan fo span v then do
      let gain ← subU8 b total bits
      vertexScan fo b edge total (index + 1) span bits rest
        (best.update index (((index * gain : Nat) : Int) - 65))
    else do
      let span := expandSpan fo span v
      let bits ← rangeToVertexBitCount fo b span edge
      vertexScan fo b edge total (index + 1) span bits rest best

/-- `find_best_vertex_spilt`, src/tmf_exporter.rs:308-345. A failed assertion is a panic. -/
def findBestVertexSplit (fo : FloatOps) (b : Build) (vertices : List (Vec3 fo.F)) (edge : fo.F) :
    Outcome ExportError (Option Nat) := do
  let totalSpan := vertices.foldl (expandSpan fo) (zeroSpan fo)
  let total ← rangeToVertexBitCount fo b totalSpan edge
  let best ← vertexScan fo b edge total 0 (zeroSpan fo) 0 vertices ⟨none, 0⟩
  match best.split with
  | some i => if i < vertices.length - 1 then .ok (some i) else .panic
  | none => .ok none

/-- `opt_vertices`, src/tmf_exporter.rs:346-364; running out of fuel (unbounded recursion) is
a panic. -/
def optVerticesFuel (fo : FloatOps) (b : Build) : Nat → List (Vec3 fo.F) →
    Outcome ExportError (List (List (Vec3 fo.F)))
  | 0, _ => .panic
  | fuel + 1, vertices => do
    let split ← findBestVertexSplit fo b vertices (fo.lit 1 2)
    match split with
    | some i => do
      let r0 ← optVerticesFuel fo b fuel (vertices.take i)
      let r1 ← optVerticesFuel fo b fuel (vertices.drop i)
      .ok (r0 ++ r1)
    | none => .ok [vertices]

/-- `opt_vertices`, with a recursion depth of at most the length plus one. -/
def optVertices (fo : FloatOps) (b : Build) (vertices : List (Vec3 fo.F)) :
    Outcome ExportError (List (List (Vec3 fo.F))) :=
  optVerticesFuel fo b (vertices.length + 1) vertices

end Tmf
