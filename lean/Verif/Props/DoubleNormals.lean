import Verif.Lemmas.LibmWitness64
import Verif.Props.DoublePrecision
/-
C81: normals and tangents with the feature `double_precision`.
-/

set_option exponentiation.threshold 2500

namespace Tmf.Props
open Spec Ieee

variable {lib : Libm64} {fb : F64Bytes (ops64 lib)} {b b' : Build} {prec : PrecisionInfo (Val b64)}
  {meshes : List (Mesh (Val b64) × List UInt8)} {bytes : List UInt8}

/-- C81, normals. `ε` is how far the squared length of the normals is from 1. With f32 numbers, normals on the axes are lost with
25 bits and more, and the sign of a small y may change (C38). -/
theorem C81_normals (hlib : AccurateLibm64 lib) (h : tmfBytes (ops64 lib) fb b prec meshes = .ok bytes)
    (hl : LimitsLow (ops64 lib) fb b prec meshes) (hb : bytes.length ≤ 2 ^ 31) (hp1 : 1 ≤ prec.normal) {ε : ℚ} (hε : 1 / 2 ^ 50 ≤ ε)
    (hε1 : ε ≤ 1 / 2 ^ 20) (junk : List UInt8) (sched : List Nat) :
    ∃ out, readTmf (ops64 lib) fb b' ⟨bytes ++ junk, sched, false⟩ = .ok out ∧
      List.Forall₂ (fun mn mn' => mn'.2 = mn.2 ∧ mn'.1.normalTriangles = mn.1.normalTriangles ∧
        ∀ l, mn.1.normals = some l → (∀ n ∈ l, UnitNormal64 ε n) →
          ∃ l', mn'.1.normals = some l' ∧ List.Forall₂ (KeptNormal64 prec.normal ε) l l') meshes out := by
  obtain ⟨out, e, hf⟩ := readTmf_low (b' := b') h hl hb junk sched
  refine ⟨out, e, forall₂_imp hf ?_⟩
  rintro mn hmn mn' ⟨hname, edge, _, hm, _⟩
  rw [hm]
  refine ⟨hname, rfl, fun l hml hu => ⟨l.map (quantNormal (ops64 lib) prec.normal), by simp only [loadedMesh, hml, Option.map_some], ?_⟩⟩
  rcases (saved_narrow h hl mn hmn).normals l hml with rfl | hp
  · exact .nil
  · exact forall₂_map fun n hn => Double.normal_kept hlib hp1 hp hε hε1 (hu n hn)

/-- C81, tangents. -/
theorem C81_tangents (hlib : AccurateLibm64 lib) (h : tmfBytes (ops64 lib) fb b prec meshes = .ok bytes)
    (hl : LimitsLow (ops64 lib) fb b prec meshes) (hb : bytes.length ≤ 2 ^ 31) (hp1 : 1 ≤ prec.tangent) {ε : ℚ} (hε : 1 / 2 ^ 50 ≤ ε)
    (hε1 : ε ≤ 1 / 2 ^ 20) (junk : List UInt8) (sched : List Nat) :
    ∃ out, readTmf (ops64 lib) fb b' ⟨bytes ++ junk, sched, false⟩ = .ok out ∧
      List.Forall₂ (fun mn mn' => mn'.2 = mn.2 ∧ mn'.1.tangentTriangles = mn.1.tangentTriangles ∧
        ∀ l, mn.1.tangents = some l → (∀ t ∈ l, UnitNormal64 ε t.1) →
          ∃ l', mn'.1.tangents = some l' ∧ List.Forall₂ (fun t t' => KeptNormal64 prec.tangent ε t.1 t'.1) l l') meshes out := by
  obtain ⟨out, e, hf⟩ := readTmf_low (b' := b') h hl hb junk sched
  refine ⟨out, e, forall₂_imp hf ?_⟩
  rintro mn hmn mn' ⟨hname, edge, _, hm, _⟩
  rw [hm]
  refine ⟨hname, rfl, fun l hml hu => ⟨l.map (quantTangent (ops64 lib) prec.tangent), by simp only [loadedMesh, hml, Option.map_some], ?_⟩⟩
  rcases (saved_narrow h hl mn hmn).tangents l hml with rfl | hp
  · exact .nil
  · exact forall₂_map fun t ht => Double.normal_kept hlib hp1 hp hε hε1 (hu t ht)

/-- C81, any normal segment with at least one bit per code (the width is byte 8): whatever bytes follow, what is decoded are unit
vectors. -/
theorem C81_decoded_unit (hlib : AccurateLibm64 lib) {bytes : List UInt8} {l : List (Vec3 (Val b64))}
    (h : readNormals (ops64 lib) bytes = .ok l) (hp : 1 ≤ byteAt bytes 8) : ∀ w ∈ l, UnitDecoded64 w :=
  Double.readNormals_unit hlib h hp

/-- The same for tangents. -/
theorem C81_decoded_tangents (hlib : AccurateLibm64 lib) {bytes : List UInt8} {l : List (Tangent (Val b64))}
    (h : readTangents (ops64 lib) bytes = .ok l) (hp : 1 ≤ byteAt bytes 8) : ∀ t ∈ l, UnitDecoded64 t.1 :=
  Double.readTangents_unit hlib h hp

/-! ### An example -/

section Example

/-- An accurate libm that makes every width 30 bits. -/
noncomputable def goodLib : Libm64 := Double.someLibm fun _ => ofNat 30

theorem goodLib_accurate : AccurateLibm64 goodLib := Double.someLibm_accurate _

seal ceilU8 ofNat in
theorem goodLib_bits (x : Val b64) : (ops64 goodLib).log2CeilU8 x = 30 := thirty_ceil

def wMinusOne : Val b64 := .fin true (2 ^ 1074) (by decide +kernel)

theorem valueOf_wMinusOne : valueOf wMinusOne = -1 := by
  rw [wMinusOne, valueOf_fin, show b64.scale = 1074 from rfl]; norm_num [sgn]

/-- Normals along the axes and a tangent. -/
def axes : Mesh (Val b64) :=
  { (Mesh.empty : Mesh (Val b64)) with
    vertices := some corners, normals := some [(wZero, wZero, wMinusOne), (wOne, wZero, wZero)], normalTriangles := some [0, 1, 0]
    tangents := some [((wZero, wMinusOne, wZero), wOne)], tangentTriangles := some [0, 0, 0] }

def axesPrec : PrecisionInfo (Val b64) := ⟨wQuarter, 30, 7, 7⟩

theorem axes_fits : MeshFits axesPrec axes := by
  refine ⟨?_, ?_, ?_, ?_, ?_, ?_, ?_, ?_, ?_, ?_, ?_⟩ <;> simp [LengthFits, IndicesFit, axes, Mesh.empty, corners]

theorem axes_limits (fb : F64Bytes (ops64 goodLib)) : LimitsLow (ops64 goodLib) fb .wrapping axesPrec [(axes, [65])] where
  count := show 1 < 2 ^ 32 by decide
  names := by
    intro mn h
    rcases List.mem_singleton.mp h with rfl
    exact ⟨show 1 < 2 ^ 16 by decide, ⟨['A'], rfl⟩⟩
  fits := by
    intro mn h
    rcases List.mem_singleton.mp h with rfl
    exact axes_fits
  segments := by
    intro mn h segs hs
    rcases List.mem_singleton.mp h with rfl
    refine lt_of_le_of_lt (encodeMesh_count (Double.orderLaws64 goodLib) axes_fits hs) ?_
    show segmentBound axes < _
    decide +kernel
  low := .inr (by
    intro mn h
    rcases List.mem_singleton.mp h with rfl
    refine ⟨fun _ => show 30 ≤ 30 by decide, fun h => (by cases h), fun _ => show 7 ≤ 30 by decide, ?_, ?_⟩
    · intro c hc
      cases hc
    · intro l edge pieces piece s _ _ _ _ _
      rw [VBox.precs, goodLib_bits, goodLib_bits]
      simp)

seal lit isFinite in
theorem axes_edge : EdgeFinite (ops64 goodLib) axes := ⟨tenth_finite, fun vs t _ ht => by cases ht⟩

theorem isqrt_square {r fuel : Nat} (h : r * r < 2 ^ fuel) : isqrt (r * r) fuel = r := by
  obtain ⟨h1, h2⟩ := isqrt_spec h
  have := Nat.mul_self_le_mul_self_iff.mp h1
  have := Nat.mul_self_lt_mul_self_iff.mp h2
  omega

theorem sqrt_square {n r : Nat} {h : b64.Rep n} (h0 : n ≠ 0) (hr : n * 2 ^ b64.scale = r * r) (hl : r * r < 2 ^ (b64.scale + b64.top + b64.prec)) :
    sqrt (.fin false n h) = rounded false (2 * r) 2 := by
  rw [sqrt, if_neg h0, hr, isqrt_square hl, if_pos rfl]
  rfl

theorem sqrt_wOne : sqrt wOne = wOne := by
  have h3 : rounded false (2 * 2 ^ 1074) 2 = wOne := by decide +kernel
  exact (sqrt_square (by decide +kernel) rfl (by decide +kernel)).trans h3

theorem axes_magnitudes : Ieee.add (Ieee.add (Ieee.mul wZero wZero) (Ieee.mul wZero wZero)) (Ieee.mul wMinusOne wMinusOne) = wOne ∧
    Ieee.add (Ieee.add (Ieee.mul wOne wOne) (Ieee.mul wZero wZero)) (Ieee.mul wZero wZero) = wOne := by
  decide +kernel

theorem one_kept : Ieee.lt (Ieee.lit 1 3) (Ieee.abs (Ieee.sub (Ieee.lit 1 0 : Val b64) wOne)) = false := by
  decide +kernel

seal Ieee.lt Ieee.lit Ieee.sub Ieee.add Ieee.mul sqrt in
theorem notUnit_eq (lib : Libm64) (n : Vec3 (Val b64)) : notUnit (ops64 lib) n =
    Ieee.lt (Ieee.lit 1 3) (Ieee.abs (Ieee.sub (Ieee.lit 1 0)
      (sqrt (Ieee.add (Ieee.add (Ieee.mul n.1 n.1) (Ieee.mul n.2.1 n.2.1)) (Ieee.mul n.2.2 n.2.2))))) := rfl

theorem axes_notUnit : [(wZero, wZero, wMinusOne), (wOne, wZero, wZero)].any (notUnit (ops64 goodLib)) = false := by
  have h1 : notUnit (ops64 goodLib) (wZero, wZero, wMinusOne) = false := by
    rw [notUnit_eq]
    dsimp only
    rw [axes_magnitudes.1, sqrt_wOne, one_kept]
  have h2 : notUnit (ops64 goodLib) (wOne, wZero, wZero) = false := by
    rw [notUnit_eq]
    dsimp only
    rw [axes_magnitudes.2, sqrt_wOne, one_kept]
  rw [List.any_cons, List.any_cons, h1, h2]
  rfl

theorem axes_verify : axes.verify (ops64 goodLib) = .ok () := by
  have h1 : verifyVertices axes = none := by rfl
  have h2 : verifyNormals (ops64 goodLib) axes = none := by
    rw [verifyNormals]
    dsimp only [axes]
    rw [axes_notUnit]
    rfl
  have h3 : verifyUvs (ops64 goodLib) axes = none := rfl
  rw [Mesh.verify, h1, h2, h3]
  rfl

theorem axes_saved (fb : F64Bytes (ops64 goodLib)) :
    ∃ bytes, tmfBytes (ops64 goodLib) fb .wrapping axesPrec [(axes, [65])] = .ok bytes ∧ bytes.length ≤ 2 ^ 31 := by
  have : ∃ bytes, tmfBytes (ops64 goodLib) fb .wrapping axesPrec [(axes, [65])] = .ok bytes := by
    refine C29_saved_partial (Double.orderLaws64 goodLib) .wrapping _ _ ?_ ?_ ?_ ?_ ?_
    · intro mn hm
      cases List.mem_singleton.mp hm
      refine ⟨axes_verify, ⟨?_, ?_, ?_⟩, ?_, ?_, ?_, ?_, ?_⟩
      · intro l hl; cases hl; show 3 < 2 ^ 32; decide
      · intro l hl; cases hl; show 2 < 2 ^ 32; decide
      · intro l hl; cases hl
      · intro t ht; cases ht
      · intro t ht; cases ht; decide
      · intro t ht; cases ht
      · intro t ht; cases ht; decide
      · intro c hc; cases hc
    · intro mn hm; cases List.mem_singleton.mp hm; simp [axes, corners]
    · intro mn hm vs t hv ht
      cases List.mem_singleton.mp hm
      cases ht
    · intro mn hm
      cases List.mem_singleton.mp hm
      exact axes_edge
    · intro h; cases h
  obtain ⟨bytes, h⟩ := this
  refine ⟨bytes, h, le_trans (C56_linear (Double.orderLaws64 goodLib) ⟨by decide, by decide, by decide⟩ (fun mn hm => ?_) h) ?_⟩
  · cases List.mem_singleton.mp hm
    exact axes_fits
  · decide +kernel

theorem down_unit : UnitNormal64 (1 / 2 ^ 50) (wZero, wZero, wMinusOne) where
  finite := ⟨rfl, rfl, rfl⟩
  unit := by rw [AlmostUnit]; simp only [valueOf_wZero, valueOf_wMinusOne]; norm_num
  z_le := by rw [valueOf_wMinusOne]; norm_num

theorem right_unit : UnitNormal64 (1 / 2 ^ 50) (wOne, wZero, wZero) where
  finite := ⟨rfl, rfl, rfl⟩
  unit := by rw [AlmostUnit]; simp only [valueOf_wZero, valueOf_wOne]; norm_num
  z_le := by rw [valueOf_wZero]; norm_num

theorem back_unit : UnitNormal64 (1 / 2 ^ 50) (wZero, wMinusOne, wZero) where
  finite := ⟨rfl, rfl, rfl⟩
  unit := by rw [AlmostUnit]; simp only [valueOf_wZero, valueOf_wMinusOne]; norm_num
  z_le := by rw [valueOf_wZero]; norm_num

theorem two {α β : Type} {R : α → β → Prop} {a c : α} {out : List β} (h : List.Forall₂ R [a, c] out) :
    ∃ a' c', out = [a', c'] ∧ R a a' ∧ R c c' := by
  cases h with
  | cons h h0 => obtain ⟨c', rfl, h'⟩ := only h0; exact ⟨_, _, rfl, h, h'⟩

/-- Normals straight down and along x, stored with 30 bits, come back near themselves; with f32 numbers the first would be lost
(`C38_up_violated`). -/
example (fb : F64Bytes (ops64 goodLib)) (b' : Build) : ∃ bytes mn n n',
    tmfBytes (ops64 goodLib) fb .wrapping axesPrec [(axes, [65])] = .ok bytes ∧
    readTmf (ops64 goodLib) fb b' ⟨bytes ++ [], [], false⟩ = .ok [mn] ∧ mn.1.normals = some [n, n'] ∧
    KeptNormal64 30 (1 / 2 ^ 50) (wZero, wZero, wMinusOne) n ∧ KeptNormal64 30 (1 / 2 ^ 50) (wOne, wZero, wZero) n' := by
  obtain ⟨bytes, h, hb⟩ := axes_saved fb
  obtain ⟨out, e, hf⟩ := C81_normals (b' := b') goodLib_accurate h (axes_limits fb) hb (show 1 ≤ 30 by decide) le_rfl (by norm_num) [] []
  obtain ⟨mn, rfl, _, _, hm⟩ := only hf
  obtain ⟨l', hl', hk⟩ := hm _ rfl (fun n hn => by
    simp only [List.mem_cons, List.not_mem_nil, or_false] at hn
    rcases hn with rfl | rfl
    exacts [down_unit, right_unit])
  obtain ⟨n, n', rfl, hk'⟩ := two hk
  exact ⟨bytes, mn, n, n', h, e, hl', hk'⟩

example (fb : F64Bytes (ops64 goodLib)) (b' : Build) : ∃ bytes mn t,
    tmfBytes (ops64 goodLib) fb .wrapping axesPrec [(axes, [65])] = .ok bytes ∧
    readTmf (ops64 goodLib) fb b' ⟨bytes ++ [], [], false⟩ = .ok [mn] ∧ mn.1.tangents = some [t] ∧
    KeptNormal64 7 (1 / 2 ^ 50) (wZero, wMinusOne, wZero) t.1 := by
  obtain ⟨bytes, h, hb⟩ := axes_saved fb
  obtain ⟨out, e, hf⟩ := C81_tangents (b' := b') goodLib_accurate h (axes_limits fb) hb (show 1 ≤ 7 by decide) le_rfl (by norm_num) [] []
  obtain ⟨mn, rfl, _, _, hm⟩ := only hf
  obtain ⟨l', hl', hk⟩ := hm _ rfl (fun t ht => by rcases List.mem_singleton.mp ht with rfl; exact back_unit)
  obtain ⟨t, rfl, hk'⟩ := only hk
  exact ⟨bytes, mn, t, h, e, hl', hk'⟩

/-- A segment of one normal with 7 bits per code, followed by anything. -/
example (lib : Libm64) (hlib : AccurateLibm64 lib) (rest : List UInt8) (l : List (Vec3 (Val b64)))
    (h : readNormals (ops64 lib) ([1, 0, 0, 0, 0, 0, 0, 0, 7] ++ rest) = .ok l) : ∀ w ∈ l, UnitDecoded64 w :=
  C81_decoded_unit hlib h (by rw [byteAt]; simp)

end Example

end Tmf.Props
