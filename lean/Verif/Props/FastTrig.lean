import Verif.Lemmas.FastFile
import Verif.Props.FileAccuracy
/-
C66: builds with the feature `fast_trig`, which takes sine and cosine from a polynomial. `fastLibm lib` is the
math library such a build works with; only the sine and cosine differ from `lib`.
-/

set_option exponentiation.threshold 2000

namespace Tmf.Props
open Spec Ieee

variable {lib : Libm}

/-! ### The approximation -/

/-- C66, the sine: for every angle a code can stand for (0 up to the f32 above π/2), the approximated sine is a
number between 0 and 1 and at most 0.000333 off; the approximated cosine is a number, not negative, at most
1/404 off, and the squares add up to 1 within `2^-21`. -/
theorem C66_sine {a : Val b32} (ha : isFinite a = true) (h0 : 0 ≤ valueOf a) (h1 : valueOf a ≤ valueOf halfPi32) :
    UnitValue (fastSin a) ∧ |realOf (fastSin a) - Real.sin (realOf a)| ≤ 333 / 10 ^ 6 ∧
      isFinite (fastCos a) = true ∧ 0 ≤ valueOf (fastCos a) ∧ |realOf (fastCos a) - Real.cos (realOf a)| ≤ 1 / 404 ∧
      |valueOf (fastCos a) ^ 2 + valueOf (fastSin a) ^ 2 - 1| ≤ 1 / 2 ^ 21 := by
  obtain ⟨s1, s2, -⟩ := fastSin_value ha h0 h1
  obtain ⟨c1, c2, c3, c4⟩ := fastCos_value ha h0 h1
  exact ⟨s1, s2, c1, c2, c4, c3⟩

example : isFinite vOne = true ∧ 0 ≤ valueOf vOne ∧ valueOf vOne ≤ valueOf halfPi32 := by
  refine ⟨rfl, ?_, ?_⟩
  · rw [valueOf_vOne]; norm_num
  · rw [valueOf_vOne, halfPi_value.2]; norm_num

/-! ### Files -/

/-- C66, writing: the feature does not change what is written. -/
theorem C66_written (lib : Libm) (b : Build) (prec : PrecisionInfo (Val b32)) (meshes : List (Mesh (Val b32) × List UInt8)) :
    tmfBytes (ops (fastLibm lib)) (f64Le (fastLibm lib)) b prec meshes = tmfBytes (ops lib) (f64Le lib) b prec meshes :=
  tmfBytes_fast lib b prec meshes

example (lib : Libm) : ∃ bytes, tmfBytes (ops lib) (f64Le lib) .wrapping kitPrec [(kit, [65])] = .ok bytes ∧
    tmfBytes (ops (fastLibm lib)) (f64Le (fastLibm lib)) .wrapping kitPrec [(kit, [65])] = .ok bytes := by
  obtain ⟨bytes, h, -⟩ := kit_saved (f64Le lib)
  exact ⟨bytes, h, (C66_written lib _ _ _).trans h⟩

/-- C66, reading: whatever is read, with or without the feature the result is the same error or panic, or meshes
that differ in normals and tangents only: z and the handedness are equal, and the vectors are at most 1/384
apart. -/
theorem C66_read (hlib : AccurateLibm lib) (b : Build) (s : Source) :
    Both (List.Forall₂ fun mn mn' => FastMesh mn.1 mn'.1 ∧ mn.2 = mn'.2)
      (readTmf (ops (fastLibm lib)) (f64Le (fastLibm lib)) b s) (readTmf (ops lib) (f64Le lib) b s) :=
  readTmf_fast hlib b s

/-- One mesh is read either way, with its name and triangles the same, and a normal each. -/
example (b' : Build) : ∃ bytes mn mn' w v,
    readTmf (ops (fastLibm someLibm)) (f64Le (fastLibm someLibm)) b' ⟨bytes, [], false⟩ = .ok [mn] ∧
    readTmf (ops someLibm) (f64Le someLibm) b' ⟨bytes, [], false⟩ = .ok [mn'] ∧
    mn.2 = mn'.2 ∧ mn.1.vertexTriangles = mn'.1.vertexTriangles ∧ mn.1.normals = some [w] ∧ mn'.1.normals = some [v] ∧ FastNear w v := by
  obtain ⟨bytes, h, hb⟩ := kit_saved (f64Le someLibm)
  obtain ⟨out, e, hf⟩ := C38_file_partial (b' := b') someLibm_accurate h (kit_limits someLibm_log2 _) hb
    (show 1 ≤ 7 by decide) [] []
  obtain ⟨mn', rfl, hm⟩ := forall₂_one hf
  obtain ⟨l', hl', hk⟩ := hm _ rfl (fun n hn => by rcases List.mem_singleton.mp hn with rfl; exact ⟨unit_example, fun h => absurd h (by decide)⟩)
  obtain ⟨v, rfl, -⟩ := forall₂_one hk
  have hB := C66_read someLibm_accurate b' ⟨bytes ++ [], [], false⟩
  rw [e] at hB
  generalize hx : readTmf (ops (fastLibm someLibm)) (f64Le (fastLibm someLibm)) b' ⟨bytes ++ [], [], false⟩ = x at hB
  cases hB with
  | ok hB =>
  cases hB with
  | @cons mn _ _ _ h1 h2 =>
  cases h2
  have hn := h1.1.normals
  rw [hl'] at hn
  cases hw : mn.1.normals with
  | none => rw [hw] at hn; exact hn.elim
  | some lw =>
  rw [hw] at hn
  cases hn with
  | @cons w _ _ _ hn hr =>
  cases hr
  exact ⟨_, mn, mn', w, v, hx, e, h1.2, h1.1.vertexTriangles, hw, hl', hn⟩

/-! ### Decoded vectors -/

/-- C66, the part about length, for any normal segment with at least one bit per code (the width is byte 8):
what is decoded are unit vectors, whatever the math library does. -/
theorem C66_decoded_unit (lib : Libm) {bytes : List UInt8} {l : List (Vec3 (Val b32))}
    (h : readNormals (ops (fastLibm lib)) bytes = .ok l) (hp : 1 ≤ byteAt bytes 8) : ∀ w ∈ l, UnitDecoded w :=
  readNormals_fast_unit lib h hp

example (lib : Libm) : ∃ w, readNormals (ops (fastLibm lib)) [1, 0, 0, 0, 0, 0, 0, 0, 4, 0xa5, 0x37] = .ok [w] ∧
    1 ≤ byteAt [1, 0, 0, 0, 0, 0, 0, 0, 4, 0xa5, 0x37] 8 :=
  ⟨normalFromEncoding (ops (fastLibm lib)) 4 ⟨2, 9, true, false, true⟩, rfl, by decide⟩

/-- The same for tangents. -/
theorem C66_decoded_tangents (lib : Libm) {bytes : List UInt8} {l : List (Tangent (Val b32))}
    (h : readTangents (ops (fastLibm lib)) bytes = .ok l) (hp : 1 ≤ byteAt bytes 8) : ∀ t ∈ l, UnitDecoded t.1 :=
  readTangents_fast_unit lib h hp

example (lib : Libm) : ∃ t, readTangents (ops (fastLibm lib)) [1, 0, 0, 0, 0, 0, 0, 0, 4, 0xa5, 0x37] = .ok [t] ∧
    1 ≤ byteAt [1, 0, 0, 0, 0, 0, 0, 0, 4, 0xa5, 0x37] 8 :=
  ⟨(normalFromEncoding (ops (fastLibm lib)) 4 ⟨5, 3, false, true, false⟩, htFromBool (ops (fastLibm lib)) true), rfl, by decide⟩

/-! ### Saved vectors -/

/-- C66, saving and loading normals with the feature: unit vectors come back as unit vectors near the original,
and every sign is kept (unlike without the feature, see `C38_sign_violated`). -/
theorem C66_normals (hlib : AccurateLibm lib) {b : Build} {l : List (Vec3 (Val b32))} {p : Nat} (hp1 : 1 ≤ p)
    (hp : p ≤ 30) (hl : l.length ≤ 2 ^ 31) (hn : ∀ n ∈ l, UnitNormal n ∧ (25 ≤ p → OffAxes n)) :
    ∃ bytes l', saveNormals (ops (fastLibm lib)) b l p = .ok bytes ∧ readNormals (ops (fastLibm lib)) bytes = .ok l' ∧
      List.Forall₂ (KeptFast p) l l' := by
  obtain ⟨bytes, hs, hr⟩ := readNormals_saved (fo := ops (fastLibm lib)) (b := b) (l := l) (p := p) (by omega)
    (.inr (by omega)) hl
  have := hr []
  rw [List.append_nil] at this
  exact ⟨bytes, _, hs, this, forall₂_map fun n h => normal_kept_fast hlib hp1 hp (hn n h).1 (hn n h).2⟩

example (b : Build) : ∃ lib, ∃ bytes l', saveNormals (ops (fastLibm lib)) b [(minusThreeFifths, vZero, fourFifths)] 7 = .ok bytes ∧
    readNormals (ops (fastLibm lib)) bytes = .ok l' ∧ List.Forall₂ (KeptFast 7) [(minusThreeFifths, vZero, fourFifths)] l' :=
  ⟨someLibm, C66_normals someLibm_accurate (by decide) (by decide) (by show 1 ≤ 2 ^ 31; decide) (fun n h => by
    rw [List.mem_singleton] at h
    subst h
    exact ⟨unit_example, fun h => absurd h (by decide)⟩)⟩

/-- The same for tangents. -/
theorem C66_tangents (hlib : AccurateLibm lib) {b : Build} {l : List (Tangent (Val b32))} {p : Nat} (hp1 : 1 ≤ p)
    (hp : p ≤ 30) (hl : l.length ≤ 2 ^ 31) (hn : ∀ t ∈ l, UnitNormal t.1 ∧ (25 ≤ p → OffAxes t.1)) :
    ∃ bytes l', saveTangents (ops (fastLibm lib)) b l p = .ok bytes ∧ readTangents (ops (fastLibm lib)) bytes = .ok l' ∧
      List.Forall₂ (fun t t' => KeptFast p t.1 t'.1) l l' := by
  obtain ⟨bytes, hs, hr⟩ := readTangents_saved (fo := ops (fastLibm lib)) (b := b) (l := l) (p := p) (by omega)
    (.inr (by omega)) hl
  have := hr []
  rw [List.append_nil] at this
  exact ⟨bytes, _, hs, this, forall₂_map fun t h => normal_kept_fast hlib hp1 hp (hn t h).1 (hn t h).2⟩

example (b : Build) : ∃ lib, ∃ bytes l', saveTangents (ops (fastLibm lib)) b [((minusThreeFifths, vZero, fourFifths), vOne)] 7 =
    .ok bytes ∧ readTangents (ops (fastLibm lib)) bytes = .ok l' ∧
      List.Forall₂ (fun t t' => KeptFast 7 t.1 t'.1) [((minusThreeFifths, vZero, fourFifths), vOne)] l' :=
  ⟨someLibm, C66_tangents someLibm_accurate (by decide) (by decide) (by show 1 ≤ 2 ^ 31; decide) (fun n h => by
    rw [List.mem_singleton] at h
    subst h
    exact ⟨unit_example, fun h => absurd h (by decide)⟩)⟩

variable {b b' : Build} {prec : PrecisionInfo (Val b32)} {meshes : List (Mesh (Val b32) × List UInt8)} {bytes : List UInt8}

/-- C66 for the normals of whole files, written with or without the feature and read with it. -/
theorem C66_file (hlib : AccurateLibm lib) (h : tmfBytes (ops lib) (f64Le lib) b prec meshes = .ok bytes)
    (hl : LimitsLow (ops lib) (f64Le lib) b prec meshes) (hb : bytes.length ≤ 2 ^ 31) (hp1 : 1 ≤ prec.normal)
    (junk : List UInt8) (sched : List Nat) :
    ∃ out, readTmf (ops (fastLibm lib)) (f64Le (fastLibm lib)) b' ⟨bytes ++ junk, sched, false⟩ = .ok out ∧
      List.Forall₂ (fun mn mn' => ∀ l, mn.1.normals = some l → (∀ n ∈ l, UnitNormal n ∧ (25 ≤ prec.normal → OffAxes n)) →
        ∃ l', mn'.1.normals = some l' ∧ List.Forall₂ (KeptFast prec.normal) l l') meshes out := by
  rw [← C66_written] at h
  obtain ⟨out, e, hf⟩ := readTmf_low (b' := b') h (limits_fast hl) hb junk sched
  refine ⟨out, e, forall₂_imp hf ?_⟩
  rintro mn hmn mn' ⟨_, edge, _, hm, _⟩ l hml hu
  rw [hm]
  refine ⟨l.map (quantNormal (ops (fastLibm lib)) prec.normal), by simp only [loadedMesh, hml, Option.map_some], ?_⟩
  rcases (saved_narrow h (limits_fast hl) mn hmn).normals l hml with rfl | hp
  · exact .nil
  · exact forall₂_map fun n hn => normal_kept_fast hlib hp1 hp (hu n hn).1 (hu n hn).2

example (b' : Build) : ∃ bytes mn n,
    tmfBytes (ops someLibm) (f64Le someLibm) .wrapping kitPrec [(kit, [65])] = .ok bytes ∧
    readTmf (ops (fastLibm someLibm)) (f64Le (fastLibm someLibm)) b' ⟨bytes ++ [], [], false⟩ = .ok [mn] ∧ mn.1.normals = some [n] ∧
    KeptFast 7 (minusThreeFifths, vZero, fourFifths) n := by
  obtain ⟨bytes, h, hb⟩ := kit_saved (f64Le someLibm)
  obtain ⟨out, e, hf⟩ := C66_file (b' := b') someLibm_accurate h (kit_limits someLibm_log2 _) hb
    (show 1 ≤ 7 by decide) [] []
  obtain ⟨mn, rfl, hm⟩ := forall₂_one hf
  obtain ⟨l', hl', hk⟩ := hm _ rfl (fun n hn => by
    rcases List.mem_singleton.mp hn with rfl; exact ⟨unit_example, fun h => absurd h (by show ¬ 25 ≤ 7; decide)⟩)
  obtain ⟨n, rfl, hk'⟩ := forall₂_one hk
  exact ⟨bytes, mn, n, h, e, hl', hk'⟩

/-- C66 for the tangents of whole files. -/
theorem C66_file_tangents (hlib : AccurateLibm lib) (h : tmfBytes (ops lib) (f64Le lib) b prec meshes = .ok bytes)
    (hl : LimitsLow (ops lib) (f64Le lib) b prec meshes) (hb : bytes.length ≤ 2 ^ 31) (hp1 : 1 ≤ prec.tangent)
    (junk : List UInt8) (sched : List Nat) :
    ∃ out, readTmf (ops (fastLibm lib)) (f64Le (fastLibm lib)) b' ⟨bytes ++ junk, sched, false⟩ = .ok out ∧
      List.Forall₂ (fun mn mn' => ∀ l, mn.1.tangents = some l → (∀ t ∈ l, UnitNormal t.1 ∧ (25 ≤ prec.tangent → OffAxes t.1)) →
        ∃ l', mn'.1.tangents = some l' ∧ List.Forall₂ (fun t t' => KeptFast prec.tangent t.1 t'.1) l l') meshes out := by
  rw [← C66_written] at h
  obtain ⟨out, e, hf⟩ := readTmf_low (b' := b') h (limits_fast hl) hb junk sched
  refine ⟨out, e, forall₂_imp hf ?_⟩
  rintro mn hmn mn' ⟨_, edge, _, hm, _⟩ l hml hu
  rw [hm]
  refine ⟨l.map (quantTangent (ops (fastLibm lib)) prec.tangent), by simp only [loadedMesh, hml, Option.map_some], ?_⟩
  rcases (saved_narrow h (limits_fast hl) mn hmn).tangents l hml with rfl | hp
  · exact .nil
  · exact forall₂_map fun t ht => normal_kept_fast hlib hp1 hp (hu t ht).1 (hu t ht).2

example (b' : Build) : ∃ bytes mn t,
    tmfBytes (ops someLibm) (f64Le someLibm) .wrapping kitPrec [(kit, [65])] = .ok bytes ∧
    readTmf (ops (fastLibm someLibm)) (f64Le (fastLibm someLibm)) b' ⟨bytes ++ [], [], false⟩ = .ok [mn] ∧ mn.1.tangents = some [t] ∧
    KeptFast 7 (minusThreeFifths, vZero, fourFifths) t.1 := by
  obtain ⟨bytes, h, hb⟩ := kit_saved (f64Le someLibm)
  obtain ⟨out, e, hf⟩ := C66_file_tangents (b' := b') someLibm_accurate h (kit_limits someLibm_log2 _) hb
    (show 1 ≤ 7 by decide) [] []
  obtain ⟨mn, rfl, hm⟩ := forall₂_one hf
  obtain ⟨l', hl', hk⟩ := hm _ rfl (fun n hn => by
    rcases List.mem_singleton.mp hn with rfl; exact ⟨unit_example, fun h => absurd h (by show ¬ 25 ≤ 7; decide)⟩)
  obtain ⟨t, rfl, hk'⟩ := forall₂_one hk
  exact ⟨bytes, mn, t, h, e, hl', hk'⟩

end Tmf.Props
