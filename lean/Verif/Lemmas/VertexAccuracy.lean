import Verif.Lemmas.Log2
import Verif.Lemmas.VertexRange
import Verif.Lemmas.AccuracyHigh
/-
The vertices and floats the model decodes, in terms of `coordQ`; widening to f64 and back.
-/

set_option exponentiation.threshold 2000

namespace Tmf.Ieee
open Spec

theorem finite_ext {f : Fmt} {x y : Val f} (hx : isFinite x = true) (hy : isFinite y = true)
    (hs : isSignNegative x = isSignNegative y) (hv : valueOf x = valueOf y) : x = y := by
  obtain ⟨s, n, hn, rfl⟩ := finite_cases hx
  obtain ⟨t, m, hm, rfl⟩ := finite_cases hy
  have hst : s = t := hs
  subst hst
  have ha := congrArg (|·|) hv
  simp only [abs_valueOf_fin] at ha
  rw [div_left_inj' (units_pos f).ne'] at ha
  have : n = m := by exact_mod_cast ha
  subst this
  rfl

theorem rounded_sign {f : Fmt} (s : Bool) (num den : Nat) : isSignNegative (rounded s num den : Val f) = s := by
  rw [rounded, pack]
  split <;> rfl

theorem convert_sign {f g : Fmt} {x : Val f} (hx : isFinite x = true) :
    isSignNegative (convert x : Val g) = isSignNegative x := by
  obtain ⟨s, n, hn, rfl⟩ := finite_cases hx
  exact rounded_sign _ _ _

theorem ops_maxOp (lib : Libm) : (ops lib).max = Ieee.max := rfl
theorem ops_litOp (lib : Libm) : (ops lib).lit = lit := rfl
theorem ops_sub (lib : Libm) : (ops lib).sub = sub := rfl
theorem ops_add (lib : Libm) : (ops lib).add = add := rfl
theorem ops_toD (lib : Libm) : (ops lib).toD = convert := rfl
theorem ops_dAdd (lib : Libm) : (ops lib).dAdd = add := rfl
theorem ops_dMul (lib : Libm) : (ops lib).dMul = mul := rfl
theorem ops_dSub (lib : Libm) : (ops lib).dSub = sub := rfl

/-- An f32 stored as an f64 and read back is the same. -/
theorem narrow_widen (x : Val b32) : (convert (convert x : Val b64) : Val b32) = x := by
  cases h : isFinite x with
  | false =>
    cases x with
    | nan => rfl
    | inf s => rfl
    | fin => cases h
  | true =>
    have hw := widen_value h
    have hn := convert_value (g := b32) (by decide) hw.1 (by rw [hw.2]; exact abs_valueOf_le _)
    exact finite_ext hn.1 h (by rw [convert_sign hw.1, convert_sign h]) (by rw [hn.2, hw.2, rnd_valueOf (by decide)])

theorem reread_eq (lib : Libm) (s : VBox (Val b32)) : VBox.reread (ops lib) s = s := by
  show (⟨convert (convert s.minX : Val b64), convert (convert s.maxX : Val b64), convert (convert s.minY : Val b64),
    convert (convert s.maxY : Val b64), convert (convert s.minZ : Val b64), convert (convert s.maxZ : Val b64)⟩ :
      VBox (Val b32)) = s
  simp only [narrow_widen]

theorem coord_ops (lib : Libm) (p : Nat) (mn mx x : Val b32) :
    coordOfCode (ops lib) (coordCode (ops lib) x mn (sizeOf mn mx) (2 ^ p - 1) % 2 ^ p) p mn mx = coordQ p mn mx x := by
  rw [coordOfCode, coordCode, ops_add lib, ops_mul lib, ops_div lib, ops_ofNat lib, ops_sub lib, ops_toU64 lib, coordQ]

theorem sizes_ops (lib : Libm) (s : VBox (Val b32)) :
    s.sizes (ops lib) = (sizeOf s.minX s.maxX, sizeOf s.minY s.maxY, sizeOf s.minZ s.maxZ) := by
  rw [VBox.sizes, ops_maxOp lib, ops_litOp lib, ops_sub lib, sizeOf, sizeOf, sizeOf]

theorem quantVertex_ops (lib : Libm) (s : VBox (Val b32)) (p : Nat × Nat × Nat) (v : Vec3 (Val b32)) :
    quantVertex (ops lib) s p v =
      (coordQ p.1 s.minX s.maxX v.1, coordQ p.2.1 s.minY s.maxY v.2.1, coordQ p.2.2 s.minZ s.maxZ v.2.2) := by
  rw [quantVertex, reread_eq lib, sizes_ops lib, vertexOfCodes]
  dsimp only
  rw [coord_ops lib, coord_ops lib, coord_ops lib]

/-- A float written and read back. -/
def floatQ (p : Nat) (mn mx x : Val b32) : Val b32 :=
  convert (add (mul (div (ofNat (toU64 (mul (div (sub x mn) (sub mx mn)) (ofNat (2 ^ p - 1))) % 2 ^ p) : Val b64)
      (ofNat (2 ^ p - 1))) (sub (convert mx) (convert mn))) (convert mn))

theorem quantFloat_ops (lib : Libm) (r : Val b32 × Val b32) (p : Nat) (x : Val b32) :
    quantFloat (ops lib) r p x = floatQ p r.1 r.2 x := by
  rw [quantFloat, floatOfCode, floatCode, ops_ofD lib, ops_dAdd lib, ops_dMul lib, ops_dDiv lib, ops_dOfNat lib, ops_dSub lib,
    ops_toD lib, ops_toU64 lib, ops_mul lib, ops_div lib, ops_sub lib, ops_ofNat lib, floatQ]

/-- The width of a float array. -/
def floatBits (lib : Libm) (data : List (Val b32)) (prec : Val b32) : Nat :=
  Max.max (bitsFor lib (div (sub (rangeOf data).2 (rangeOf data).1) prec)) 1

theorem floatPrec_ops (lib : Libm) (data : List (Val b32)) (prec : Val b32) :
    floatPrec (ops lib) data prec = floatBits lib data prec := rfl

/-- The widths of a vertex array. -/
def vertexBits (lib : Libm) (s : VBox (Val b32)) (precision edge : Val b32) : Nat × Nat × Nat :=
  (Max.max (bitsFor lib (div (lit 1 0) (mul (div edge (sizeOf s.minX s.maxX)) precision))) 1,
   Max.max (bitsFor lib (div (lit 1 0) (mul (div edge (sizeOf s.minY s.maxY)) precision))) 1,
   Max.max (bitsFor lib (div (lit 1 0) (mul (div edge (sizeOf s.minY s.maxY)) precision))) 1)

theorem precs_ops (lib : Libm) (s : VBox (Val b32)) (precision edge : Val b32) :
    s.precs (ops lib) precision edge = vertexBits lib s precision edge := rfl

end Tmf.Ieee
