import Verif.Lemmas.Decimal
import Verif.Lemmas.Shortest
import Verif.Lemmas.NormalAngle
import Verif.Lemmas.DoubleOps
import Verif.Props.Obj
/-
C68: numbers in .obj text. C34 and C59 for the concrete text of floats.
-/

namespace Tmf.Props
open Tmf Spec Ieee

/-- C68: a decimal number within the range of the format is read as a float nearest to it. For every
number of digits, with or without sign, point and exponent. -/
theorem C68_nearest {f : Fmt} (hp : 0 < f.prec) (d : Decimal) (h : d.Proper) (hm : |d.value| ≤ (f.max : ℚ) / 2 ^ f.scale) :
    ∃ x : Val f, parseVal d.text = some x ∧ Nearest d.value x := by
  obtain ⟨num, den, hd, he, hv⟩ := scaled_parts (f := f) (isMinus d.sign) (digitsNumber (allDigits d))
    (expInt d.exponent - (d.fraction.getD []).length)
  have hval : d.value = sgn (isMinus d.sign) * ((num : ℚ) / den / 2 ^ f.scale) := by rw [value_eq, hv, sgn_isMinus]
  obtain ⟨h1, h2⟩ := rounded_value (f := f) hp (isMinus d.sign) hd hval hm
  refine ⟨_, parseVal_text d h, ?_, fun y hy => ?_⟩
  · rw [he]; exact h1
  · rw [he, h2]; exact rnd_nearest hp _ hy

/-- C68: a decimal number beyond the range is read as an infinity with its sign. Between the largest
value and the power of two above it either happens. -/
theorem C68_infinite {f : Fmt} (hp : 0 < f.prec) (d : Decimal) (h : d.Proper)
    (hm : (2 : ℚ) ^ (f.prec + f.top) / 2 ^ f.scale ≤ |d.value|) :
    (parseVal d.text : Option (Val f)) = some (.inf (decide (d.value < 0))) := by
  obtain ⟨num, den, hd, he, hv⟩ := scaled_parts (f := f) (isMinus d.sign) (digitsNumber (allDigits d))
    (expInt d.exponent - (d.fraction.getD []).length)
  have hS := units_pos f
  have hnn : (0 : ℚ) ≤ (num : ℚ) / den / 2 ^ f.scale := by positivity
  have hval : d.value = sgn (isMinus d.sign) * ((num : ℚ) / den / 2 ^ f.scale) := by rw [value_eq, hv, sgn_isMinus]
  rw [hval, abs_mul, abs_sgn, one_mul, abs_of_nonneg hnn, div_le_div_iff_of_pos_right hS] at hm
  have hflt : f.Flt (2 ^ (f.prec + f.top)) := by
    have := flt_of_le f (a := 1) hp Nat.one_le_two_pow (f.prec + f.top)
    rwa [one_mul] at this
  have hr := flt_le_round f (num := num) hd hp hflt (by push_cast; exact hm)
  have hbig : ¬ f.Rep (f.round num den) := by
    intro hrep
    have h1 := hrep.2
    have h2 : f.max < 2 ^ (f.prec + f.top) := by
      rw [Fmt.max, pow_add]
      exact Nat.mul_lt_mul_of_pos_right (Nat.sub_lt (by positivity) (by decide)) (by positivity)
    omega
  have hpos : (0 : ℚ) < (num : ℚ) / den / 2 ^ f.scale := div_pos (lt_of_lt_of_le (by positivity) hm) hS
  rw [parseVal_text d h, he, rounded, pack, dif_neg hbig, hval]
  congr 2
  cases isMinus d.sign with
  | true => rw [show sgn true = -1 from rfl]; symm; rw [decide_eq_true_iff]; linarith
  | false => rw [show sgn false = 1 from rfl]; symm; rw [decide_eq_false_iff_not]; linarith

/-- C68: nothing else is read as a number, except the words for infinities and NaN. -/
theorem C68_only {f : Fmt} (w : List UInt8) (x : Val f) (h : parseVal w = some x) :
    (∃ d : Decimal, d.Proper ∧ w = d.text) ∨ SpecialWord w := by
  obtain ⟨s, hs, _⟩ := spanSign_spec w
  rw [parseVal] at h
  simp only at h
  split at h
  · rename_i hi
    refine .inr ⟨s, _, hs, ?_⟩
    rcases hi with hi | hi
    · exact hi ▸ List.mem_cons_self
    · exact hi ▸ List.mem_cons_of_mem _ List.mem_cons_self
  · split at h
    · rename_i hn
      exact .inr ⟨s, _, hs, hn ▸ List.mem_cons_of_mem _ (List.mem_cons_of_mem _ List.mem_cons_self)⟩
    · obtain ⟨d, hd, hsd, hw⟩ := parseUnsigned_spec h s
      refine .inl ⟨d, hd, ?_⟩
      rw [text_eq, hsd, ← hw, ← hs]

/-- C68: the words for infinities and NaN, with the sign and in any case. -/
theorem C68_special {f : Fmt} (s : Sign) (r : List UInt8)
    (h : r.map lowerCase ∈ [ascii "inf", ascii "infinity", ascii "nan"]) :
    (parseVal (s.text ++ r) : Option (Val f)) =
      some (if r.map lowerCase = ascii "nan" then .nan else .inf (decide (s.factor < 0))) := by
  have e : lowerCase = lower := rfl
  rw [e] at h ⊢
  have hhead : ∀ c, r.head? = some c → c ≠ 45 ∧ c ≠ 43 := by
    intro c hc
    have hl : (r.map lower).head? = some (lower c) := by rw [List.head?_map, hc]; rfl
    have : lower c = 105 ∨ lower c = 110 := by
      simp only [List.mem_cons, List.not_mem_nil, or_false] at h
      rcases h with h | h | h <;> rw [h] at hl
      · exact .inl (Option.some.inj hl).symm
      · exact .inl (Option.some.inj hl).symm
      · exact .inr (Option.some.inj hl).symm
    constructor <;> · rintro rfl; revert this; decide
  rw [parseVal, spanSign_text s hhead]
  simp only
  have hsg : isMinus s = decide (s.factor < 0) := by
    cases s
    · exact (decide_eq_false (by rw [show Sign.none.factor = 1 from rfl]; norm_num)).symm
    · exact (decide_eq_false (by rw [show Sign.plus.factor = 1 from rfl]; norm_num)).symm
    · exact (decide_eq_true (by rw [show Sign.minus.factor = -1 from rfl]; norm_num)).symm
  simp only [List.mem_cons, List.not_mem_nil, or_false] at h
  rcases h with h | h | h
  · rw [if_pos (.inl h), if_neg (by rw [h]; decide), hsg]
  · rw [if_pos (.inr h), if_neg (by rw [h]; decide), hsg]
  · rw [if_neg (by rw [h]; decide), if_pos h, if_pos h]

/-- C68 for lines of a file: three decimal numbers after "v " make the vertex with the nearest
coordinates, to be used with C57. -/
theorem C68_vertex (lib : Libm) (a b c : Decimal) (h : ∀ d ∈ [a, b, c], d.Proper ∧ |d.value| ≤ (b32.max : ℚ) / 2 ^ b32.scale) :
    ∃ x : Vec3 (Val b32), Nearest a.value x.1 ∧ Nearest b.value x.2.1 ∧ Nearest c.value x.2.2 ∧
      LineMeans (floatText lib) (ascii "v " ++ a.text ++ [32] ++ b.text ++ [32] ++ c.text ++ []) (.vertex x) := by
  have key : ∀ d : Decimal, d.Proper → |d.value| ≤ (b32.max : ℚ) / 2 ^ b32.scale →
      ∃ x : Val b32, Nearest d.value x ∧ Spells (floatText lib) d.text x := by
    intro d h1 h2
    obtain ⟨x, hx, hn⟩ := C68_nearest (f := b32) (by decide) d h1 h2
    exact ⟨x, hn, decimal_word d, hx⟩
  simp only [List.mem_cons, List.not_mem_nil, or_false, forall_eq_or_imp, forall_eq] at h
  obtain ⟨x, hx, sx⟩ := key a h.1.1 h.1.2
  obtain ⟨y, hy, sy⟩ := key b h.2.1.1 h.2.1.2
  obtain ⟨z, hz, sz⟩ := key c h.2.2.1 h.2.2.2
  exact ⟨(x, y, z), hx, hy, hz, .vertex (fo := ops lib) (x := (x, y, z)) sx sy sz (.inl rfl)⟩

/-- "-12.5E-1" for the examples. -/
def sampleDecimal : Decimal := ⟨.minus, [1, 2], some [5], some (true, .minus, [1])⟩

/-- The hypotheses can be met. -/
example : sampleDecimal.Proper ∧ sampleDecimal.text = ascii "-12.5E-1" ∧ sampleDecimal.value = -5 / 4 ∧
    |sampleDecimal.value| ≤ (b32.max : ℚ) / 2 ^ b32.scale := by
  have hv : sampleDecimal.value = -5 / 4 := by
    norm_num [Decimal.value, sampleDecimal, Sign.factor, digitsNumber, fractionNumber, power]
  refine ⟨⟨.inl (by simp [sampleDecimal]), by rintro _ ⟨⟩; simp⟩, by decide, hv, ?_⟩
  rw [hv, show b32.max = (2 ^ 24 - 1) * 2 ^ 253 from rfl, show b32.scale = 149 from rfl, abs_of_neg (by norm_num)]
  norm_num

/-- "1e39" is beyond f32. -/
example : (2 : ℚ) ^ (b32.prec + b32.top) / 2 ^ b32.scale ≤ |Decimal.value ⟨.none, [1], none, some (false, .none, [3, 9])⟩| := by
  rw [show b32.prec + b32.top = 128 + 149 from rfl, show b32.scale = 149 from rfl, pow_add, mul_div_cancel_right₀ _ (by positivity)]
  norm_num [Decimal.value, Sign.factor, digitsNumber, fractionNumber, power]

example : ([78, 97, 78] : List UInt8).map lowerCase ∈ [ascii "inf", ascii "infinity", ascii "nan"] := by decide

/-- C34 for the text of floats itself, f32 and f64: what is printed reads back, and has none of the
characters that separate words and lines. -/
theorem C34_decimal_text {f : Fmt} (x : Val f) :
    (isNaN x = false → parseVal (printVal x) = some x) ∧
      ∀ c ∈ printVal x, c.toNat < 128 ∧ c ≠ 32 ∧ c ≠ 47 ∧ c ≠ 10 ∧ c ≠ 13 :=
  ⟨fun h => parseVal_print x h, printVal_clean x⟩

example : isNaN (ofNat 3 : Val b32) = false := ofNat_isNaN 3

/-- C34 for the text of floats itself: it is written without an exponent, nothing that ends further to
the left reads back, and nothing of the same length is closer. -/
theorem C34_shortest_text {f : Fmt} (hp : 0 < f.prec) {x : Val f} (hx : isFinite x = true) (h0 : valueOf x ≠ 0) :
    ∃ d : Decimal, printVal x = d.text ∧ ShortestFor parseVal d x :=
  print_shortest hp hx h0

/-- One tenth, which is not a float, stands for the float next to it; and some other texts. -/
example : printVal (lit 1 1 : Val b32) = ascii "0.1" ∧ printVal (neg (lit 25 1) : Val b32) = ascii "-2.5" ∧
    printVal (ofNat 16777216 : Val b32) = ascii "16777216" ∧ printVal (ofNat 0 : Val b32) = ascii "0" := by
  refine ⟨?_, ?_, ?_, ?_⟩ <;> decide +kernel

example : isFinite (lit 1 0 : Val b32) = true ∧ valueOf (lit 1 0 : Val b32) ≠ 0 := ⟨lit_one.1, by rw [lit_one.2]; norm_num⟩

/-- C34 with concrete text (partial as `C34_roundtrip_partial`): nothing is assumed about printing and
parsing. -/
theorem C34_roundtrip_ieee_partial (lib : Libm) (b b' : Build) (meshes : List (Mesh (Val b32) × List UInt8))
    (hne : meshes ≠ []) (hm : ∀ m ∈ meshes, CompleteMesh (ops lib) m.1 ∧ ObjName m.2) (hf : FitsU32 meshes) :
    ∃ text res, writeObj (floatText lib) b meshes = .ok text ∧ readFromObj (floatText lib) Importer.pushFace b' text = .ok res ∧
      List.Forall₂ SameGeometry res meshes :=
  C34_roundtrip_partial (floatText_laws lib) b b' meshes hne hm hf

/-- C59: which numbers are written. A mesh of one triangle, indices in range or not: release builds
count from 1 modulo 2^32, debug builds write the same or panic. -/
theorem C59_numbers {fo : FloatOps} (ft : FloatText fo) (name : List UInt8) (i j k : Nat) :
    let m : Mesh fo.F := { Mesh.empty with vertexTriangles := some [i, j, k] }
    let text := ascii "s 1\no " ++ name ++ ascii "\nf " ++ decimal ((i + 1) % 2 ^ 32) ++ [32] ++ decimal ((j + 1) % 2 ^ 32) ++ [32] ++
      decimal ((k + 1) % 2 ^ 32) ++ [10]
    writeObj ft .wrapping [(m, name)] = .ok text ∧
      writeObj ft .checked [(m, name)] = if i + 1 < 2 ^ 32 ∧ j + 1 < 2 ^ 32 ∧ k + 1 < 2 ^ 32 then .ok text else .panic := by
  have hw : ∀ x y, addU32 .wrapping x y = .ok ((x + y) % 2 ^ 32) := by
    intro x y
    rw [addU32]
    split_ifs with h
    · rw [Nat.mod_eq_of_lt h]
    · rfl
  have hc : ∀ x y, addU32 .checked x y = if x + y < 2 ^ 32 then .ok ((x + y) % 2 ^ 32) else .panic := by
    intro x y
    rw [addU32]
    split_ifs with h
    · rw [Nat.mod_eq_of_lt h]
    · rfl
  have hr : List.range 3 = [0, 1, 2] := rfl
  simp only [show (2 : Nat) ^ 32 = 4294967296 from rfl] at hw hc ⊢
  constructor
  · simp [writeObj, writeObjLoop, saveObj, lengthFits, Mesh.empty, facesText, indexAt, uvText, normalText, hw, hr, meshText, bind,
      Outcome.bind, ascii]
  · by_cases h1 : i + 1 < 4294967296
    · by_cases h2 : j + 1 < 4294967296
      · by_cases h3 : k + 1 < 4294967296
        · simp only [h1, h2, h3, and_self, if_true]
          simp [writeObj, writeObjLoop, saveObj, lengthFits, Mesh.empty, facesText, indexAt, uvText, normalText, hc, h1, h2, h3, hr, meshText, bind,
            Outcome.bind, ascii]
        · simp [writeObj, writeObjLoop, saveObj, lengthFits, Mesh.empty, facesText, indexAt, uvText, normalText, hc, h1, h2, h3, hr, meshText, bind,
            Outcome.bind, ascii]
      · simp [writeObj, writeObjLoop, saveObj, lengthFits, Mesh.empty, facesText, indexAt, uvText, normalText, hc, h1, h2, hr, meshText, bind,
          Outcome.bind, ascii]
    · simp [writeObj, writeObjLoop, saveObj, lengthFits, Mesh.empty, facesText, indexAt, uvText, normalText, hc, h1, hr, meshText, bind,
        Outcome.bind, ascii]

/-- The last index is written as number 0. -/
example : (2 ^ 32 - 1 + 1) % 2 ^ 32 = 0 ∧ decimal 0 = ascii "0" := by decide

end Tmf.Props
