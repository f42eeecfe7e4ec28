import Verif.Props.AccuracyRange
import Verif.Props.EndToEnd
import Verif.Lemmas.WideArrays
import Verif.Lemmas.FileSize
import Verif.Props.SaveOk
import Verif.Spec.CustomDrift
/-
C96: custom floats and colours saved and loaded again and again.
-/

set_option exponentiation.threshold 2000

namespace Tmf.Props
open Spec Ieee

variable {lib : Libm} {fb : F64Bytes (ops lib)}

/-! ### A file with nothing but one piece of custom data -/

theorem edge_default : calcShortestEdge (ops lib) none none = .ok (lit 1 1) := by
  rw [calcShortestEdge, assertFinite, if_pos]
  rfl

theorem only_merged {F : Type} (c : CustomSeg F) : mergeSegments (meshSegs (onlyCustom c)) = .ok [.custom c] := by
  rw [mergeSegments_eq]
  rfl

theorem only_encoded {b : Build} {prec : PrecisionInfo (Val b32)} {c : CustomSeg (Val b32)} :
    encodeMesh (ops lib) fb b prec (onlyCustom c) = (do
      let d ← c.data.write (ops lib) fb b
      .ok [⟨c.data.sectionType, .none, leBytes 1 c.name.length ++ c.name ++ d⟩]) := by
  have h1 : calcShortestEdge (ops lib) (onlyCustom c).getVertexTriangles (onlyCustom c).getVertices = .ok (lit 1 1) := edge_default
  rw [encodeMesh, h1]
  simp only [Outcome.bind_ok]
  rw [show mergeSegments (meshSegs (onlyCustom c)) = .ok [.custom c] from only_merged c]
  simp only [Outcome.bind_ok, Outcome.mapAll, DecodedSegment.optimize, List.flatten_cons, List.flatten_nil, List.append_nil,
    DecodedSegment.encode, CustomSeg.encode]
  cases c.data.write (ops lib) fb b <;> rfl

theorem mapAll_one {ε α β : Type} {f : α → Outcome ε β} {a : α} {y : β} (h : f a = .ok y) : Outcome.mapAll f [a] = .ok [y] := by
  rw [Outcome.mapAll, h]
  rfl

/-- A cycle of a mesh with one piece of custom data. -/
theorem only_cycle {b b' : Build} {prec : PrecisionInfo (Val b32)} {mname : List UInt8} {c c' : CustomSeg (Val b32)} {d : List UInt8}
    (hm : NameOk mname) (hd : c.data.write (ops lib) fb b = .ok d) (hl : d.length ≤ 2 ^ 31 - 256) (hn : c.name.length < 256)
    (hr : CustomSeg.read (ops lib) fb b' ⟨true⟩ c.data.sectionType (leBytes 1 c.name.length ++ c.name ++ d) = .ok c') :
    FileCycle (ops lib) fb b b' prec [(onlyCustom c, mname)] [(onlyCustom c', mname)] := by
  set e : EncodedSegment := ⟨c.data.sectionType, .none, leBytes 1 c.name.length ++ c.name ++ d⟩ with he
  have hE : Outcome.mapAll (fun mn : Mesh (Val b32) × List UInt8 => encodeMesh (ops lib) fb b prec mn.1) [(onlyCustom c, mname)] = .ok [[e]] := by
    refine mapAll_one ?_
    exact (only_encoded (lib := lib) (prec := prec)).trans (by rw [hd]; rfl)
  refine ⟨_, tmfBytes_of (ops lib) fb b prec hE, fun sched => ?_⟩
  have hbytes : [84, 77, 70] ++ leBytes 2 0 ++ leBytes 2 2 ++ leBytes 2 0 ++ leBytes 2 2 ++
        leBytes 4 [(onlyCustom c, mname)].length ++ ([(onlyCustom c, mname)].zip [[e]]).flatMap (fun p => meshBytes p.1.2 p.2) =
      fileBytes 2 [⟨mname, [rawOf e]⟩] := by
    rw [fileBytes, fileHead]
    simp only [List.zip_cons_cons, List.zip_nil_right, List.flatMap_cons, List.flatMap_nil, meshBytes_eq]
    rfl
  rw [hbytes, ← List.append_nil (fileBytes 2 _), readTmf_file (ops lib) fb b' (le_refl 2) ?_ (by show 1 < 2 ^ 32; decide)]
  · have ht : c.data.sectionType = .customIndex ∨ c.data.sectionType = .customInteger ∨ c.data.sectionType = .customFloat ∨
        c.data.sectionType = .customColor := by
      cases c.data <;> simp [CustomData.sectionType]
    have hdec : EncodedSegment.decode (ops lib) fb b' ⟨true⟩ e = .ok (.custom c') := by
      rw [EncodedSegment.decode, he]
      dsimp only
      rcases ht with h | h | h | h <;> rw [h] at hr ⊢ <;> dsimp only <;> rw [hr] <;> rfl
    have hraw : rawMesh (ops lib) fb b' (layoutOf 2) ⟨mname, [rawOf e]⟩ = .ok (onlyCustom c', mname) := by
      rw [rawMesh, List.map_cons, List.map_nil, encodedOf_rawOf, show (ctxOf (layoutOf 2)).decode = ⟨true⟩ from rfl, assembleMesh,
        List.map_cons, List.map_nil, hdec]
      rfl
    rw [Outcome.mapAll, hraw]
    rfl
  · intro m hm'
    rcases List.mem_singleton.mp hm' with rfl
    refine ⟨hm, show 1 < 2 ^ 16 by decide, fun s hs => ?_⟩
    rcases List.mem_singleton.mp hs with rfl
    refine rawOf_framed rfl ?_
    rw [he]
    simp only [List.length_append, length_leBytes]
    omega

theorem only_panic {b : Build} {prec : PrecisionInfo (Val b32)} {mname : List UInt8} {c : CustomSeg (Val b32)}
    (h : c.data.write (ops lib) fb b = .panic) : tmfBytes (ops lib) fb b prec [(onlyCustom c, mname)] = .panic := by
  refine tmfBytes_panic ?_
  rw [only_encoded, h]
  rfl

theorem customName_read {name : List UInt8} (hn : name.length < 256) (rest : List UInt8) :
    readCustomName.runSlice (leBytes 1 name.length ++ name ++ rest) = .ok (name, rest) := by
  rw [readCustomName, Prog.runSlice_bind, List.append_assoc, Prog.runSlice_readU8 _ hn]
  simp only [Outcome.bind_ok]
  exact Prog.runSlice_readBytes name rest

/-- A cycle of a mesh with nothing but colours. -/
theorem color_cycle {b b' : Build} {prec : PrecisionInfo (Val b32)} {mname name : List UInt8} {data : List (Vec4 (Val b32))} {q : Val b32}
    {p m : Nat} (hm : NameOk mname) (hn : name.length < 256) (hl : data.length ≤ 2 ^ 26) (hp : colorPrec (ops lib) q = p) (hp64 : p < 64)
    (hmul : mulI32 b p = .ok m) :
    FileCycle (ops lib) fb b b' prec [(onlyCustom ⟨name, .color data q⟩, mname)]
      [(onlyCustom ⟨name, .color (data.map (colorBy (ops lib) m p)) (colorPrec32 p)⟩, mname)] := by
  obtain ⟨d, hs, hr⟩ := readColors_by (fo := ops lib) (b := b) (b' := b') (data := data) (prec := q) (m := m) (by omega) (by rw [hp]; exact hmul)
    (le_trans hl (by decide))
  have hlen := customWrite_size (fo := ops lib) (fb := fb) (b := b) (c := .color data q) (d := d) hs
  refine only_cycle (d := d) hm hs ?_ hn ?_
  · rw [hlen, customSize, packed, hp]
    have : data.length * (4 * p) ≤ 2 ^ 26 * (4 * 63) := Nat.mul_le_mul hl (by omega)
    omega
  · rw [CustomSeg.read, customName_read hn]
    show (readColors (ops lib) b' d >>= fun d => Outcome.ok (⟨name, d⟩ : CustomSeg (Val b32))) = _
    rw [hr, hp, colorLoadedPrec_ops lib]
    rfl

/-- A cycle of a mesh with nothing but floats. -/
theorem float_cycle {b b' : Build} {prec : PrecisionInfo (Val b32)} {mname name : List UInt8} {data : List (Val b32)} {q : Val b32}
    {p : Nat} (hm : NameOk mname) (hn : name.length < 256) (hl : data.length ≤ 2 ^ 26) (hp : floatPrec (ops lib) data q = p) (hp30 : p ≤ 30) :
    FileCycle (ops lib) fb b b' prec [(onlyCustom ⟨name, .float data q⟩, mname)]
      [(onlyCustom ⟨name, quantFloats (ops lib) data q⟩, mname)] := by
  obtain ⟨d, hs, hr⟩ := readFloats_writable (fo := ops lib) (fb := fb) (b := b) (data := data) (prec := q) (.inl (by omega))
    (le_trans hl (by decide))
  have hlen := customWrite_size (fo := ops lib) (fb := fb) (b := b) (c := .float data q) (d := d) hs
  refine only_cycle (d := d) hm hs ?_ hn ?_
  · rw [hlen, customSize, packed, hp]
    have : data.length * p ≤ 2 ^ 26 * 30 := Nat.mul_le_mul hl hp30
    omega
  · rw [CustomSeg.read, customName_read hn]
    show (readFloats (ops lib) fb d >>= fun d => Outcome.ok (⟨name, d⟩ : CustomSeg (Val b32))) = _
    rw [hr]
    rfl

/-! ### Colours -/

/-- Colours after `k` cycles, the first with `p` bits. -/
def agedColors (lib : Libm) (p : Nat) : Nat → List (Vec4 (Val b32)) → List (Vec4 (Val b32))
  | 0, l => l
  | k + 1, l => (agedColors lib p k l).map (quantColor (ops lib) (p + k))

theorem agedColors_length (p k : Nat) (l : List (Vec4 (Val b32))) : (agedColors lib p k l).length = l.length := by
  induction k with
  | zero => rfl
  | succ k ih => rw [agedColors, List.length_map, ih]

/-- The precision attached after `k` cycles. -/
def agedPrec (q : Val b32) (p : Nat) : Nat → Val b32
  | 0 => q
  | k + 1 => colorPrec32 (p + k)

theorem agedPrec_bits (hlog : AccurateLog2 lib) {q : Val b32} {p : Nat} (hp : colorPrec (ops lib) q = p) {k : Nat} (hk : p + k ≤ 31) :
    colorPrec (ops lib) (agedPrec q p k) = p + k := by
  cases k with
  | zero => exact hp
  | succ k => rw [agedPrec, colorPrec_ops lib, colorBits_grow lib hlog _ (by omega)]; rfl

theorem colorBy_low {p : Nat} (hp : p ≤ 31) : colorBy (ops lib) (2 ^ p - 1) p = quantColor (ops lib) p := by
  funext c
  simp only [colorBy, channelBy, pairCode, if_neg (show p ≠ 32 by omega)]
  rfl

/-- Up to 30 bits, every build does the same; with 31, builds without overflow checks go on. -/
theorem colors_age (hlog : AccurateLog2 lib) {b b' : Build} {prec : PrecisionInfo (Val b32)} {mname name : List UInt8}
    {data : List (Vec4 (Val b32))} {q : Val b32} {p : Nat} (hm : NameOk mname) (hn : name.length < 256) (hl : data.length ≤ 2 ^ 26)
    (hp : colorPrec (ops lib) q = p) {k : Nat} (hk : p + k ≤ 31 ∨ b = .wrapping ∧ p + k = 32) :
    FileCycles (ops lib) fb b b' prec k [(onlyCustom ⟨name, .color data q⟩, mname)]
      [(onlyCustom ⟨name, .color (agedColors lib p k data) (agedPrec q p k)⟩, mname)] := by
  induction k with
  | zero => exact .none _
  | succ k ih =>
    refine .more (ih (by omega)) ?_
    have hmul : mulI32 b (p + k) = .ok (2 ^ (p + k) - 1) := by
      cases b with
      | checked => rw [mulI32, if_pos (by rcases hk with h | ⟨h, -⟩; omega; cases h)]
      | wrapping => rw [mulI32, Nat.mod_eq_of_lt (by omega)]
    have := color_cycle (fb := fb) (b' := b') (prec := prec) (data := agedColors lib p k data) hm hn
      (by rw [agedColors_length]; exact hl) (agedPrec_bits hlog hp (k := k) (by omega)) (by omega) hmul
    rw [colorBy_low (by omega)] at this
    exact this

/-- 0.01, the precision given to custom data made from slices, takes 7 bits. -/
theorem hundredth_bits (hlog : AccurateLog2 lib) : colorPrec (ops lib) (lit 1 2) = 7 := by
  rw [colorPrec_ops lib, colorBits_clear lib hlog] <;> decide +kernel

theorem last_bits (hlog : AccurateLog2 lib) : colorPrec (ops lib) (colorPrec32 31) = 32 := by
  rw [colorPrec_ops lib, colorBits_clear lib hlog] <;> decide +kernel

theorem gone_exact : (convert (div (ofNat 0) (ofNat (2 ^ 32 - 1)) : Val b64) : Val b32) = vZero := by decide +kernel

theorem channel_gone (x : Val b32) : channelBy (ops lib) 0 32 x = vZero := by
  rw [channelBy, pairCode, if_pos rfl, channelOfCode, ops_ofD lib, ops_dDiv lib, ops_dOfNat lib]
  exact gone_exact

/-- C96 is false for colours. Whatever the colours, with the precision 0.01 they can be saved and loaded 24 times: every time
one bit more is used, and then a build with overflow checks panics. A build without them saves and loads them twice more, and
then all of them are 0 in all channels. -/
theorem C96_colors_violated (hlog : AccurateLog2 lib) {prec : PrecisionInfo (Val b32)} {mname name : List UInt8}
    {data : List (Vec4 (Val b32))} (hm : NameOk mname) (hn : name.length < 256) (hl : data.length ≤ 2 ^ 26) :
    (∃ data' q, (∀ b b', FileCycles (ops lib) fb b b' prec 24 [(onlyCustom ⟨name, CustomData.ofColors (ops lib) data⟩, mname)]
        [(onlyCustom ⟨name, .color data' q⟩, mname)]) ∧
      tmfBytes (ops lib) fb .checked prec [(onlyCustom ⟨name, .color data' q⟩, mname)] = .panic) ∧
    ∃ q, ∀ b', FileCycles (ops lib) fb .wrapping b' prec 26 [(onlyCustom ⟨name, CustomData.ofColors (ops lib) data⟩, mname)]
      [(onlyCustom ⟨name, .color (data.map fun _ => (vZero, vZero, vZero, vZero)) q⟩, mname)] := by
  have h0 : CustomData.ofColors (ops lib) data = .color data (lit 1 2) := rfl
  have hp := hundredth_bits hlog
  rw [h0]
  refine ⟨⟨_, _, fun b b' => colors_age hlog hm hn hl hp (.inl (by omega)), only_panic ?_⟩, colorPrec32 32, fun b' => ?_⟩
  · show saveColors (ops lib) .checked _ _ = .panic
    rw [saveColors, agedPrec_bits hlog hp (by omega)]
    rfl
  · refine .more (colors_age hlog (k := 25) hm hn hl hp (.inr ⟨rfl, rfl⟩)) ?_
    have := color_cycle (fb := fb) (b := .wrapping) (b' := b') (prec := prec) (data := agedColors lib 7 25 data)
      (q := agedPrec (lit 1 2) 7 25) (p := 32) (m := 0) hm hn
      (by rw [agedColors_length]; exact hl) (last_bits hlog) (by omega) rfl
    have e : (agedColors lib 7 25 data).map (colorBy (ops lib) 0 32) = data.map fun _ => (vZero, vZero, vZero, vZero) := by
      have hc : colorBy (ops lib) 0 32 = fun _ => (vZero, vZero, vZero, vZero) := by
        funext c
        simp only [colorBy, channel_gone]
      rw [hc, List.map_const', List.map_const', agedColors_length]
    rw [e] at this
    exact this

theorem white_stays : ∀ p < 25, 7 ≤ p → channelQ p vOne = vOne := by decide +kernel
theorem white_gone : channelQ 25 vOne = vZero := by decide +kernel

theorem white_aged : ∀ k ≤ 18, agedColors lib 7 k [(vOne, vOne, vOne, vOne)] = [(vOne, vOne, vOne, vOne)] := by
  intro k hk
  induction k with
  | zero => rfl
  | succ k ih =>
    rw [agedColors, ih (by omega), List.map_cons, List.map_nil, quantColor_ops lib, white_stays _ (by omega) (by omega)]

/-- C96 is false for white in every build: opaque white with the precision 0.01 comes back as it was 18 times, and the next
time as transparent black. -/
theorem C96_white_violated (hlog : AccurateLog2 lib) {b b' : Build} {prec : PrecisionInfo (Val b32)} {mname name : List UInt8}
    (hm : NameOk mname) (hn : name.length < 256) : ∃ q q',
    FileCycles (ops lib) fb b b' prec 18 [(onlyCustom ⟨name, CustomData.ofColors (ops lib) [(vOne, vOne, vOne, vOne)]⟩, mname)]
      [(onlyCustom ⟨name, .color [(vOne, vOne, vOne, vOne)] q⟩, mname)] ∧
    FileCycles (ops lib) fb b b' prec 19 [(onlyCustom ⟨name, CustomData.ofColors (ops lib) [(vOne, vOne, vOne, vOne)]⟩, mname)]
      [(onlyCustom ⟨name, .color [(vZero, vZero, vZero, vZero)] q'⟩, mname)] := by
  have hp := hundredth_bits hlog
  have h18 := colors_age (fb := fb) (b := b) (b' := b') (prec := prec) (data := [(vOne, vOne, vOne, vOne)]) hlog (k := 18) hm hn
    (by show 1 ≤ 2 ^ 26; decide) hp (.inl (by omega))
  have h19 := colors_age (fb := fb) (b := b) (b' := b') (prec := prec) (data := [(vOne, vOne, vOne, vOne)]) hlog (k := 19) hm hn
    (by show 1 ≤ 2 ^ 26; decide) hp (.inl (by omega))
  rw [white_aged 18 (le_refl _)] at h18
  rw [agedColors, white_aged 18 (le_refl _), List.map_cons, List.map_nil, quantColor_ops lib, white_gone] at h19
  exact ⟨_, _, h18, h19⟩

/-! ### Floats -/

theorem ends_gone : floatQ 25 vZero vOne vZero = vZero ∧ floatQ 25 vZero vOne vOne = vZero := by decide +kernel

theorem hundredth_steps : clear (div (sub (rangeOf [vZero, vOne]).2 (rangeOf [vZero, vOne]).1) (lit 1 2)) = true ∧
    Max.max (exactBits (div (sub (rangeOf [vZero, vOne]).2 (rangeOf [vZero, vOne]).1) (lit 1 2))) 1 = 7 := by decide +kernel

theorem hundredth_floats (hlog : AccurateLog2 lib) : floatPrec (ops lib) [vZero, vOne] (lit 1 2) = 7 := by
  rw [floatPrec_ops lib, floatBits_clear lib hlog hundredth_steps.1, hundredth_steps.2]

/-- The precision attached after `k` cycles. -/
def agedFloat (q : Val b32) (p : Nat) : Nat → Val b32
  | 0 => q
  | k + 1 => floatPrec32 vZero vOne (p + k)

theorem ends_age (hlog : AccurateLog2 lib) {b b' : Build} {prec : PrecisionInfo (Val b32)} {mname name : List UInt8}
    (hm : NameOk mname) (hn : name.length < 256) {k : Nat} (hk : k ≤ 18) :
    floatPrec (ops lib) [vZero, vOne] (agedFloat (lit 1 2) 7 k) = 7 + k ∧
    FileCycles (ops lib) fb b b' prec k [(onlyCustom ⟨name, .float [vZero, vOne] (lit 1 2)⟩, mname)]
      [(onlyCustom ⟨name, .float [vZero, vOne] (agedFloat (lit 1 2) 7 k)⟩, mname)] := by
  induction k with
  | zero => exact ⟨hundredth_floats hlog, .none _⟩
  | succ k ih =>
    obtain ⟨hp, hc⟩ := ih (by omega)
    refine ⟨by rw [agedFloat, floatPrec_ops lib, floatBits_grow lib hlog _ (by omega) (by omega)]; rfl, .more hc ?_⟩
    have := float_cycle (fb := fb) (b := b) (b' := b') (prec := prec) hm hn (by show 2 ≤ 2 ^ 26; decide) hp (by omega)
    rw [quantFloats, floatRange_ops lib, hp, rangeOf_unit, List.map_cons, List.map_cons, List.map_nil,
      quantFloat_ops lib, quantFloat_ops lib] at this
    dsimp only at this
    rw [(floatQ_ends _ (by omega) (by omega)).1, (floatQ_ends _ (by omega) (by omega)).2, floatLoadedPrec_ops lib] at this
    exact this

/-- C96 is false for floats in every build: the array 0, 1 with the precision 0.01 comes back as it was 18 times, and the next
time as 0, 0. -/
theorem C96_floats_violated (hlog : AccurateLog2 lib) {b b' : Build} {prec : PrecisionInfo (Val b32)} {mname name : List UInt8}
    (hm : NameOk mname) (hn : name.length < 256) : ∃ q q',
    FileCycles (ops lib) fb b b' prec 18 [(onlyCustom ⟨name, CustomData.ofFloats (ops lib) [vZero, vOne]⟩, mname)]
      [(onlyCustom ⟨name, .float [vZero, vOne] q⟩, mname)] ∧
    FileCycles (ops lib) fb b b' prec 19 [(onlyCustom ⟨name, CustomData.ofFloats (ops lib) [vZero, vOne]⟩, mname)]
      [(onlyCustom ⟨name, .float [vZero, vZero] q'⟩, mname)] := by
  obtain ⟨hp, h18⟩ := ends_age (fb := fb) (b := b) (b' := b') (prec := prec) hlog hm hn (le_refl 18)
  refine ⟨agedFloat (lit 1 2) 7 18, floatPrec32 vZero vOne 25, h18, .more h18 ?_⟩
  have := float_cycle (fb := fb) (b := b) (b' := b') (prec := prec) hm hn (by show 2 ≤ 2 ^ 26; decide) hp (by omega)
  rw [quantFloats, floatRange_ops lib, hp, rangeOf_unit, List.map_cons, List.map_cons, List.map_nil,
    quantFloat_ops lib, quantFloat_ops lib] at this
  dsimp only at this
  rw [ends_gone.1, ends_gone.2, floatLoadedPrec_ops lib] at this
  exact this

/-! ### How far colours fade -/

theorem fade_sum {p k : Nat} (hp : 1 ≤ p) : (2 - 2 / 2 ^ k) / (2 ^ p - 1) + 1 / (2 ^ (p + k) - 1) ≤ (2 - 2 / 2 ^ (k + 1) : ℚ) / (2 ^ p - 1) := by
  have h1 : (2 : ℚ) ≤ 2 ^ p := by calc (2 : ℚ) = 2 ^ 1 := by norm_num
    _ ≤ 2 ^ p := pow_le_pow_right₀ (by norm_num) hp
  have h2 : (1 : ℚ) ≤ 2 ^ k := one_le_pow₀ (by norm_num)
  have h3 : (1 : ℚ) / (2 ^ (p + k) - 1) ≤ 1 / (2 ^ k * (2 ^ p - 1)) := by
    apply one_div_le_one_div_of_le
    · have : (0 : ℚ) < 2 ^ p - 1 := by linarith
      positivity
    · rw [pow_add]; nlinarith
  have h4 : (2 - 2 / 2 ^ (k + 1) : ℚ) / (2 ^ p - 1) = (2 - 2 / 2 ^ k) / (2 ^ p - 1) + 1 / (2 ^ k * (2 ^ p - 1)) := by
    have : (0 : ℚ) < 2 ^ p - 1 := by linarith
    field_simp
    ring
  linarith

theorem channel_fades {p k : Nat} (hp : 1 ≤ p) (hk : p + k ≤ 24) {x y : Val b32} (hx : Faded ((2 - 2 / 2 ^ k) / (2 ^ p - 1)) x y) :
    Faded ((2 - 2 / 2 ^ (k + 1)) / (2 ^ p - 1)) x (quantChannel (ops lib) (p + k) y) := by
  obtain ⟨hu, h1, h2⟩ := hx
  obtain ⟨h3, h4, h5⟩ := quantChannel_stepBelow lib (p := p + k) (by omega) (by omega) hu (.inl hk)
  have h6 : 0 ≤ valueOf (quantChannel (ops lib) (p + k) y) := by
    refine (?_ : (0 : ℚ) ≤ _).trans_eq ((congrArg valueOf (quantChannel_eq lib (by omega) hk y)).trans (valueOf_pos (h := _))).symm
    positivity
  have := fade_sum (k := k) hp
  exact ⟨⟨h3, h6, by linarith [hu.2.2]⟩, by linarith, by linarith⟩

/-- C96 for colours, as long as at most 24 bits are used (the full claim is for any number of cycles; see the counterexamples
above): colours between 0 and 1 never get brighter, and in all cycles together lose less than two steps of the first. -/
theorem C96_colors_partial (hlog : AccurateLog2 lib) {b b' : Build} {prec : PrecisionInfo (Val b32)} {mname name : List UInt8}
    {data : List (Vec4 (Val b32))} {q : Val b32} {p : Nat} (hm : NameOk mname) (hn : name.length < 256) (hl : data.length ≤ 2 ^ 26)
    (hp : colorPrec (ops lib) q = p) (hp1 : 1 ≤ p) {k : Nat} (hk : p + k ≤ 25)
    (hu : ∀ c ∈ data, UnitValue c.1 ∧ UnitValue c.2.1 ∧ UnitValue c.2.2.1 ∧ UnitValue c.2.2.2) :
    ∃ data' q', FileCycles (ops lib) fb b b' prec k [(onlyCustom ⟨name, .color data q⟩, mname)]
        [(onlyCustom ⟨name, .color data' q'⟩, mname)] ∧ colorPrec (ops lib) q' = p + k ∧
      List.Forall₂ (ColorFaded ((2 - 2 / 2 ^ k) / (2 ^ p - 1))) data data' := by
  refine ⟨_, _, colors_age hlog hm hn hl hp (.inl (by omega)), agedPrec_bits hlog hp (by omega), ?_⟩
  induction k with
  | zero =>
    rw [agedColors, List.forall₂_same]
    intro c hc
    obtain ⟨h1, h2, h3, h4⟩ := hu c hc
    have h0 : (2 - 2 / 2 ^ 0 : ℚ) / (2 ^ p - 1) = 0 := by norm_num
    rw [h0]
    exact ⟨⟨h1, le_refl _, by linarith⟩, ⟨h2, le_refl _, by linarith⟩, ⟨h3, le_refl _, by linarith⟩, ⟨h4, le_refl _, by linarith⟩⟩
  | succ k ih =>
    rw [agedColors, List.forall₂_map_right_iff]
    refine (ih (by omega)).imp ?_
    rintro c c' ⟨h1, h2, h3, h4⟩
    exact ⟨channel_fades hp1 (by omega) h1, channel_fades hp1 (by omega) h2, channel_fades hp1 (by omega) h3, channel_fades hp1 (by omega) h4⟩

/-- A grey with the precision 0.01, saved and loaded 18 times: it loses at most 2/127. -/
example (fb : F64Bytes (ops someLibm)) (b b' : Build) (prec : PrecisionInfo (Val b32)) : ∃ c q',
    FileCycles (ops someLibm) fb b b' prec 18 [(onlyCustom ⟨[99], .color [(nine64, nine64, nine64, nine64)] (lit 1 2)⟩, [65])]
      [(onlyCustom ⟨[99], .color [c] q'⟩, [65])] ∧ ColorFaded (2 / 127) (nine64, nine64, nine64, nine64) c := by
  obtain ⟨data', q', h1, -, h2⟩ := C96_colors_partial (fb := fb) (b := b) (b' := b') (prec := prec) (mname := [65]) (name := [99])
    (data := [(nine64, nine64, nine64, nine64)]) someLibm_log2 ⟨by decide, ⟨['A'], by decide⟩⟩ (by decide) (by show 1 ≤ 2 ^ 26; decide)
    (hundredth_bits someLibm_log2) (by decide) (k := 18) (by decide) (fun c hc => by
      rcases List.mem_singleton.mp hc with rfl
      exact ⟨(storable_nine64 1).1, (storable_nine64 1).1, (storable_nine64 1).1, (storable_nine64 1).1⟩)
  obtain ⟨c, rfl, h3⟩ := forall₂_one h2
  refine ⟨c, q', h1, ?_⟩
  have hle : ((2 - 2 / 2 ^ 18) / (2 ^ 7 - 1) : ℚ) ≤ 2 / 127 := by norm_num
  obtain ⟨⟨a1, a2, a3⟩, ⟨b1, b2, b3⟩, ⟨c1, c2, c3⟩, ⟨d1, d2, d3⟩⟩ := h3
  exact ⟨⟨a1, a2, a3.trans hle⟩, ⟨b1, b2, b3.trans hle⟩, ⟨c1, c2, c3.trans hle⟩, ⟨d1, d2, d3.trans hle⟩⟩

/-- The same grey is lost in the end. -/
example (fb : F64Bytes (ops someLibm)) (b' : Build) (prec : PrecisionInfo (Val b32)) : ∃ q,
    FileCycles (ops someLibm) fb .wrapping b' prec 26 [(onlyCustom ⟨[99], CustomData.ofColors (ops someLibm) [(nine64, nine64, nine64, nine64)]⟩, [65])]
      [(onlyCustom ⟨[99], .color [(vZero, vZero, vZero, vZero)] q⟩, [65])] := by
  obtain ⟨q, h⟩ := (C96_colors_violated (fb := fb) (prec := prec) (mname := [65]) (name := [99])
    (data := [(nine64, nine64, nine64, nine64)]) someLibm_log2 ⟨by decide, ⟨['A'], by decide⟩⟩ (by decide) (by show 1 ≤ 2 ^ 26; decide)).2
  exact ⟨q, h b'⟩

end Tmf.Props
