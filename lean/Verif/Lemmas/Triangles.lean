import Verif.Lemmas.Bytes
import Verif.Model.Triangles
/-
Lemmas about index arrays.
-/

namespace Tmf
open Spec

/-! ### calc_prec -/

theorem countOnes_le_one_of_pow {k : Nat} : countOnes (2 ^ k) ≤ 1 := by
  unfold countOnes
  have h : (List.range 64).filter (2 ^ k).testBit = (List.range 64).filter (fun i => i == k) := by
    congr 1; funext i; rw [Nat.testBit_two_pow]
    by_cases h : k = i
    · simp [h]
    · simp [h, Ne.symm h]
  rw [h, ← List.countP_eq_length_filter]
  exact List.nodup_iff_count_le_one.mp List.nodup_range k

theorem countOnes_gt_one {n k : Nat} (hk : k < 64) (hne : n ≠ 2 ^ k) (hbit : n.testBit k = true)
    (hlt : n < 2 ^ (k + 1)) : 1 < countOnes n := by
  have hj : ∃ j, j < k ∧ n.testBit j = true := by
    by_contra hc
    apply hne
    apply Nat.eq_of_testBit_eq
    intro i
    rw [Nat.testBit_two_pow]
    rcases Nat.lt_trichotomy i k with h | h | h
    · have : n.testBit i = false := by
        by_contra h2
        exact hc ⟨i, h, by simpa using h2⟩
      rw [this]; simp; omega
    · subst h; simp [hbit]
    · have : n.testBit i = false :=
        Nat.testBit_lt_two_pow (lt_of_lt_of_le hlt (Nat.pow_le_pow_right (by omega) (by omega)))
      rw [this]; simp; omega
  obtain ⟨j, hjk, hj⟩ := hj
  unfold countOnes
  have hsub : [j, k].Sublist ((List.range 64).filter n.testBit) := by
    have h1 : [j, k].Sublist (List.range 64) := by
      have : (List.range 64) = List.range (j + 1) ++ (List.range (64 - (j + 1))).map (j + 1 + ·) := by
        rw [← List.range_add]; congr 1; omega
      rw [this, List.range_succ, List.append_assoc]
      apply List.Sublist.trans _ (List.sublist_append_right _ _)
      apply List.Sublist.cons_cons
      rw [List.singleton_sublist]
      apply List.mem_map.mpr
      exact ⟨k - (j + 1), by simp; omega, by omega⟩
    have := h1.filter n.testBit
    simpa [hj, hbit] using this
  exact hsub.length_le

theorem calcPrec_spec {m : Nat} (h : m < 2 ^ 64) :
    m < 2 ^ calcPrec m ∧ (∀ p, p < calcPrec m → 2 ^ p ≤ m) := by
  unfold calcPrec
  split
  · next h0 =>
    subst h0
    refine ⟨by decide, fun p hp => ?_⟩
    calc 2 ^ p ≤ 2 ^ 63 := Nat.pow_le_pow_right (by omega) (by omega)
      _ ≤ _ := by decide
  next hne =>
  dsimp only
  set k := Nat.log2 (m + 1) with hk
  have h1 : 2 ^ k ≤ m + 1 := Nat.log2_self_le (by omega)
  have h2 : m + 1 < 2 ^ (k + 1) := Nat.lt_log2_self
  have hk64 : k < 64 := by
    by_contra hc
    have : 2 ^ 64 ≤ 2 ^ k := Nat.pow_le_pow_right (by omega) (by omega)
    omega
  by_cases hp : m + 1 = 2 ^ k
  · have : ¬ countOnes (m + 1) > 1 := by rw [hp]; have := countOnes_le_one_of_pow (k := k); omega
    rw [if_neg this]
    refine ⟨by simp only [Nat.add_zero]; omega, fun p hp' => ?_⟩
    have : 2 ^ (p + 1) ≤ 2 ^ k := Nat.pow_le_pow_right (by omega) (by omega)
    have hpos := Nat.two_pow_pos p
    rw [Nat.pow_succ] at this
    omega
  · have hbit : (m + 1).testBit k = true := by
      rw [Nat.testBit_eq_decide_div_mod_eq]
      have : (m + 1) / 2 ^ k = 1 := by
        apply Nat.div_eq_of_lt_le
        · omega
        · rw [Nat.pow_succ] at h2; omega
      rw [this]; simp
    have := countOnes_gt_one hk64 hp hbit h2
    rw [if_pos this]
    refine ⟨by omega, fun p hp' => ?_⟩
    have : 2 ^ p ≤ 2 ^ k := Nat.pow_le_pow_right (by omega) (by omega)
    omega

theorem calcPrec_le {m k : Nat} (h : m < 2 ^ 64) (hk : m < 2 ^ k) : calcPrec m ≤ k := by
  by_contra hc
  have := (calcPrec_spec h).2 k (by omega)
  omega

theorem calcPrec_mono {m n : Nat} (hmn : m ≤ n) (h : n < 2 ^ 64) : calcPrec m ≤ calcPrec n :=
  calcPrec_le (by omega) (lt_of_le_of_lt hmn (calcPrec_spec h).1)

theorem lt_calcPrec {m k : Nat} (h : m < 2 ^ 64) (hk : 2 ^ k ≤ m) : k < calcPrec m := by
  by_contra hc
  have := (calcPrec_spec h).1
  have h2 : 2 ^ calcPrec m ≤ 2 ^ k := Nat.pow_le_pow_right (by omega) (by omega)
  omega

/-! ### min and max -/

theorem minIndex_le {l : List Nat} {i : Nat} (h : i ∈ l) : minIndex l ≤ i := by
  cases l with
  | nil => simp at h
  | cons x xs =>
    simp only [minIndex]
    have key : ∀ (xs : List Nat) (x : Nat), xs.foldl min x ≤ x ∧ ∀ y ∈ xs, xs.foldl min x ≤ y := by
      intro xs
      induction xs with
      | nil => simp
      | cons a xs ih =>
        intro x
        simp only [List.foldl_cons]
        have := ih (min x a)
        refine ⟨by omega, fun y hy => ?_⟩
        rcases List.mem_cons.mp hy with rfl | hy
        · omega
        · exact this.2 y hy
    rcases List.mem_cons.mp h with rfl | h
    · exact (key xs i).1
    · exact (key xs x).2 i h

theorem minIndex_mem {l : List Nat} (h : l ≠ []) : minIndex l ∈ l := by
  cases l with
  | nil => simp at h
  | cons x xs =>
    simp only [minIndex]
    have key : ∀ (xs : List Nat) (x : Nat), xs.foldl min x ∈ x :: xs := by
      intro xs
      induction xs with
      | nil => simp
      | cons a xs ih =>
        intro x
        simp only [List.foldl_cons]
        have := ih (min x a)
        rcases List.mem_cons.mp this with h | h
        · rw [h]
          rcases Nat.le_total x a with h | h
          · simp [Nat.min_eq_left h]
          · simp [Nat.min_eq_right h]
        · simp [h]
    exact key xs x

theorem foldl_max_spec (l : List Nat) (a : Nat) : a ≤ l.foldl max a ∧ (∀ y ∈ l, y ≤ l.foldl max a) ∧
    (l.foldl max a = a ∨ l.foldl max a ∈ l) := by
  induction l generalizing a with
  | nil => simp
  | cons x xs ih =>
    simp only [List.foldl_cons]
    obtain ⟨h1, h2, h3⟩ := ih (max a x)
    refine ⟨by omega, fun y hy => ?_, ?_⟩
    · rcases List.mem_cons.mp hy with rfl | hy
      · omega
      · exact h2 y hy
    · rcases h3 with h3 | h3
      · rcases Nat.le_total a x with h | h
        · right; rw [h3, Nat.max_eq_right h]; simp
        · left; rw [h3, Nat.max_eq_left h]
      · right; simp [h3]

theorem le_maxIndex {l : List Nat} {i : Nat} (h : i ∈ l) : i ≤ maxIndex l := (foldl_max_spec l 0).2.1 i h

theorem maxIndex_lt {l : List Nat} {n : Nat} (hn : 0 < n) (h : ∀ i ∈ l, i < n) : maxIndex l < n := by
  rcases (foldl_max_spec l 0).2.2 with h0 | h0
  · unfold maxIndex; omega
  · exact h _ h0

/-! ### Reading fields of equal width -/

theorem BitReader.read2_ok {r : BitReader} (hr : r.Inv) {w : Nat} (hw : w < 64) (h32 : w ≠ 32)
    (h : 2 * w ≤ r.rem.length) :
    ∃ r', r.read2 w = .ok ((value (r.rem.take w), value ((r.rem.drop w).take w)), r') ∧ r'.Inv ∧
      r'.rem = r.rem.drop (2 * w) ∧ r'.src.broken = r.src.broken := by
  have := read2_eq hr h32
  obtain ⟨r1, e1, hi1, hd1, hb1⟩ := read_ok hr hw (by omega)
  obtain ⟨r2, e2, hi2, hd2, hb2⟩ := read_ok hi1 hw (by rw [hd1, List.length_drop]; omega)
  rw [e1] at this
  simp only [Outcome.bind_ok] at this
  rw [e2] at this
  simp only [Outcome.bind_ok] at this
  cases hx : r.read2 w with
  | ok p =>
    rw [hx] at this
    obtain ⟨h1, h2⟩ := this
    refine ⟨p.2, ?_, h2.inv₁, ?_, ?_⟩
    · rw [show p = (p.1, p.2) from rfl, h1, hd1]
    · rw [h2.rem, hd2, hd1, List.drop_drop]; congr 1; omega
    · rw [h2.broken, hb2, hb1]
  | err e => rw [hx] at this; simp [Outcome.Rel] at this
  | panic => rw [hx] at this; simp [Outcome.Rel] at this

theorem take_fieldBits_cons {w v : Nat} {l : List Bool} : (bits w v ++ l).take w = bits w v := by
  rw [List.take_append_of_le_length (by simp), List.take_of_length_le (by simp)]

theorem drop_fieldBits_cons {w v : Nat} {l : List Bool} : (bits w v ++ l).drop w = l := by
  rw [List.drop_append_of_le_length (by simp), List.drop_of_length_le (by simp), List.nil_append]

theorem addMin_ok (b : Build) {i min : Nat} (h : i + min < 2 ^ 64) :
    addMin b i min = .ok ((i + min) % 2 ^ 32) := by
  rw [addMin, if_neg (by omega)]

theorem readIndexPairs_ok (b : Build) {prec min : Nat} (hp : prec < 64) (h32 : prec ≠ 32) :
    ∀ (n : Nat) (codes : List Nat) (r : BitReader) (rest : List Bool), r.Inv →
      (∀ c ∈ codes, c < 2 ^ prec) → (∀ c ∈ codes, c + min < 2 ^ 64) → codes.length = 2 * n →
      r.rem = fieldBits (codes.map (fun c => (prec, c))) ++ rest →
      ∃ r', readIndexPairs b prec min n r = .ok (codes.map (fun c => (c + min) % 2 ^ 32), r') ∧ r'.Inv ∧
        r'.rem = rest := by
  intro n
  induction n with
  | zero =>
    intro codes r rest hr _ _ hl hrem
    have : codes = [] := List.length_eq_zero_iff.mp (by omega)
    subst this
    exact ⟨r, rfl, hr, by simpa using hrem⟩
  | succ n ih =>
    intro codes r rest hr hc hm hl hrem
    match codes, hl with
    | c1 :: c2 :: codes, hl =>
      simp only [List.map_cons, fieldBits_cons, List.append_assoc] at hrem
      obtain ⟨r', e, hi, hd, _⟩ := BitReader.read2_ok hr hp h32 (by rw [hrem]; simp; omega)
      have hd' : r'.rem = fieldBits (codes.map (fun c => (prec, c))) ++ rest := by
        rw [hd, Nat.two_mul, ← List.drop_drop, hrem, drop_fieldBits_cons, drop_fieldBits_cons]
      rw [hrem, take_fieldBits_cons, drop_fieldBits_cons, take_fieldBits_cons, value_bits, value_bits,
        Nat.mod_eq_of_lt (hc c1 (by simp)), Nat.mod_eq_of_lt (hc c2 (by simp))] at e
      obtain ⟨r2, e2, hi2, hd2⟩ := ih codes r' rest hi (fun c h => hc c (by simp [h]))
        (fun c h => hm c (by simp [h])) (by simp at hl; omega) hd'
      refine ⟨r2, ?_, hi2, hd2⟩
      simp only [readIndexPairs, e, Outcome.bind_ok, addMin_ok b (hm c1 (by simp)),
        addMin_ok b (hm c2 (by simp)), e2, List.map_cons]
    | [], hl => simp at hl
    | [_], hl => simp at hl; omega

theorem readIndices_ok (b : Build) {prec min : Nat} (hp : prec < 64) (h32 : prec ≠ 32)
    (codes : List Nat) {r : BitReader} {rest : List Bool} (hr : r.Inv)
    (hc : ∀ c ∈ codes, c < 2 ^ prec) (hm : ∀ c ∈ codes, c + min < 2 ^ 64)
    (hrem : r.rem = fieldBits (codes.map (fun c => (prec, c))) ++ rest) :
    readIndices b prec min codes.length r = .ok (codes.map (fun c => (c + min) % 2 ^ 32)) := by
  unfold readIndices
  by_cases hodd : codes.length % 2 = 0
  · obtain ⟨r', e, _, _⟩ := readIndexPairs_ok b hp h32 (codes.length / 2) codes r rest hr hc hm
      (by omega) hrem
    rw [e]
    simp [hodd]
  · have hne : codes ≠ [] := by rintro rfl; simp at hodd
    have hsplit : codes = codes.dropLast ++ [codes.getLast hne] := (List.dropLast_append_getLast hne).symm
    set init := codes.dropLast
    set last := codes.getLast hne with hlast
    have hlm : last ∈ codes := List.getLast_mem hne
    have hlen : codes.length = init.length + 1 := by
      have := congrArg List.length hsplit; simpa using this
    obtain ⟨r', e, hi, hd⟩ := readIndexPairs_ok b hp h32 (codes.length / 2) init r
      (bits prec last ++ rest) hr (fun c h => hc c (by rw [hsplit]; simp [h]))
      (fun c h => hm c (by rw [hsplit]; simp [h])) (by omega)
      (by rw [hrem]; conv_lhs => rw [hsplit]
          simp)
    obtain ⟨r2, e2, _⟩ := BitReader.read_ok hi hp (by rw [hd]; simp)
    rw [hd, take_fieldBits_cons, value_bits, Nat.mod_eq_of_lt (hc last hlm)] at e2
    rw [e]
    simp only [Outcome.bind_ok]
    rw [if_pos hodd, e2]
    simp only [Outcome.bind_ok, addMin_ok b (hm last hlm)]
    conv_rhs => rw [hsplit]
    simp

/-! ### Round trips -/

theorem readTrianglesHeader_ok {precision length min : Nat} (hp : precision < 256)
    (hl : length ≤ MAX_SEG_SIZE) (hm : min < 2 ^ 64) (rest : List UInt8) :
    (readTrianglesHeader ⟨true⟩).runSlice
      (leBytes 1 precision ++ leBytes 8 length ++ leBytes 8 min ++ rest) = .ok ((precision, length, min), rest) := by
  have hl' : length < 2 ^ 64 := lt_of_le_of_lt hl (by decide)
  unfold readTrianglesHeader DecodeCtx.readTriangleMin
  simp only [List.append_assoc, if_true]
  rw [Prog.runSlice_bind, Prog.runSlice_readU8 _ hp]
  simp only [Outcome.bind_ok]
  rw [Prog.runSlice_bind, Prog.runSlice_readU64 _ hl']
  simp only [Outcome.bind_ok]
  rw [Prog.runSlice_bind, Prog.runSlice_readU64 _ hm]
  simp only [Outcome.bind_ok]
  rw [if_neg (by omega)]
  rfl

theorem saveTriangles_ok (b : Build) (l : List Nat) {m : Nat} (hm : m < 2 ^ 64) :
    ∃ payload, saveTriangles b l m = .ok (leBytes 1 (calcPrec m) ++ leBytes 8 l.length ++
        leBytes 8 (minIndex l) ++ payload) ∧
      payload.length = (calcPrec m * l.length + 7) / 8 ∧
      ∃ pad, pad < 8 ∧ byteBits payload = fieldBits (l.map (fun i => (calcPrec m, i - minIndex l))) ++
        List.replicate pad false := by
  have h64 : calcPrec m ≤ 64 := calcPrec_le hm hm
  obtain ⟨w, e, hi, hc⟩ := BitWriter.writeAll_spec b (l.map (fun i => (calcPrec m, i - minIndex l)))
    (by intro p hp; obtain ⟨i, _, rfl⟩ := List.mem_map.mp hp; exact h64) BitWriter.inv_new
  have hc' : w.content = fieldBits (l.map (fun i => (calcPrec m, i - minIndex l))) := by simpa using hc
  refine ⟨w.finish, ?_, ?_, ?_⟩
  · simp [saveTriangles, e]
  · rw [BitWriter.finish_length hi, hc', length_fieldBits]
    congr 2
    simp [fieldWidth, Function.comp_def, Nat.mul_comm]
  · obtain ⟨pad, hp, hf⟩ := BitWriter.finish_bits hi
    exact ⟨pad, hp, by rw [hf, hc']⟩

/-- Everything needed to decode a saved array except the final choice of reader. -/
theorem readIndices_saved (b : Build) (l : List Nat) {m : Nat} (h63 : m < 2 ^ 63)
    (h32 : calcPrec m ≠ 32) (hl : ∀ i ∈ l, i ≤ m) (h32' : ∀ i ∈ l, i < 2 ^ 32) {payload : List UInt8} {pad : Nat}
    (hpay : byteBits payload = fieldBits (l.map (fun i => (calcPrec m, i - minIndex l))) ++
        List.replicate pad false) (suffix : List UInt8) :
    readIndices b (calcPrec m) (minIndex l) l.length (.new (.slice (payload ++ suffix))) = .ok l := by
  have hm64 : m < 2 ^ 64 := by omega
  have hp : calcPrec m < 64 := lt_of_le_of_lt (calcPrec_le hm64 h63) (by omega)
  have := readIndices_ok b (min := minIndex l) hp h32 (l.map (fun i => i - minIndex l))
    (r := .new (.slice (payload ++ suffix))) (rest := List.replicate pad false ++ byteBits suffix)
    (BitReader.inv_new _)
    (by
      intro c hc
      obtain ⟨i, hi, rfl⟩ := List.mem_map.mp hc
      have := hl i hi
      have := (calcPrec_spec hm64).1
      omega)
    (by
      intro c hc
      obtain ⟨i, hi, rfl⟩ := List.mem_map.mp hc
      have := minIndex_le hi
      have := h32' i hi
      omega)
    (by
      rw [BitReader.rem_new]
      simp [Source.slice, hpay, Function.comp_def])
  rw [List.length_map] at this
  rw [this, List.map_map]
  congr 1
  conv_rhs => rw [← List.map_id l]
  apply List.map_congr_left
  intro i hi
  have := minIndex_le hi
  have := h32' i hi
  simp only [Function.comp, id]
  rw [Nat.sub_add_cancel (by assumption), Nat.mod_eq_of_lt (by assumption)]

theorem minIndex_lt {l : List Nat} {n : Nat} (hn : 0 < n) (h : ∀ i ∈ l, i < n) : minIndex l < n := by
  by_cases h0 : l = []
  · subst h0; simpa [minIndex] using hn
  · exact h _ (minIndex_mem h0)

/-- `read_triangles` after `save_triangles` (custom data). -/
theorem readTriangles_saved (b b' : Build) (l : List Nat) {m : Nat} (h63 : m < 2 ^ 63)
    (h32 : calcPrec m ≠ 32) (hl : ∀ i ∈ l, i ≤ m) (h32' : ∀ i ∈ l, i < 2 ^ 32)
    (hlen : l.length ≤ MAX_SEG_SIZE) :
    ∃ bytes, saveTriangles b l m = .ok bytes ∧ ∀ suffix, readTriangles b' ⟨true⟩ (bytes ++ suffix) = .ok l := by
  have hm64 : m < 2 ^ 64 := by omega
  obtain ⟨payload, e, _, pad, _, hpay⟩ := saveTriangles_ok b l hm64
  refine ⟨_, e, fun suffix => ?_⟩
  unfold readTriangles
  rw [List.append_assoc, readTrianglesHeader_ok (lt_of_le_of_lt (calcPrec_le hm64 h63) (by omega)) hlen
    (lt_of_lt_of_le (minIndex_lt (by positivity) h32') (by decide))]
  exact readIndices_saved b' l h63 h32 hl h32' hpay suffix

/-- `read_default_triangles` after `save_triangles` with the true maximum. -/
theorem readDefaultTriangles_saved (b b' : Build) (l : List Nat) (h31 : ∀ i ∈ l, i < 2 ^ 31)
    (hlen : l.length ≤ MAX_SEG_SIZE) :
    ∃ bytes, saveTriangles b l (maxIndex l) = .ok bytes ∧
      ∀ suffix, readDefaultTriangles b' ⟨true⟩ (bytes ++ suffix) = .ok l := by
  have hm31 : maxIndex l < 2 ^ 31 := maxIndex_lt (by positivity) h31
  have hm64 : maxIndex l < 2 ^ 64 := by omega
  have hp31 : calcPrec (maxIndex l) ≤ 31 := calcPrec_le hm64 hm31
  obtain ⟨payload, e, _, pad, _, hpay⟩ := saveTriangles_ok b l hm64
  refine ⟨_, e, fun suffix => ?_⟩
  unfold readDefaultTriangles
  rw [List.append_assoc, readTrianglesHeader_ok (by omega) hlen
    (lt_of_lt_of_le (minIndex_lt (n := 2 ^ 31) (by positivity) h31) (by decide))]
  simp only [Outcome.bind_ok]
  split
  · next h0 =>
    congr 1
    have hmax : maxIndex l < 2 ^ 0 := h0 ▸ (calcPrec_spec hm64).1
    symm
    rw [List.eq_replicate_iff]
    exact ⟨rfl, fun i hi => by have := le_maxIndex hi; omega⟩
  · exact readIndices_saved b' l (by omega) (by omega) (fun i hi => le_maxIndex hi)
      (fun i hi => lt_of_lt_of_le (h31 i hi) (by decide)) hpay suffix

end Tmf
