import Verif.Model.Lz77
import Verif.Lemmas.Triangles
/-
Lemmas about the LZ77 stage.
-/

namespace Tmf
open Spec

theorem matchLen_spec (data : List Nat) : ∀ (fuel offset pos k : Nat), k < matchLen data fuel offset pos →
    pos + k < data.length ∧ data[offset + k]? = data[pos + k]? := by
  intro fuel
  induction fuel with
  | zero => intro o p k h; simp [matchLen] at h
  | succ fuel ih =>
    intro o p k h
    rw [matchLen] at h
    split at h
    · next hc =>
      cases k with
      | zero => exact ⟨by simpa using hc.2.1, by simpa using hc.2.2⟩
      | succ k =>
        have := ih (o + 1) (p + 1) k (by omega)
        rw [show o + (k + 1) = o + 1 + k by omega, show p + (k + 1) = p + 1 + k by omega]
        exact this
    · omega

/-- What a found match promises. -/
def GoodMatch (data : List Nat) (pos limit : Nat) (m : Nat × Nat) : Prop :=
  m.1 ≤ pos ∧ m.1 ≤ limit ∧ (m.2 = 0 ∨ 0 < m.1) ∧
    ∀ k, k < m.2 → pos + k < data.length ∧ data[pos - m.1 + k]? = data[pos + k]?

theorem findLongestMatch_good (data : List Nat) (pos limit : Nat) :
    GoodMatch data pos limit (findLongestMatch data pos limit) := by
  unfold findLongestMatch
  have : ∀ (l : List Nat) (best : Nat × Nat), (∀ o ∈ l, pos - limit ≤ o ∧ o < pos) → GoodMatch data pos limit best →
      GoodMatch data pos limit (l.foldl (longerMatch data pos) best) := by
    intro l
    induction l with
    | nil => intro best _ h; exact h
    | cons o l ih =>
      intro best ho h
      refine ih _ (fun x hx => ho x (by simp [hx])) ?_
      have ho' := ho o (by simp)
      unfold longerMatch
      dsimp only
      split
      · refine ⟨by dsimp; omega, by dsimp; omega, Or.inr (by dsimp; omega), fun k hk => ?_⟩
        have := matchLen_spec data _ o pos k hk
        dsimp only
        rw [show pos - (pos - o) + k = o + k by omega]
        exact this
      · exact h
  refine this _ _ ?_ ⟨by simp, by simp, Or.inl rfl, fun k hk => by simp at hk⟩
  intro o ho
  rw [List.mem_range'_1] at ho
  omega

/-- The fields written from position `pos` on. -/
def lzFields (prec : Nat) (data : List Nat) : (fuel pos : Nat) → List (Nat × Nat)
  | 0, _ => []
  | fuel + 1, pos =>
    if pos < data.length then
      let m := findLongestMatch data pos 127
      if m.1 = 0 ∨ m.2 < 2 then (1, 1) :: (prec, data.getD pos 0) :: lzFields prec data fuel (pos + 1)
      else (1, 0) :: (prec, m.2) :: (prec, m.1) :: lzFields prec data fuel (pos + m.2)
    else []

theorem saveCompressedLoop_eq (b : Build) (prec : Nat) (data : List Nat) : ∀ (fuel pos : Nat) (w : BitWriter),
    saveCompressedLoop b prec data fuel pos w = w.writeAll b (lzFields prec data fuel pos) := by
  intro fuel
  induction fuel with
  | zero => intro pos w; rfl
  | succ fuel ih =>
    intro pos w
    rw [saveCompressedLoop, lzFields]
    split
    · dsimp only
      split
      · simp only [BitWriter.writeAll, BitWriter.writeBit, ih]; rfl
      · simp only [BitWriter.writeAll, BitWriter.writeBit, ih]; rfl
    · rfl

theorem lzFields_width (prec : Nat) (data : List Nat) (hp : prec ≤ 64) : ∀ (fuel pos : Nat),
    ∀ p ∈ lzFields prec data fuel pos, p.1 ≤ 64 := by
  intro fuel
  induction fuel with
  | zero => intro pos p h; simp [lzFields] at h
  | succ fuel ih =>
    intro pos p h
    rw [lzFields] at h
    split at h
    · dsimp only at h
      split at h
      · simp only [List.mem_cons] at h
        rcases h with rfl | rfl | h
        · decide
        · exact hp
        · exact ih _ _ h
      · simp only [List.mem_cons] at h
        rcases h with rfl | rfl | rfl | h
        · decide
        · exact hp
        · exact hp
        · exact ih _ _ h
    · simp at h

theorem copyRun_ok (data : List Nat) : ∀ (len i n : Nat), i < n →
    (∀ k, k < len → n + k < data.length ∧ data[i + k]? = data[n + k]?) →
    copyRun len i (data.take n) = .ok (data.take (n + len)) := by
  intro len
  induction len with
  | zero => intro i n _ _; rfl
  | succ len ih =>
    intro i n hi h
    have h0 := h 0 (by omega)
    simp only [Nat.add_zero] at h0
    rw [copyRun, List.getElem?_take_of_lt hi, h0.2, List.getElem?_eq_getElem h0.1]
    dsimp only
    rw [List.take_concat_get' data n h0.1, ih (i + 1) (n + 1) (by omega), show n + 1 + len = n + (len + 1) by omega]
    intro k hk
    have := h (k + 1) (by omega)
    rw [show i + 1 + k = i + (k + 1) by omega, show n + 1 + k = n + (k + 1) by omega]
    exact this

theorem BitReader.readBit_one {r : BitReader} (hr : r.Inv) {v : Nat} {rest : List Bool} (h : r.rem = bits 1 v ++ rest) :
    ∃ r', r.readBit = .ok (v.testBit 0, r') ∧ r'.Inv ∧ r'.rem = rest := by
  rcases BitReader.readBit_cases hr with ⟨bit, l, r', h1, h2, h3, h4, _⟩ | ⟨h1, _⟩
  · rw [h] at h1
    simp only [bits, List.cons_append, List.nil_append, List.cons.injEq] at h1
    exact ⟨r', by rw [h2, h1.1], h3, by rw [h4, h1.2]⟩
  · rw [h1] at h; simp [bits] at h

theorem BitReader.read_one {r : BitReader} (hr : r.Inv) {w v : Nat} (hw : w < 64) (hv : v < 2 ^ w) {rest : List Bool}
    (h : r.rem = bits w v ++ rest) : ∃ r', r.read w = .ok (v, r') ∧ r'.Inv ∧ r'.rem = rest := by
  obtain ⟨r', h1, h2, h3, _⟩ := BitReader.read_ok hr hw (by rw [h]; simp)
  refine ⟨r', ?_, h2, ?_⟩
  · rw [h1, h, take_fieldBits_cons, value_bits, Nat.mod_eq_of_lt hv]
  · rw [h3, h, drop_fieldBits_cons]

theorem readCompressedLoop_ok (b : Build) {prec : Nat} (hp : prec < 64) (data : List Nat)
    (hv : ∀ v ∈ data, v < 2 ^ prec) (hl : data.length ≤ 2 ^ prec) : ∀ (fuel fuel' pos : Nat) (r : BitReader) (rest : List Bool),
    data.length ≤ fuel + pos → pos ≤ data.length → (fieldBits (lzFields prec data fuel pos)).length < fuel' → r.Inv →
    r.rem = fieldBits (lzFields prec data fuel pos) ++ rest →
    readCompressedLoop b prec data.length fuel' r (data.take pos) = .ok data := by
  intro fuel
  induction fuel with
  | zero =>
    intro fuel' pos r rest h1 h2 h3 hr hrem
    have : pos = data.length := by omega
    subst this
    cases fuel' with
    | zero => omega
    | succ fuel' => rw [readCompressedLoop]; simp
  | succ fuel ih =>
    intro fuel' pos r rest h1 h2 h3 hr hrem
    cases fuel' with
    | zero => omega
    | succ fuel' =>
      rw [readCompressedLoop]
      have hlen : (data.take pos).length = pos := by simp [h2]
      rw [hlen]
      rw [lzFields] at hrem h3
      by_cases hpos : pos < data.length
      · rw [if_pos hpos]
        rw [if_pos hpos] at hrem h3
        dsimp only at hrem h3
        have hg := findLongestMatch_good data pos 127
        set m := findLongestMatch data pos 127 with hm
        split at hrem
        · next hraw =>
          rw [if_pos hraw] at h3
          simp only [fieldBits_cons, List.append_assoc, List.length_append, length_bits] at hrem h3
          obtain ⟨r1, e1, hi1, hr1⟩ := BitReader.readBit_one hr hrem
          have hd : data.getD pos 0 = data[pos] := by rw [List.getD_eq_getElem?_getD, List.getElem?_eq_getElem hpos]; rfl
          obtain ⟨r2, e2, hi2, hr2⟩ := BitReader.read_one hi1 hp
            (by rw [hd]; exact hv _ (List.getElem_mem _)) hr1
          rw [e1, Outcome.bind_ok]
          dsimp only
          rw [e2, Outcome.bind_ok]
          dsimp only
          rw [if_pos (by decide), hd, List.take_concat_get' data pos hpos]
          exact ih fuel' (pos + 1) r2 rest (by omega) (by omega) (by omega) hi2 hr2
        · next hraw =>
          rw [if_neg hraw] at h3
          obtain ⟨hg1, hg2, hg3, hg4⟩ := hg
          simp only [fieldBits_cons, List.append_assoc, List.length_append, length_bits] at hrem h3
          have hlast := hg4 (m.2 - 1) (by omega)
          obtain ⟨r1, e1, hi1, hr1⟩ := BitReader.readBit_one hr hrem
          obtain ⟨r2, e2, hi2, hr2⟩ := BitReader.read_one hi1 hp (by omega) hr1
          obtain ⟨r3, e3, hi3, hr3⟩ := BitReader.read_one hi2 hp (by omega) hr2
          rw [e1, Outcome.bind_ok]
          dsimp only
          rw [e2, Outcome.bind_ok]
          dsimp only
          rw [if_neg (by decide), e3, Outcome.bind_ok]
          dsimp only
          rw [copyToken.eq_def, hlen, if_pos (by omega), copyRun_ok data m.2 (pos - m.1) pos (by omega) hg4, Outcome.bind_ok]
          exact ih fuel' (pos + m.2) r3 rest (by omega) (by omega) (by omega) hi3 hr3
      · rw [if_neg hpos]
        have : pos = data.length := by omega
        subst this
        simp

end Tmf
