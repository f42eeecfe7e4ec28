import Verif.Lemmas.ObjMore
import Verif.Spec.ObjFace
/-
Lemmas about the lines of faces.
-/

namespace Tmf
open Spec

variable {fo : FloatOps}

theorem splitBytes_list : ∀ (ws : List (List UInt8)) (w : List UInt8), IsWord w → (∀ w ∈ ws, IsWord w) →
    splitBytes isObjSep (w ++ ws.flatMap (fun w => 32 :: w)) = w :: ws
  | [], w, hw, _ => by rw [List.flatMap_nil, List.append_nil]; exact splitBytes_clean hw
  | w' :: ws, w, hw, h => by
    rw [List.flatMap_cons, List.cons_append, splitBytes_sep hw (.inl rfl),
      splitBytes_list ws w' (h _ List.mem_cons_self) fun x hx => h x (List.mem_cons_of_mem _ hx)]

theorem faceLine_chars {ws : List (List UInt8)} (h : ∀ w ∈ ws, AsciiWord w) : ∀ c ∈ faceLine ws, c.toNat < 128 ∧ c ≠ 10 ∧ c ≠ 13 := by
  intro c hc
  rw [faceLine, List.mem_cons, List.mem_flatMap] at hc
  rcases hc with rfl | ⟨w, hw, hc⟩
  · decide
  · rcases List.mem_cons.mp hc with rfl | hc
    · decide
    · obtain ⟨h1, _, _, h2, h3⟩ := h w hw c hc
      exact ⟨h1, h2, h3⟩

theorem parseLine_faceLine (ft : FloatText fo) (face : PushFace fo.F) (b : Build) {ws : List (List UInt8)} (h : ∀ w ∈ ws, AsciiWord w)
    (oi : Importer fo.F) : parseLine ft face b (faceLine ws) oi = (loadFace face ws oi >>= fun oi => .ok (none, oi)) := by
  have hs : splitBytes isObjSep (faceLine ws) = ascii "f" :: ws :=
    splitBytes_list ws [102] (by unfold IsWord; decide) fun w hw c hc => ⟨(h w hw c hc).2.1, (h w hw c hc).2.2.1⟩
  have e1 : ascii "f" ≠ ascii "v" := by decide
  have e2 : ascii "f" ≠ ascii "vn" := by decide
  have e3 : ascii "f" ≠ ascii "vt" := by decide
  rw [parseLine, if_pos (validUtf8_ascii fun c hc => (faceLine_chars h c hc).1), hs]
  simp only [nextWord, bind, Outcome.bind, parseWords, if_neg e1, if_neg e2, if_neg e3, if_true]

theorem loadIndices_words (w0 w1 w2 : List UInt8) (ws : List (List UInt8)) : loadIndices (w0 :: w1 :: w2 :: ws) =
    if parseIndex w0 < 1 ∨ parseIndex w1 < 1 ∨ parseIndex w2 < 1 then .err .other
    else .ok ((parseIndex w0 - 1, parseIndex w1 - 1, parseIndex w2 - 1), ws) := rfl

/-- Only the values of the words matter. -/
theorem loadFaceLoop_values : ∀ (fuel : Nat) (ws ws' : List (List UInt8)) (v u n : List Nat), ws.map parseIndex = ws'.map parseIndex →
    loadFaceLoop fuel ws v u n = loadFaceLoop fuel ws' v u n
  | 0, _, _, _, _, _, _ => rfl
  | fuel + 1, ws, ws', v, u, n, h => by
    have hl : ws.length = ws'.length := by simpa using congrArg List.length h
    match ws, ws', h, hl with
    | w0 :: w1 :: w2 :: ws, w0' :: w1' :: w2' :: ws', h, _ =>
      simp only [List.map_cons, List.cons.injEq] at h
      obtain ⟨h0, h1, h2, h⟩ := h
      rw [loadFaceLoop, loadFaceLoop, loadIndices_words, loadIndices_words, h0, h1, h2]
      split_ifs with hc
      · rfl
      · exact loadFaceLoop_values fuel ws ws' _ _ _ h
    | [], _, _, hl =>
      rw [loadFaceLoop, loadFaceLoop, loadIndices_short (by simp), loadIndices_short (by simp at hl; simp [← hl])]
    | [_], _, _, hl =>
      rw [loadFaceLoop, loadFaceLoop, loadIndices_short (by simp), loadIndices_short (by simp at hl; omega)]
    | [_, _], _, _, hl =>
      rw [loadFaceLoop, loadFaceLoop, loadIndices_short (by simp), loadIndices_short (by simp at hl; omega)]

theorem loadFace_values {F : Type} (face : PushFace F) {ws ws' : List (List UInt8)} (h : ws.map parseIndex = ws'.map parseIndex)
    (oi : Importer F) : loadFace face ws oi = loadFace face ws' oi := by
  have hl : ws.length = ws'.length := by simpa using congrArg List.length h
  rw [loadFace, loadFace, loadFaceLoop_values _ _ _ _ _ _ h, hl]

/-- Without zeros every three words make a corner. -/
theorem loadFaceLoop_count : ∀ (fuel : Nat) (ws : List (List UInt8)) (v u n : List Nat), ws.length < fuel →
    (∀ w ∈ ws, parseIndex w ≠ 0) → ∃ v' u' n', loadFaceLoop fuel ws v u n = .ok (v', u', n') ∧
      v'.length = v.length + ws.length / 3 ∧ u'.length = u.length + ws.length / 3 ∧ n'.length = n.length + ws.length / 3
  | 0, _, _, _, _, hf, _ => absurd hf (Nat.not_lt_zero _)
  | fuel + 1, ws, v, u, n, hf, h => by
    match ws, hf, h with
    | w0 :: w1 :: w2 :: ws, hf, h =>
      have h0 := h w0 (by simp)
      have h1 := h w1 (by simp)
      have h2 := h w2 (by simp)
      simp only [List.length_cons] at hf
      obtain ⟨v', u', n', e, hv, hu, hn⟩ := loadFaceLoop_count fuel ws (v ++ [parseIndex w0 - 1]) (u ++ [parseIndex w1 - 1])
        (n ++ [parseIndex w2 - 1]) (by omega) fun w hw => h w (by simp [hw])
      refine ⟨v', u', n', ?_, ?_, ?_, ?_⟩
      · rw [loadFaceLoop, loadIndices_words, if_neg (by omega)]
        exact e
      all_goals
        simp only [List.length_append, List.length_cons, List.length_nil] at hv hu hn ⊢
        omega
    | [], _, _ => exact ⟨v, u, n, rfl, by simp, by simp, by simp⟩
    | [_], _, _ => exact ⟨v, u, n, rfl, by simp, by simp, by simp⟩
    | [_, _], _, _ => exact ⟨v, u, n, rfl, by simp, by simp, by simp⟩

/-! ### Numbers -/

theorem digit?_zero {c : UInt8} (h : digit? c = some 0) : c = 48 := by
  rw [digit?] at h
  split_ifs at h with hc
  have h : c.toNat - 48 = 0 := Option.some.inj h
  exact UInt8.toNat_inj.mp (by simp; omega)

theorem digitsValue_ge : ∀ (ds : List UInt8) (acc v : Nat), digitsValue acc ds = some v → acc ≤ v
  | [], acc, v, h => by cases h; exact le_rfl
  | c :: ds, acc, v, h => by
    rw [digitsValue] at h
    split at h
    · have := digitsValue_ge ds _ _ h
      omega
    · cases h

theorem digitsValue_zero : ∀ (ds : List UInt8), digitsValue 0 ds = some 0 → ds = List.replicate ds.length 48
  | [], _ => rfl
  | c :: ds, h => by
    rw [digitsValue] at h
    split at h
    · rename_i d hd
      have hz := digitsValue_ge ds _ _ h
      have : d = 0 := by omega
      subst this
      rw [Nat.mul_zero, Nat.add_zero] at h
      rw [List.length_cons, List.replicate_succ, ← digitsValue_zero ds h, digit?_zero hd]
    · cases h

theorem parseIndex_zero {w : List UInt8} (h : parseIndex w = 0) : IsZero w := by
  rw [parseIndex] at h
  cases hp : parseU32 w with
  | none => rw [hp] at h; cases h
  | some k =>
    rw [hp, Option.getD_some] at h
    subst h
    unfold parseU32 at hp
    dsimp only at hp
    split_ifs at hp with he
    split at hp
    · rename_i v hv
      split_ifs at hp
      cases hp
      have hz := digitsValue_zero _ hv
      obtain ⟨k, hk⟩ : ∃ k, (unsignedDigits w).length = k + 1 := Nat.exists_eq_succ_of_ne_zero (by simpa using he)
      rw [hk] at hz
      refine ⟨k, ?_⟩
      match w, hz with
      | [], hz => cases hz
      | c :: rest, hz =>
        rw [unsignedDigits] at hz
        split_ifs at hz with hc
        · exact .inr (by rw [hc, hz])
        · exact .inl hz
    · cases hp

theorem digitsValue_none : ∀ (ds : List UInt8) (acc : Nat), (∃ c ∈ ds, c.toNat < 48 ∨ 57 < c.toNat) → digitsValue acc ds = none
  | [], _, h => by simp at h
  | c :: ds, acc, h => by
    rw [digitsValue]
    split
    · rename_i d hd
      apply digitsValue_none
      obtain ⟨x, hx, hv⟩ := h
      rcases List.mem_cons.mp hx with rfl | hx
      · rw [digit?, if_neg (by omega)] at hd
        cases hd
      · exact ⟨x, hx, hv⟩
    · rfl

theorem parseIndex_notNumber {w : List UInt8} (h : NotNumber w) : parseIndex w = 1 := by
  rw [parseIndex]
  rcases h with rfl | ⟨c, hc, h1, h2⟩
  · rfl
  · have hm : c ∈ unsignedDigits w := by
      match w, hc with
      | x :: rest, hc =>
        rw [unsignedDigits]
        split_ifs with hx
        · rcases List.mem_cons.mp hc with rfl | hc
          · exact absurd hx h1
          · exact hc
        · exact hc
    rw [parseU32]
    split_ifs
    · rfl
    · rw [digitsValue_none _ _ ⟨c, hm, h2⟩]
      rfl

theorem parseIndex_orOne (w : List UInt8) : parseIndex (orOne w) = parseIndex w := by
  rw [orOne]
  split_ifs with h
  · rw [parseIndex_notNumber h]
    rfl
  · rfl

theorem orOne_ascii {w : List UInt8} (h : AsciiWord w) : AsciiWord (orOne w) := by
  rw [orOne]
  split_ifs
  · unfold AsciiWord; decide
  · exact h

/-! ### Lines of a text -/

theorem stripCr_plain {l : List UInt8} (h : ∀ c ∈ l, c ≠ 13) : stripCr l = l :=
  stripCr_clean fun hl => h 13 (List.mem_of_getLast? hl) rfl

/-- The lines before and after a line. -/
theorem textLines_around {pre : List UInt8} (hpre : pre = [] ∨ ∃ p, pre = p ++ [10]) (post : List UInt8) :
    ∃ ls ls', ∀ line, (∀ c ∈ line, c ≠ 10 ∧ c ≠ 13) → textLines (pre ++ line ++ 10 :: post) = ls ++ line :: ls' := by
  rcases hpre with rfl | ⟨p, rfl⟩
  · refine ⟨[], textLinesAux [] post, fun line h => ?_⟩
    rw [textLines, List.nil_append, textLinesAux_line _ _ _ fun c hc => (h c hc).1, List.nil_append,
      stripCr_plain fun c hc => (h c hc).2]
    rfl
  · obtain ⟨ls, hl⟩ := textLinesAux_prefix p []
    refine ⟨ls, textLinesAux [] post, fun line h => ?_⟩
    rw [textLines, List.append_assoc, List.append_assoc, List.singleton_append, hl, textLinesAux_line _ _ _ fun c hc => (h c hc).1,
      List.nil_append, stripCr_plain fun c hc => (h c hc).2]

theorem hasLine_mem {text line : List UInt8} (h : HasLine text line) : line ∈ textLines text := by
  obtain ⟨hc, pre, post, rfl, hp⟩ := h
  obtain ⟨ls, ls', e⟩ := textLines_around hp post
  rw [e line hc]
  simp

/-- Two lines that mean the same to the reader can be exchanged. -/
theorem readFromObj_exchange (ft : FloatText fo) (face : PushFace fo.F) (b : Build) {pre post line line' : List UInt8}
    (hpre : pre = [] ∨ ∃ p, pre = p ++ [10]) (hc : ∀ c ∈ line, c ≠ 10 ∧ c ≠ 13) (hc' : ∀ c ∈ line', c ≠ 10 ∧ c ≠ 13)
    (h : ∀ oi, parseLine ft face b line oi = parseLine ft face b line' oi) :
    readFromObj ft face b (pre ++ line ++ 10 :: post) = readFromObj ft face b (pre ++ line' ++ 10 :: post) := by
  obtain ⟨ls, ls', e⟩ := textLines_around hpre post
  rw [readFromObj, readFromObj, e line hc, e line' hc']
  apply readObjLoop_congr
  intro oi
  rw [readObjLoop, readObjLoop, h]

/-- Two faces of words with the same values. -/
theorem readFromObj_values (ft : FloatText fo) (face : PushFace fo.F) (b : Build) {pre post : List UInt8}
    (hpre : pre = [] ∨ ∃ p, pre = p ++ [10]) {ws ws' : List (List UInt8)} (hw : ∀ w ∈ ws, AsciiWord w) (hw' : ∀ w ∈ ws', AsciiWord w)
    (h : ∀ oi : Importer fo.F, loadFace face ws oi = loadFace face ws' oi) :
    readFromObj ft face b (pre ++ faceLine ws ++ 10 :: post) = readFromObj ft face b (pre ++ faceLine ws' ++ 10 :: post) :=
  readFromObj_exchange ft face b hpre (fun c hc => (faceLine_chars hw c hc).2) (fun c hc => (faceLine_chars hw' c hc).2)
    fun oi => by rw [parseLine_faceLine ft face b hw, parseLine_faceLine ft face b hw', h]

/-- A line that is always refused makes the file refused. -/
theorem readFromObj_refused (ft : FloatText fo) {face : PushFace fo.F} (hf : ∀ v u n oi, face v u n oi ≠ .panic) (b : Build)
    {text line : List UInt8} (h : HasLine text line) (hl : ∀ oi r, parseLine ft face b line oi ≠ .ok r) :
    ∃ e, readFromObj ft face b text = .err e := by
  cases hr : readFromObj ft face b text with
  | err e => exact ⟨e, rfl⟩
  | panic => exact absurd hr (readObjLoop_total ft hf b _ _).1
  | ok ms =>
    obtain ⟨oi, r, e⟩ := readObjLoop_lines ft face b _ _ ms hr line (hasLine_mem h)
    exact absurd e (hl oi r)

theorem pushFace_ne_panic {F : Type} (v u n : List Nat) (oi : Importer F) : Importer.pushFace v u n oi ≠ .panic := by
  rw [Importer.pushFace, Importer.pushFaceWith]
  split_ifs <;> nofun

theorem pushFace_count {F : Type} {v u n : List Nat} {oi oi' : Importer F} (h : Importer.pushFace v u n oi = .ok oi') : v.length = 3 := by
  rw [Importer.pushFace, Importer.pushFaceWith] at h
  split_ifs at h with h1 h2 h3
  exact h3

end Tmf
