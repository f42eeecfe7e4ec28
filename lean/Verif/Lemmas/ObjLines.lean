import Verif.Lemmas.ObjFile
import Verif.Lemmas.Utf8
import Verif.Spec.ObjLines
/-
Lemmas for C102: lines of .obj files.
-/

namespace Tmf
open Spec

theorem textLines_plainFile {last : List UInt8} (hlast : 10 ∉ last) : ∀ (lines : List PlainLine), (∀ l ∈ lines, l.Clean) →
    textLines (plainFile lines last) = plainLines lines last
  | [], _ => by
    by_cases h : last = []
    · subst h; rfl
    · rw [plainLines, if_neg h]
      exact textLinesAux_last last [] (fun c hc he => hlast (he ▸ hc)) (by simpa using h)
  | l :: lines, h => by
    have hl := h l List.mem_cons_self
    have ih := textLines_plainFile hlast lines (fun x hx => h x (List.mem_cons_of_mem _ hx))
    cases hc : l.cr with
    | false =>
      have e : plainFile (l :: lines) last = l.text ++ 10 :: plainFile lines last := by simp [plainFile, hc]
      rw [textLines, e, textLinesAux_line _ _ _ (fun c hc he => hl.feed (he ▸ hc)), List.nil_append, stripCr_clean (hl.ret hc),
        plainLines, List.map_cons, List.cons_append, ← plainLines, ← ih]
      rfl
    | true =>
      have e : plainFile (l :: lines) last = (l.text ++ [13]) ++ 10 :: plainFile lines last := by simp [plainFile, hc]
      have h13 : ∀ c ∈ l.text ++ [13], c ≠ 10 := by
        intro c hm
        rcases List.mem_append.mp hm with hm | hm
        · exact fun he => hl.feed (he ▸ hm)
        · rw [List.mem_singleton] at hm
          subst hm
          decide
      rw [textLines, e, textLinesAux_line _ _ _ h13, List.nil_append, stripCr_append,
        plainLines, List.map_cons, List.cons_append, ← plainLines, ← ih]
      rfl

/-- Every text is made of clean lines. -/
theorem plainFile_exists : ∀ (text : List UInt8), ∃ lines last, (∀ l ∈ lines, PlainLine.Clean l) ∧ 10 ∉ last ∧ text = plainFile lines last
  | [] => ⟨[], [], by simp, by simp, rfl⟩
  | c :: rest => by
    obtain ⟨lines, last, h1, h2, e⟩ := plainFile_exists rest
    by_cases hc : c = 10
    · subst hc
      refine ⟨⟨[], false⟩ :: lines, last, ?_, h2, by rw [e]; rfl⟩
      intro l hl
      rcases List.mem_cons.mp hl with rfl | hl
      · exact ⟨by simp, by simp⟩
      · exact h1 l hl
    · cases lines with
      | nil =>
        refine ⟨[], c :: last, by simp, ?_, by rw [e]; rfl⟩
        intro hm
        rcases List.mem_cons.mp hm with hm | hm
        · exact hc hm.symm
        · exact h2 hm
      | cons l lines =>
        have hl := h1 l List.mem_cons_self
        have hr : ∀ x ∈ lines, PlainLine.Clean x := fun x hx => h1 x (List.mem_cons_of_mem _ hx)
        have feed : 10 ∉ c :: l.text := by
          intro hm
          rcases List.mem_cons.mp hm with hm | hm
          · exact hc hm.symm
          · exact hl.feed hm
        by_cases h13 : c = 13 ∧ l.text = [] ∧ l.cr = false
        · obtain ⟨rfl, ht, hcr⟩ := h13
          refine ⟨⟨[], true⟩ :: lines, last, ?_, h2, by rw [e]; simp [plainFile, ht, hcr]⟩
          intro x hx
          rcases List.mem_cons.mp hx with rfl | hx
          · exact ⟨by simp, by simp⟩
          · exact hr x hx
        · refine ⟨⟨c :: l.text, l.cr⟩ :: lines, last, ?_, h2, by rw [e]; simp [plainFile]⟩
          intro x hx
          rcases List.mem_cons.mp hx with rfl | hx
          · refine ⟨feed, fun hcr => ?_⟩
            dsimp only at hcr ⊢
            cases ht : l.text with
            | nil =>
              intro hg
              rw [List.getLast?_singleton, Option.some.injEq] at hg
              exact h13 ⟨hg, ht, hcr⟩
            | cons d t =>
              rw [List.getLast?_cons_cons, ← ht]
              exact hl.ret hcr
          · exact hr x hx

variable {fo : FloatOps} (ft : FloatText fo) (b : Build)

theorem parseLine_meaningless (face : PushFace fo.F) {l : List UInt8} (h : firstWord l ∉ keywords) (ht : IsText l) (oi : Importer fo.F) :
    parseLine ft face b l oi = .ok (none, oi) := by
  obtain ⟨ws, hw⟩ := splitBytes_first l
  rw [parseLine, if_pos (validUtf8_of_isText ht), hw]
  simp only [keywords, List.mem_cons, List.not_mem_nil, or_false, not_or] at h
  simp only [nextWord, Outcome.bind_ok, parseWords, if_neg h.1, if_neg h.2.1, if_neg h.2.2.1, if_neg h.2.2.2.1, if_neg h.2.2.2.2]

theorem readObjLoop_meaningless (face : PushFace fo.F) {l : List UInt8} (h : firstWord l ∉ keywords) (ht : IsText l) (ls : List (List UInt8))
    (oi : Importer fo.F) : readObjLoop ft face b (l :: ls) oi = readObjLoop ft face b ls oi := by
  rw [readObjLoop, parseLine_meaningless ft b face h ht, Outcome.bind_ok]
  dsimp only [Option.toList]
  cases readObjLoop ft face b ls oi <;> rfl

/-- What a line that starts no object does: it is refused, or it adds to arrays of its own. -/
inductive Effect (word : List UInt8) : (Importer fo.F → Outcome IoError (Option (Mesh fo.F × List UInt8) × Importer fo.F)) → Prop where
  | refused {f} : (∀ oi, f oi = .err .other) → Effect word f
  | nothing {f} : (∀ oi, f oi = .ok (none, oi)) → Effect word f
  | vertex {f} (x : Vec3 fo.F) : word = ascii "v" → (∀ oi, f oi = .ok (none, { oi with vertices := oi.vertices ++ [x] })) → Effect word f
  | normal {f} (x : Vec3 fo.F) : word = ascii "vn" → (∀ oi, f oi = .ok (none, { oi with normals := oi.normals ++ [x] })) → Effect word f
  | uv {f} (x : Vec2 fo.F) : word = ascii "vt" → (∀ oi, f oi = .ok (none, { oi with uvs := oi.uvs ++ [x] })) → Effect word f
  | face {f} (v u n : List Nat) : word = ascii "f" → (∀ oi, f oi = .ok (none, oi.pushIndices v u n)) → Effect word f

theorem loadVec3_cases (ws : List (List UInt8)) : (∃ x, loadVec3 ft ws = .ok x) ∨ loadVec3 ft ws = .err .other := by
  match ws with
  | [] => exact .inr rfl
  | [_] => exact .inr rfl
  | [_, _] => exact .inr rfl
  | a :: c :: d :: ws =>
    simp only [loadVec3, nextWord, bind, Outcome.bind, parseFloat]
    cases ft.parse a <;> cases ft.parse c <;> cases ft.parse d <;> simp

theorem loadVec2_cases (ws : List (List UInt8)) : (∃ x, loadVec2 ft ws = .ok x) ∨ loadVec2 ft ws = .err .other := by
  match ws with
  | [] => exact .inr rfl
  | [_] => exact .inr rfl
  | a :: c :: ws =>
    simp only [loadVec2, nextWord, bind, Outcome.bind, parseFloat]
    cases ft.parse a <;> cases ft.parse c <;> simp

theorem loadFace_cases (ws : List (List UInt8)) :
    (∃ v u n, ∀ oi : Importer fo.F, loadFace Importer.pushFace ws oi = .ok (oi.pushIndices v u n)) ∨
      ∀ oi : Importer fo.F, loadFace Importer.pushFace ws oi = .err .other := by
  obtain ⟨⟨v, u, n⟩, hr, _⟩ := loadFaceLoop_length (ws.length + 1) ws [] [] [] (by omega)
  simp only [loadFace, hr, Outcome.bind_ok, Importer.pushFace, Importer.pushFaceWith]
  split_ifs
  · exact .inr fun _ => rfl
  · exact .inl ⟨v, u, n, fun _ => rfl⟩
  · exact .inr fun _ => rfl
  · exact .inr fun _ => rfl

theorem parseLine_effect {l : List UInt8} (h : firstWord l ≠ ascii "o") :
    Effect (fo := fo) (firstWord l) (parseLine ft Importer.pushFace b l) := by
  by_cases hv : validUtf8 l = true
  · obtain ⟨ws, hw⟩ := splitBytes_first l
    have e : ∀ oi, parseLine ft Importer.pushFace b l oi = parseWords ft Importer.pushFace b (firstWord l) ws oi := by
      intro oi
      rw [parseLine, if_pos hv, hw]
      rfl
    generalize firstWord l = w at h e
    by_cases h1 : w = ascii "v"
    · rcases loadVec3_cases ft ws with ⟨x, hx⟩ | hx
      · exact .vertex x h1 fun oi => by rw [e, parseWords, if_pos h1, hx]; rfl
      · exact .refused fun oi => by rw [e, parseWords, if_pos h1, hx]; rfl
    by_cases h2 : w = ascii "vn"
    · rcases loadVec3_cases ft ws with ⟨x, hx⟩ | hx
      · exact .normal x h2 fun oi => by rw [e, parseWords, if_neg h1, if_pos h2, hx]; rfl
      · exact .refused fun oi => by rw [e, parseWords, if_neg h1, if_pos h2, hx]; rfl
    by_cases h3 : w = ascii "vt"
    · rcases loadVec2_cases ft ws with ⟨x, hx⟩ | hx
      · exact .uv x h3 fun oi => by rw [e, parseWords, if_neg h1, if_neg h2, if_pos h3, hx]; rfl
      · exact .refused fun oi => by rw [e, parseWords, if_neg h1, if_neg h2, if_pos h3, hx]; rfl
    by_cases h4 : w = ascii "f"
    · rcases loadFace_cases (fo := fo) ws with ⟨v, u, n, hx⟩ | hx
      · exact .face v u n h4 fun oi => by rw [e, parseWords, if_neg h1, if_neg h2, if_neg h3, if_pos h4, hx]; rfl
      · exact .refused fun oi => by rw [e, parseWords, if_neg h1, if_neg h2, if_neg h3, if_pos h4, hx]; rfl
    · exact .nothing fun oi => by rw [e, parseWords, if_neg h1, if_neg h2, if_neg h3, if_neg h4, if_neg h]
  · exact .refused fun oi => by rw [parseLine, if_neg hv]

theorem Effect.cases {w : List UInt8} {f : Importer fo.F → Outcome IoError (Option (Mesh fo.F × List UInt8) × Importer fo.F)}
    (hf : Effect w f) : (∀ oi, f oi = .err .other) ∨ (∀ oi, ∃ oi', f oi = .ok (none, oi')) ∧
      ((∀ oi, f oi = .ok (none, oi)) ∨
       (∃ x, w = ascii "v" ∧ ∀ oi, f oi = .ok (none, { oi with vertices := oi.vertices ++ [x] })) ∨
       (∃ x, w = ascii "vn" ∧ ∀ oi, f oi = .ok (none, { oi with normals := oi.normals ++ [x] })) ∨
       (∃ x, w = ascii "vt" ∧ ∀ oi, f oi = .ok (none, { oi with uvs := oi.uvs ++ [x] })) ∨
       ∃ v u n, w = ascii "f" ∧ ∀ oi, f oi = .ok (none, oi.pushIndices v u n)) := by
  cases hf with
  | refused h => exact .inl h
  | nothing h => exact .inr ⟨fun oi => ⟨_, h oi⟩, .inl h⟩
  | vertex x hw h => exact .inr ⟨fun oi => ⟨_, h oi⟩, .inr (.inl ⟨x, hw, h⟩)⟩
  | normal x hw h => exact .inr ⟨fun oi => ⟨_, h oi⟩, .inr (.inr (.inl ⟨x, hw, h⟩))⟩
  | uv x hw h => exact .inr ⟨fun oi => ⟨_, h oi⟩, .inr (.inr (.inr (.inl ⟨x, hw, h⟩)))⟩
  | face v u n hw h => exact .inr ⟨fun oi => ⟨_, h oi⟩, .inr (.inr (.inr (.inr ⟨v, u, n, hw, h⟩)))⟩

theorem effect_comm {w w' : List UInt8} {f g : Importer fo.F → Outcome IoError (Option (Mesh fo.F × List UInt8) × Importer fo.F)}
    (hf : Effect w f) (hg : Effect w' g) (hw : w ≠ w') (oi : Importer fo.F) :
    (∃ oi1 oi2 oi', f oi = .ok (none, oi1) ∧ g oi1 = .ok (none, oi') ∧ g oi = .ok (none, oi2) ∧ f oi2 = .ok (none, oi')) ∨
      ((f oi = .err .other ∨ ∃ oi1, f oi = .ok (none, oi1) ∧ g oi1 = .err .other) ∧
        (g oi = .err .other ∨ ∃ oi2, g oi = .ok (none, oi2) ∧ f oi2 = .err .other)) := by
  rcases hf.cases with h | ⟨h, ha⟩
  · refine .inr ⟨.inl (h oi), ?_⟩
    rcases hg.cases with h2 | ⟨h2, _⟩
    · exact .inl (h2 oi)
    · obtain ⟨oi2, e⟩ := h2 oi
      exact .inr ⟨oi2, e, h oi2⟩
  · rcases hg.cases with h2 | ⟨h2, hb⟩
    · obtain ⟨oi1, e⟩ := h oi
      exact .inr ⟨.inr ⟨oi1, e, h2 oi1⟩, .inl (h2 oi)⟩
    · left
      rcases ha with ha | ⟨x, hw1, ha⟩ | ⟨x, hw1, ha⟩ | ⟨x, hw1, ha⟩ | ⟨v, u, n, hw1, ha⟩ <;>
        rcases hb with hb | ⟨y, hw2, hb⟩ | ⟨y, hw2, hb⟩ | ⟨y, hw2, hb⟩ | ⟨v', u', n', hw2, hb⟩ <;>
        first
          | exact ⟨_, _, _, ha _, hb _, hb _, ha _⟩
          | exact absurd (hw1.trans hw2.symm) hw

theorem readObjLoop_swap {l l' : List UInt8} (hw : firstWord l ≠ firstWord l') (h : firstWord l ≠ ascii "o")
    (h' : firstWord l' ≠ ascii "o") (ls : List (List UInt8)) (oi : Importer fo.F) :
    readObjLoop ft Importer.pushFace b (l :: l' :: ls) oi = readObjLoop ft Importer.pushFace b (l' :: l :: ls) oi := by
  rw [readObjLoop, readObjLoop]
  rcases effect_comm (parseLine_effect ft b h) (parseLine_effect ft b h') hw oi with
    ⟨oi1, oi2, oi', e1, e2, e3, e4⟩ | ⟨e1, e2⟩
  · simp only [readObjLoop, e1, e2, e3, e4, Outcome.bind_ok]
  · have aux : ∀ {k k' : List UInt8}, (parseLine ft Importer.pushFace b k oi = .err .other ∨ ∃ oi1,
        parseLine ft Importer.pushFace b k oi = .ok (none, oi1) ∧ parseLine ft Importer.pushFace b k' oi1 = .err .other) →
        (do let (m, oi) ← parseLine ft Importer.pushFace b k oi
            let ms ← readObjLoop ft Importer.pushFace b (k' :: ls) oi
            Outcome.ok (m.toList ++ ms)) = .err .other := by
      rintro k k' (e | ⟨oi1, e, e'⟩)
      · rw [e]; rfl
      · rw [e, Outcome.bind_ok]
        dsimp only
        rw [readObjLoop, e']
        rfl
    rw [aux e1, aux e2]

theorem readObjLoop_same {ls ls' : List (List UInt8)} (h : SaysSame ls ls') : ∀ (oi : Importer fo.F),
    readObjLoop ft Importer.pushFace b ls oi = readObjLoop ft Importer.pushFace b ls' oi := by
  induction h with
  | refl => exact fun _ => rfl
  | trans _ _ i1 i2 => exact fun oi => (i1 oi).trans (i2 oi)
  | cons l _ ih =>
    intro oi
    rw [readObjLoop, readObjLoop]
    congr 1
    funext x
    dsimp only
    rw [ih]
  | remove ls h1 h2 => exact readObjLoop_meaningless ft b _ h1 h2 ls
  | insert ls h1 h2 => exact fun oi => (readObjLoop_meaningless ft b _ h1 h2 ls oi).symm
  | swap ls h1 h2 h3 => exact readObjLoop_swap ft b h1 h2 h3 ls

theorem readObjLoop_sameInOrder (face : PushFace fo.F) {ls ls' : List (List UInt8)} (h : SaysSameInOrder ls ls') : ∀ (oi : Importer fo.F),
    readObjLoop ft face b ls oi = readObjLoop ft face b ls' oi := by
  induction h with
  | refl => exact fun _ => rfl
  | trans _ _ i1 i2 => exact fun oi => (i1 oi).trans (i2 oi)
  | cons l _ ih =>
    intro oi
    rw [readObjLoop, readObjLoop]
    congr 1
    funext x
    dsimp only
    rw [ih]
  | remove ls h1 h2 => exact readObjLoop_meaningless ft b face h1 h2 ls
  | insert ls h1 h2 => exact fun oi => (readObjLoop_meaningless ft b face h1 h2 ls oi).symm

end Tmf
