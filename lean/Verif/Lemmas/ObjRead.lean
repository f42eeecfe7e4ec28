import Verif.Lemmas.Obj
import Verif.Lemmas.Utf8
import Verif.Lemmas.MeshApi
/-
Lemmas on reading .obj text back.
-/

namespace Tmf
open Spec

variable {fo : FloatOps}

/-! ### Numbers -/

theorem digit?_ofNat {d : Nat} (h : d < 10) : digit? (UInt8.ofNat (48 + d)) = some d := by
  have e : (UInt8.ofNat (48 + d)).toNat = 48 + d := toNat_ofNat_lt (by omega)
  rw [digit?, e, if_pos (by omega)]
  congr 1
  omega

theorem digitsValue_append : ∀ (l : List UInt8) (acc n d : Nat) (c : UInt8), digitsValue acc l = some n →
    digit? c = some d → digitsValue acc (l ++ [c]) = some (10 * n + d)
  | [], acc, n, d, c, h, hc => by
    cases h
    simp [digitsValue, hc]
  | x :: l, acc, n, d, c, h, hc => by
    simp only [List.cons_append, digitsValue] at h ⊢
    cases hx : digit? x with
    | none => rw [hx] at h; cases h
    | some y =>
      rw [hx] at h
      exact digitsValue_append l _ n d c h hc

theorem digitsValue_decimal : ∀ (fuel n : Nat), n < fuel → digitsValue 0 (decimalAux fuel n) = some n
  | 0, _, h => by omega
  | fuel + 1, n, h => by
    rw [decimalAux]
    split_ifs with h10
    · rw [digitsValue, digit?_ofNat h10]
      simp [digitsValue]
    · rw [digitsValue_append _ 0 (n / 10) (n % 10) _ (digitsValue_decimal fuel (n / 10) (by omega))
        (digit?_ofNat (by omega))]
      congr 1
      omega

theorem decimalAux_digits : ∀ (fuel n : Nat), ∀ c ∈ decimalAux fuel n, 48 ≤ c.toNat ∧ c.toNat ≤ 57
  | 0, _, c, h => by simp [decimalAux] at h
  | fuel + 1, n, c, h => by
    rw [decimalAux] at h
    split_ifs at h with h10
    · rw [List.mem_singleton] at h
      subst h
      rw [toNat_ofNat_lt (by omega)]
      omega
    · rcases List.mem_append.mp h with h | h
      · exact decimalAux_digits fuel _ c h
      · rw [List.mem_singleton] at h
        subst h
        rw [toNat_ofNat_lt (by omega)]
        omega

theorem decimal_ne_nil (n : Nat) : decimal n ≠ [] := by
  rw [decimal, decimalAux]
  split_ifs <;> simp

theorem parseU32_decimal {n : Nat} (h : n < 2 ^ 32) : parseU32 (decimal n) = some n := by
  have hd : unsignedDigits (decimal n) = decimal n := by
    cases hl : decimal n with
    | nil => rfl
    | cons c l =>
      have := decimalAux_digits (n + 1) n c (by rw [← decimal, hl]; simp)
      rw [unsignedDigits, if_neg]
      rintro rfl
      simp at this
  rw [parseU32.eq_def]
  simp only [hd]
  rw [if_neg (decimal_ne_nil n), decimal, digitsValue_decimal (n + 1) n (by omega)]
  simp only [if_pos h]

theorem parseIndex_decimal {n : Nat} (h : n < 2 ^ 32) : parseIndex (decimal n) = n := by
  rw [parseIndex, parseU32_decimal h]; rfl

/-! ### Words and lines -/

/-- A word: ASCII without separators and line ends. -/
def CleanWord (w : List UInt8) : Prop := ∀ c ∈ w, c.toNat < 128 ∧ c ≠ 32 ∧ c ≠ 47 ∧ c ≠ 10 ∧ c ≠ 13

theorem decimal_clean (n : Nat) : CleanWord (decimal n) := by
  intro c hc
  obtain ⟨h1, h2⟩ := decimalAux_digits _ _ c hc
  refine ⟨by omega, ?_, ?_, ?_, ?_⟩ <;> · rintro rfl; simp at h1 h2

theorem splitBytes_clean {w : List UInt8} (h : ∀ c ∈ w, c ≠ 32 ∧ c ≠ 47) : splitBytes isObjSep w = [w] := by
  induction w with
  | nil => rfl
  | cons c w ih =>
    rw [splitBytes, ih (fun x hx => h x (List.mem_cons_of_mem _ hx))]
    have := h c List.mem_cons_self
    rw [if_neg (by simp [isObjSep, this.1, this.2])]

theorem splitBytes_sep {w rest : List UInt8} {s : UInt8} (h : ∀ c ∈ w, c ≠ 32 ∧ c ≠ 47) (hs : s = 32 ∨ s = 47) :
    splitBytes isObjSep (w ++ s :: rest) = w :: splitBytes isObjSep rest := by
  induction w with
  | nil =>
    rw [List.nil_append, splitBytes, if_pos]
    rcases hs with rfl | rfl <;> rfl
  | cons c w ih =>
    rw [List.cons_append, splitBytes, ih (fun x hx => h x (List.mem_cons_of_mem _ hx))]
    have := h c List.mem_cons_self
    rw [if_neg (by simp [isObjSep, this.1, this.2])]

theorem CleanWord.seps {w : List UInt8} (h : CleanWord w) : ∀ c ∈ w, c ≠ 32 ∧ c ≠ 47 :=
  fun c hc => ⟨(h c hc).2.1, (h c hc).2.2.1⟩

theorem textLinesAux_line : ∀ (l cur rest : List UInt8), (∀ c ∈ l, c ≠ 10) →
    textLinesAux cur (l ++ 10 :: rest) = stripCr (cur ++ l) :: textLinesAux [] rest
  | [], cur, rest, _ => by simp [textLinesAux]
  | c :: l, cur, rest, h => by
    rw [List.cons_append, textLinesAux, if_neg (h c List.mem_cons_self),
      textLinesAux_line l _ rest (fun x hx => h x (List.mem_cons_of_mem _ hx))]
    simp

/-- A line that reading gives back. -/
def CleanLine (l : List UInt8) : Prop := (∀ c ∈ l, c ≠ 10) ∧ l.getLast? ≠ some 13 ∧ validUtf8 l = true

theorem textLines_objText (ft : FloatText fo) : ∀ (lines : List (ObjLine fo.F)), (∀ l ∈ lines, CleanLine (l.render ft)) →
    textLines (objText ft lines) = lines.map (ObjLine.render ft)
  | [], _ => rfl
  | l :: lines, h => by
    have hl := h l List.mem_cons_self
    have ih := textLines_objText ft lines (fun x hx => h x (List.mem_cons_of_mem _ hx))
    have e : objText ft (l :: lines) = l.render ft ++ 10 :: objText ft lines := by simp [objText]
    rw [textLines, e, textLinesAux_line _ _ _ hl.1, List.nil_append, stripCr, if_neg hl.2.1, List.map_cons, ← ih]
    rfl

theorem validUtf8_ascii_append {w rest : List UInt8} (h : ∀ c ∈ w, c.toNat < 128) : validUtf8 (w ++ rest) = validUtf8 rest := by
  induction w with
  | nil => rfl
  | cons c w ih =>
    rw [List.cons_append, validUtf8.eq_def]
    simp only
    rw [if_pos (h c List.mem_cons_self)]
    exact ih (fun x hx => h x (List.mem_cons_of_mem _ hx))

theorem validUtf8_ascii {w : List UInt8} (h : ∀ c ∈ w, c.toNat < 128) : validUtf8 w = true := by
  have := validUtf8_ascii_append (rest := []) h
  rwa [List.append_nil] at this

/-- A line of plain characters. -/
theorem cleanLine_of_chars {l : List UInt8} (h : ∀ c ∈ l, c.toNat < 128 ∧ c ≠ 10 ∧ c ≠ 13) : CleanLine l := by
  refine ⟨fun c hc => (h c hc).2.1, ?_, validUtf8_ascii fun c hc => (h c hc).1⟩
  intro hl
  exact (h 13 (List.mem_of_getLast? hl)).2.2 rfl

/-! ### Single lines -/

theorem parseFloat_print {ft : FloatText fo} (hl : FloatTextLaws ft) {x : fo.F} (h : fo.isNaN x = false) :
    parseFloat ft (ft.print x) = .ok x := by
  rw [parseFloat, hl.parse_print x h]

theorem print_clean {ft : FloatText fo} (hl : FloatTextLaws ft) (x : fo.F) : CleanWord (ft.print x) := hl.clean x

theorem split3 {k a b c : List UInt8} (hk : CleanWord k) (ha : CleanWord a) (hb : CleanWord b) (hc : CleanWord c) :
    splitBytes isObjSep (k ++ 32 :: (a ++ 32 :: (b ++ 32 :: c))) = [k, a, b, c] := by
  rw [splitBytes_sep hk.seps (.inl rfl), splitBytes_sep ha.seps (.inl rfl), splitBytes_sep hb.seps (.inl rfl),
    splitBytes_clean hc.seps]

theorem split2 {k a b : List UInt8} (hk : CleanWord k) (ha : CleanWord a) (hb : CleanWord b) :
    splitBytes isObjSep (k ++ 32 :: (a ++ 32 :: b)) = [k, a, b] := by
  rw [splitBytes_sep hk.seps (.inl rfl), splitBytes_sep ha.seps (.inl rfl), splitBytes_clean hb.seps]

theorem cleanWord_v : CleanWord (ascii "v") := by unfold CleanWord; decide
theorem cleanWord_vn : CleanWord (ascii "vn") := by unfold CleanWord; decide
theorem cleanWord_vt : CleanWord (ascii "vt") := by unfold CleanWord; decide
theorem cleanWord_f : CleanWord (ascii "f") := by unfold CleanWord; decide
theorem cleanWord_o : CleanWord (ascii "o") := by unfold CleanWord; decide
theorem cleanWord_s : CleanWord (ascii "s") := by unfold CleanWord; decide

theorem CleanWord.line {w : List UInt8} (h : CleanWord w) : ∀ c ∈ w, c.toNat < 128 ∧ c ≠ 10 ∧ c ≠ 13 :=
  fun c hc => ⟨(h c hc).1, (h c hc).2.2.2.1, (h c hc).2.2.2.2⟩

theorem line_sep {w rest : List UInt8} {s : UInt8} (h : CleanWord w) (hs : s = 32 ∨ s = 47)
    (hr : ∀ c ∈ rest, c.toNat < 128 ∧ c ≠ 10 ∧ c ≠ 13) :
    ∀ c ∈ w ++ s :: rest, c.toNat < 128 ∧ c ≠ 10 ∧ c ≠ 13 := by
  intro c hc
  rcases List.mem_append.mp hc with hc | hc
  · exact h.line c hc
  · rcases List.mem_cons.mp hc with rfl | hc
    · rcases hs with rfl | rfl <;> decide
    · exact hr c hc

theorem render_vertex (ft : FloatText fo) (x : Vec3 fo.F) : ObjLine.render ft (.vertex x) =
    ascii "v" ++ 32 :: (ft.print x.1 ++ 32 :: (ft.print x.2.1 ++ 32 :: ft.print x.2.2)) := by
  simp [ObjLine.render, ascii]
theorem render_normal (ft : FloatText fo) (x : Vec3 fo.F) : ObjLine.render ft (.normal x) =
    ascii "vn" ++ 32 :: (ft.print x.1 ++ 32 :: (ft.print x.2.1 ++ 32 :: ft.print x.2.2)) := by
  simp [ObjLine.render, ascii]
theorem render_uv (ft : FloatText fo) (x : Vec2 fo.F) : ObjLine.render ft (.uv x) =
    ascii "vt" ++ 32 :: (ft.print x.1 ++ 32 :: ft.print x.2) := by
  simp [ObjLine.render, ascii]
theorem render_object (ft : FloatText fo) (name : List UInt8) : ObjLine.render ft (.object name) =
    ascii "o" ++ 32 :: name := by
  simp [ObjLine.render, ascii]

/-- A corner with all three numbers. -/
theorem render_corner (a b c : Nat) : (ObjCorner.mk a (some b) (some c)).render =
    decimal a ++ 47 :: (decimal b ++ 47 :: decimal c) := by
  simp [ObjCorner.render]

section
variable {ft : FloatText fo} (hl : FloatTextLaws ft)
include hl

theorem vertex_chars (x : Vec3 fo.F) : ∀ c ∈ ObjLine.render ft (.vertex x), c.toNat < 128 ∧ c ≠ 10 ∧ c ≠ 13 := by
  rw [render_vertex]
  exact line_sep cleanWord_v (.inl rfl) (line_sep (hl.clean _) (.inl rfl) (line_sep (hl.clean _) (.inl rfl)
    (CleanWord.line (hl.clean _))))
theorem normal_chars (x : Vec3 fo.F) : ∀ c ∈ ObjLine.render ft (.normal x), c.toNat < 128 ∧ c ≠ 10 ∧ c ≠ 13 := by
  rw [render_normal]
  exact line_sep cleanWord_vn (.inl rfl) (line_sep (hl.clean _) (.inl rfl) (line_sep (hl.clean _) (.inl rfl)
    (CleanWord.line (hl.clean _))))
theorem uv_chars (x : Vec2 fo.F) : ∀ c ∈ ObjLine.render ft (.uv x), c.toNat < 128 ∧ c ≠ 10 ∧ c ≠ 13 := by
  rw [render_uv]
  exact line_sep cleanWord_vt (.inl rfl) (line_sep (hl.clean _) (.inl rfl) (CleanWord.line (hl.clean _)))

theorem parseLine_vertex (face : PushFace fo.F) (b : Build) (x : Vec3 fo.F) (oi : Importer fo.F)
    (hx : fo.isNaN x.1 = false ∧ fo.isNaN x.2.1 = false ∧ fo.isNaN x.2.2 = false) :
    parseLine ft face b (ObjLine.render ft (.vertex x)) oi = .ok (none, { oi with vertices := oi.vertices ++ [x] }) := by
  rw [parseLine, if_pos (cleanLine_of_chars (vertex_chars hl x)).2.2, render_vertex,
    split3 cleanWord_v (hl.clean _) (hl.clean _) (hl.clean _)]
  simp [nextWord, bind, Outcome.bind, parseWords, loadVec3, parseFloat_print hl hx.1, parseFloat_print hl hx.2.1,
    parseFloat_print hl hx.2.2]

theorem parseLine_normal (face : PushFace fo.F) (b : Build) (x : Vec3 fo.F) (oi : Importer fo.F)
    (hx : fo.isNaN x.1 = false ∧ fo.isNaN x.2.1 = false ∧ fo.isNaN x.2.2 = false) :
    parseLine ft face b (ObjLine.render ft (.normal x)) oi = .ok (none, { oi with normals := oi.normals ++ [x] }) := by
  rw [parseLine, if_pos (cleanLine_of_chars (normal_chars hl x)).2.2, render_normal,
    split3 cleanWord_vn (hl.clean _) (hl.clean _) (hl.clean _)]
  have e : ascii "vn" ≠ ascii "v" := by decide
  simp [nextWord, bind, Outcome.bind, parseWords, loadVec3, parseFloat_print hl hx.1, parseFloat_print hl hx.2.1,
    parseFloat_print hl hx.2.2, e]

theorem parseLine_uv (face : PushFace fo.F) (b : Build) (x : Vec2 fo.F) (oi : Importer fo.F)
    (hx : fo.isNaN x.1 = false ∧ fo.isNaN x.2 = false) :
    parseLine ft face b (ObjLine.render ft (.uv x)) oi = .ok (none, { oi with uvs := oi.uvs ++ [x] }) := by
  rw [parseLine, if_pos (cleanLine_of_chars (uv_chars hl x)).2.2, render_uv,
    split2 cleanWord_vt (hl.clean _) (hl.clean _)]
  have e1 : ascii "vt" ≠ ascii "v" := by decide
  have e2 : ascii "vt" ≠ ascii "vn" := by decide
  simp [nextWord, bind, Outcome.bind, parseWords, loadVec2, parseFloat_print hl hx.1, parseFloat_print hl hx.2, e1, e2]

end

theorem parseLine_smooth (ft : FloatText fo) (face : PushFace fo.F) (b : Build) (oi : Importer fo.F) :
    parseLine ft face b (ObjLine.render ft .smooth) oi = .ok (none, oi) := by
  have e : splitBytes isObjSep (ascii "s 1") = [ascii "s", ascii "1"] := by decide
  have e0 : validUtf8 (ascii "s 1") = true := by decide +kernel
  have e1 : ascii "s" ≠ ascii "v" := by decide
  have e2 : ascii "s" ≠ ascii "vn" := by decide
  have e3 : ascii "s" ≠ ascii "vt" := by decide
  have e4 : ascii "s" ≠ ascii "f" := by decide
  have e5 : ascii "s" ≠ ascii "o" := by decide
  rw [parseLine, ObjLine.render, if_pos e0, e]
  simp [nextWord, bind, Outcome.bind, parseWords, e1, e2, e3, e4, e5]

theorem object_valid (ft : FloatText fo) {name : List UInt8} (h : ObjName name) :
    CleanLine (ObjLine.render ft (.object name)) := by
  obtain ⟨h1, h2, h3⟩ := h
  rw [render_object]
  refine ⟨?_, ?_, ?_⟩
  · intro c hc
    rcases List.mem_append.mp hc with hc | hc
    · exact (cleanWord_o c hc).2.2.2.1
    · rcases List.mem_cons.mp hc with rfl | hc
      · decide
      · exact (h2 c hc).2.2
  · rw [List.getLast?_append]
    cases name with
    | nil => decide
    | cons a l =>
      intro hc
      rw [List.getLast?_cons_cons] at hc
      simp only [List.getLast?_cons] at h3 hc
      simp at h3 hc
      exact h3 hc
  · rw [show ascii "o" ++ 32 :: name = (ascii "o" ++ [32]) ++ name by simp, validUtf8_ascii_append (by decide)]
    exact validUtf8_of_isText h1

theorem parseLine_object (ft : FloatText fo) (face : PushFace fo.F) (b : Build) {name : List UInt8} (h : ObjName name)
    (oi : Importer fo.F) :
    parseLine ft face b (ObjLine.render ft (.object name)) oi = (oi.nextMesh b name).widen := by
  have e1 : ascii "o" ≠ ascii "v" := by decide
  have e2 : ascii "o" ≠ ascii "vn" := by decide
  have e3 : ascii "o" ≠ ascii "vt" := by decide
  have e4 : ascii "o" ≠ ascii "f" := by decide
  rw [parseLine, if_pos (object_valid ft h).2.2, render_object, splitBytes_sep cleanWord_o.seps (.inl rfl),
    splitBytes_clean (fun c hc => ⟨(h.2.1 c hc).1, (h.2.1 c hc).2.1⟩)]
  simp [nextWord, bind, Outcome.bind, parseWords, e1, e2, e3, e4]

theorem render_face (ft : FloatText fo) (a b c : Nat × Nat × Nat) :
    ObjLine.render ft (.face ⟨a.1, some a.2.1, some a.2.2⟩ ⟨b.1, some b.2.1, some b.2.2⟩ ⟨c.1, some c.2.1, some c.2.2⟩) =
    ascii "f" ++ 32 :: (decimal a.1 ++ 47 :: (decimal a.2.1 ++ 47 :: (decimal a.2.2 ++ 32 ::
      (decimal b.1 ++ 47 :: (decimal b.2.1 ++ 47 :: (decimal b.2.2 ++ 32 ::
      (decimal c.1 ++ 47 :: (decimal c.2.1 ++ 47 :: decimal c.2.2))))))))  := by
  simp [ObjLine.render, ascii, render_corner]

theorem face_chars (ft : FloatText fo) (a b c : Nat × Nat × Nat) :
    ∀ x ∈ ObjLine.render ft (.face ⟨a.1, some a.2.1, some a.2.2⟩ ⟨b.1, some b.2.1, some b.2.2⟩ ⟨c.1, some c.2.1, some c.2.2⟩),
      x.toNat < 128 ∧ x ≠ 10 ∧ x ≠ 13 := by
  rw [render_face]
  exact line_sep cleanWord_f (.inl rfl) <| line_sep (decimal_clean _) (.inr rfl) <| line_sep (decimal_clean _) (.inr rfl) <|
    line_sep (decimal_clean _) (.inl rfl) <| line_sep (decimal_clean _) (.inr rfl) <| line_sep (decimal_clean _) (.inr rfl) <|
    line_sep (decimal_clean _) (.inl rfl) <| line_sep (decimal_clean _) (.inr rfl) <| line_sep (decimal_clean _) (.inr rfl) <|
    (decimal_clean _).line

theorem loadIndices_cons {a b c : Nat} (ha : a + 1 < 2 ^ 32) (hb : b + 1 < 2 ^ 32) (hc : c + 1 < 2 ^ 32) (ws : List (List UInt8)) :
    loadIndices (decimal (a + 1) :: decimal (b + 1) :: decimal (c + 1) :: ws) = .ok ((a, b, c), ws) := by
  simp only [loadIndices, nextWord, bind, Outcome.bind]
  rw [parseIndex_decimal ha, parseIndex_decimal hb, parseIndex_decimal hc, if_neg (by omega)]
  rfl

theorem parseLine_face (ft : FloatText fo) (face : PushFace fo.F) (bu : Build) (a b c : Nat × Nat × Nat) (oi : Importer fo.F)
    (ha : a.1 + 1 < 2 ^ 32 ∧ a.2.1 + 1 < 2 ^ 32 ∧ a.2.2 + 1 < 2 ^ 32)
    (hb : b.1 + 1 < 2 ^ 32 ∧ b.2.1 + 1 < 2 ^ 32 ∧ b.2.2 + 1 < 2 ^ 32)
    (hc : c.1 + 1 < 2 ^ 32 ∧ c.2.1 + 1 < 2 ^ 32 ∧ c.2.2 + 1 < 2 ^ 32) :
    parseLine ft face bu (ObjLine.render ft (.face ⟨a.1 + 1, some (a.2.1 + 1), some (a.2.2 + 1)⟩
      ⟨b.1 + 1, some (b.2.1 + 1), some (b.2.2 + 1)⟩ ⟨c.1 + 1, some (c.2.1 + 1), some (c.2.2 + 1)⟩)) oi =
      (do
        let oi ← face [a.1, b.1, c.1] [a.2.1, b.2.1, c.2.1] [a.2.2, b.2.2, c.2.2] oi
        Outcome.ok (none, oi)) := by
  have e1 : ascii "f" ≠ ascii "v" := by decide
  have e2 : ascii "f" ≠ ascii "vn" := by decide
  have e3 : ascii "f" ≠ ascii "vt" := by decide
  have hcl := (cleanLine_of_chars (face_chars ft (a.1 + 1, a.2.1 + 1, a.2.2 + 1) (b.1 + 1, b.2.1 + 1, b.2.2 + 1)
    (c.1 + 1, c.2.1 + 1, c.2.2 + 1))).2.2
  have hr := render_face ft (a.1 + 1, a.2.1 + 1, a.2.2 + 1) (b.1 + 1, b.2.1 + 1, b.2.2 + 1)
    (c.1 + 1, c.2.1 + 1, c.2.2 + 1)
  dsimp only at hcl hr
  rw [parseLine, if_pos hcl, hr]
  rw [splitBytes_sep cleanWord_f.seps (.inl rfl)]
  rw [splitBytes_sep (decimal_clean _).seps (.inr rfl), splitBytes_sep (decimal_clean _).seps (.inr rfl),
    splitBytes_sep (decimal_clean _).seps (.inl rfl),
    splitBytes_sep (decimal_clean _).seps (.inr rfl), splitBytes_sep (decimal_clean _).seps (.inr rfl),
    splitBytes_sep (decimal_clean _).seps (.inl rfl),
    splitBytes_sep (decimal_clean _).seps (.inr rfl), splitBytes_sep (decimal_clean _).seps (.inr rfl),
    splitBytes_clean (decimal_clean _).seps]
  simp only [nextWord, bind, Outcome.bind, parseWords, if_neg e1, if_neg e2, if_neg e3, if_true, loadFace,
    List.length_cons, List.length_nil, loadFaceLoop]
  rw [loadIndices_cons ha.1 ha.2.1 ha.2.2]
  simp only
  rw [loadIndices_cons hb.1 hb.2.1 hb.2.2]
  simp only
  rw [loadIndices_cons hc.1 hc.2.1 hc.2.2]
  rfl

/-! ### Lists of lines -/

theorem readObjLoop_none {ft : FloatText fo} {face : PushFace fo.F} {b : Build} {line : List UInt8} {rest : List (List UInt8)}
    {oi oi' : Importer fo.F} (h : parseLine ft face b line oi = .ok (none, oi')) :
    readObjLoop ft face b (line :: rest) oi = readObjLoop ft face b rest oi' := by
  rw [readObjLoop, h]
  simp only [bind, Outcome.bind, Option.toList, List.nil_append]
  cases readObjLoop ft face b rest oi' <;> rfl

section
variable {ft : FloatText fo} (hl : FloatTextLaws ft) (face : PushFace fo.F) (b : Build)
include hl

theorem readObjLoop_vertices (rest : List (List UInt8)) : ∀ (l : List (Vec3 fo.F)) (oi : Importer fo.F),
    (∀ x ∈ l, fo.isNaN x.1 = false ∧ fo.isNaN x.2.1 = false ∧ fo.isNaN x.2.2 = false) →
    readObjLoop ft face b ((l.map ObjLine.vertex).map (ObjLine.render ft) ++ rest) oi =
      readObjLoop ft face b rest { oi with vertices := oi.vertices ++ l }
  | [], oi, _ => by simp
  | x :: l, oi, h => by
    rw [List.map_cons, List.map_cons, List.cons_append,
      readObjLoop_none (parseLine_vertex hl face b x oi (h x List.mem_cons_self)),
      readObjLoop_vertices rest l _ (fun y hy => h y (List.mem_cons_of_mem _ hy))]
    simp

theorem readObjLoop_normals (rest : List (List UInt8)) : ∀ (l : List (Vec3 fo.F)) (oi : Importer fo.F),
    (∀ x ∈ l, fo.isNaN x.1 = false ∧ fo.isNaN x.2.1 = false ∧ fo.isNaN x.2.2 = false) →
    readObjLoop ft face b ((l.map ObjLine.normal).map (ObjLine.render ft) ++ rest) oi =
      readObjLoop ft face b rest { oi with normals := oi.normals ++ l }
  | [], oi, _ => by simp
  | x :: l, oi, h => by
    rw [List.map_cons, List.map_cons, List.cons_append,
      readObjLoop_none (parseLine_normal hl face b x oi (h x List.mem_cons_self)),
      readObjLoop_normals rest l _ (fun y hy => h y (List.mem_cons_of_mem _ hy))]
    simp

theorem readObjLoop_uvs (rest : List (List UInt8)) : ∀ (l : List (Vec2 fo.F)) (oi : Importer fo.F),
    (∀ x ∈ l, fo.isNaN x.1 = false ∧ fo.isNaN x.2 = false) →
    readObjLoop ft face b ((l.map ObjLine.uv).map (ObjLine.render ft) ++ rest) oi =
      readObjLoop ft face b rest { oi with uvs := oi.uvs ++ l }
  | [], oi, _ => by simp
  | x :: l, oi, h => by
    rw [List.map_cons, List.map_cons, List.cons_append,
      readObjLoop_none (parseLine_uv hl face b x oi (h x List.mem_cons_self)),
      readObjLoop_uvs rest l _ (fun y hy => h y (List.mem_cons_of_mem _ hy))]
    simp

end

/-- Faces with three corners are stored as they are. -/
def PushesTriangles {F : Type} (face : PushFace F) : Prop :=
  ∀ (v u n : List Nat) (oi : Importer F), v.length = 3 → u.length = 3 → n.length = 3 → face v u n oi = .ok (oi.pushIndices v u n)

theorem pushFaceWith_triangles {F : Type} (larger : Importer F → (v u n : List Nat) → Outcome IoError (Importer F)) :
    PushesTriangles (Importer.pushFaceWith larger) := by
  intro v u n oi hv hu hn
  rw [Importer.pushFaceWith.eq_def, if_pos (by omega), if_neg (by omega), if_pos hv]

theorem readObjLoop_faces (ft : FloatText fo) {face : PushFace fo.F} (hp : PushesTriangles face) (b : Build)
    (rest : List (List UInt8)) (v u n : List Nat) (o : Nat × Nat × Nat)
    (hv : ∀ i < v.length, v.getD i 0 + o.1 + 1 < 2 ^ 32) (hu : ∀ i < v.length, u.getD i 0 + o.2.1 + 1 < 2 ^ 32)
    (hn : ∀ i < v.length, n.getD i 0 + o.2.2 + 1 < 2 ^ 32) (hul : u.length = v.length) (hnl : n.length = v.length) :
    ∀ (k s : Nat) (oi : Importer fo.F), 3 * (s + k) ≤ v.length →
      readObjLoop ft face b ((wfaces v (some u) (some n) (o.1 + 1, o.2.1 + 1, o.2.2 + 1) (List.range' s k)).map
        (ObjLine.render ft) ++ rest) oi =
      readObjLoop ft face b rest (oi.pushIndices (((v.drop (3 * s)).take (3 * k)).map (· + o.1))
        (((u.drop (3 * s)).take (3 * k)).map (· + o.2.1)) (((n.drop (3 * s)).take (3 * k)).map (· + o.2.2)))
  | 0, s, oi, _ => by simp [wfaces, Importer.pushIndices]
  | k + 1, s, oi, h => by
    rw [List.range'_succ, wfaces, List.map_cons, List.map_cons, List.cons_append]
    have b0 := fun j (hj : j < 3) => hv (3 * s + j) (by omega)
    have b1 := fun j (hj : j < 3) => hu (3 * s + j) (by omega)
    have b2 := fun j (hj : j < 3) => hn (3 * s + j) (by omega)
    have key := parseLine_face ft face b
      (v.getD (3 * s) 0 + o.1, u.getD (3 * s) 0 + o.2.1, n.getD (3 * s) 0 + o.2.2)
      (v.getD (3 * s + 1) 0 + o.1, u.getD (3 * s + 1) 0 + o.2.1, n.getD (3 * s + 1) 0 + o.2.2)
      (v.getD (3 * s + 2) 0 + o.1, u.getD (3 * s + 2) 0 + o.2.1, n.getD (3 * s + 2) 0 + o.2.2) oi
      ⟨b0 0 (by omega), b1 0 (by omega), b2 0 (by omega)⟩ ⟨b0 1 (by omega), b1 1 (by omega), b2 1 (by omega)⟩
      ⟨b0 2 (by omega), b1 2 (by omega), b2 2 (by omega)⟩
    rw [hp _ _ _ _ rfl rfl rfl] at key
    simp only [bind, Outcome.bind] at key
    have e : ∀ (l : List Nat), l.length = v.length → (l.drop (3 * s)).take (3 * (k + 1)) =
        [l.getD (3 * s) 0, l.getD (3 * s + 1) 0, l.getD (3 * s + 2) 0] ++ (l.drop (3 * (s + 1))).take (3 * k) := by
      intro l hll
      have d0 := List.drop_eq_getElem_cons (l := l) (i := 3 * s) (by omega)
      have d1 := List.drop_eq_getElem_cons (l := l) (i := 3 * s + 1) (by omega)
      have d2 := List.drop_eq_getElem_cons (l := l) (i := 3 * s + 1 + 1) (by omega)
      rw [d0, d1, d2, show 3 * (k + 1) = 3 * k + 1 + 1 + 1 by ring, List.take_succ_cons, List.take_succ_cons,
        List.take_succ_cons]
      have g : ∀ i (hi : i < l.length), l.getD i 0 = l[i] := fun i hi => by simp [List.getD, hi]
      rw [g _ (by omega), g _ (by omega), g _ (by omega)]
      rfl
    have ih := readObjLoop_faces ft hp b rest v u n o hv hu hn hul hnl k (s + 1)
      (oi.pushIndices [v.getD (3 * s) 0 + o.1, v.getD (3 * s + 1) 0 + o.1, v.getD (3 * s + 2) 0 + o.1]
        [u.getD (3 * s) 0 + o.2.1, u.getD (3 * s + 1) 0 + o.2.1, u.getD (3 * s + 2) 0 + o.2.1]
        [n.getD (3 * s) 0 + o.2.2, n.getD (3 * s + 1) 0 + o.2.2, n.getD (3 * s + 2) 0 + o.2.2]) (by omega)
    refine (readObjLoop_none key).trans (ih.trans ?_)
    rw [e v rfl, e u hul, e n hnl]
    simp [Importer.pushIndices]

/-! ### Meshes -/

theorem bufferLoop_congr {α : Type} {d d' : List α} : ∀ {t t' : List Nat} (acc : List α), lookups d t = lookups d' t' →
    Mesh.bufferLoop d t acc = Mesh.bufferLoop d' t' acc
  | [], [], acc, _ => rfl
  | [], _ :: _, acc, h => by simp [lookups] at h
  | _ :: _, [], acc, h => by simp [lookups] at h
  | i :: t, j :: t', acc, h => by
    simp only [lookups, List.map_cons, List.cons.injEq] at h
    rw [Mesh.bufferLoop, Mesh.bufferLoop, h.1]
    cases d'[j]? with
    | none => rfl
    | some x => exact bufferLoop_congr _ h.2

theorem lookups_shift {α : Type} (pre own : List α) (t : List Nat) :
    lookups (pre ++ own) (t.map (· + pre.length)) = lookups own t := by
  simp only [lookups, List.map_map]
  apply List.map_congr_left
  intro i _
  simp only [Function.comp]
  rw [List.getElem?_append_right (by omega), Nat.add_sub_cancel]

theorem build_spec {F : Type} (b : Build) (oi : Importer F) : ∃ m, oi.build b = .ok m ∧
    m.getVertexBuffer = Mesh.bufferLoop oi.vertices oi.vertexTriangles [] ∧
    m.getNormalBuffer = Mesh.bufferLoop oi.normals oi.normalTriangles [] ∧
    m.getUvBuffer = Mesh.bufferLoop oi.uvs oi.uvTriangles [] := by
  obtain ⟨v, vt, hv, _, lv, _⟩ := Props.C32_prune b oi.vertices oi.vertexTriangles
  obtain ⟨n, nt, hn, _, ln, _⟩ := Props.C32_prune b oi.normals oi.normalTriangles
  obtain ⟨u, ut, hu, _, lu, _⟩ := Props.C32_prune b oi.uvs oi.uvTriangles
  have e : ∃ m, oi.build b = .ok m ∧ m.getVertexBuffer = Mesh.bufferLoop v vt [] ∧
      m.getNormalBuffer = Mesh.bufferLoop n nt [] ∧ m.getUvBuffer = Mesh.bufferLoop u ut [] := by
    rw [Importer.build, hv, hn, hu]
    exact ⟨_, rfl, rfl, rfl, rfl⟩
  obtain ⟨m, e0, e1, e2, e3⟩ := e
  exact ⟨m, e0, e1.trans (bufferLoop_congr [] lv), e2.trans (bufferLoop_congr [] ln), e3.trans (bufferLoop_congr [] lu)⟩

/-- The importer after the lines of a mesh. -/
def afterMesh {F : Type} (m : Mesh F) (name : List UInt8) (oi : Importer F) : Importer F :=
  { vertices := oi.vertices ++ m.vertices.getD []
    normals := oi.normals ++ m.normals.getD []
    uvs := oi.uvs ++ m.uvs.getD []
    vertexTriangles := (m.vertexTriangles.getD []).map (· + oi.vertices.length)
    normalTriangles := (m.normalTriangles.getD []).map (· + oi.normals.length)
    uvTriangles := (m.uvTriangles.getD []).map (· + oi.uvs.length)
    name := name }

/-- The offsets at a state of the importer. -/
def offsetsOf {F : Type} (oi : Importer F) : Nat × Nat × Nat :=
  (oi.vertices.length + 1, oi.uvs.length + 1, oi.normals.length + 1)

/-- What writing and reading a mesh needs, apart from having a triangle. -/
structure PlainMesh (fo : FloatOps) (m : Mesh fo.F) : Prop where
  faces : HasFaces m
  normalTriangles : m.normalTriangles.isSome
  uvTriangles : m.uvTriangles.isSome
  noNaN : NoNaN fo m

theorem Spec.CompleteMesh.plain {m : Mesh fo.F} (h : CompleteMesh fo m) : PlainMesh fo m :=
  ⟨h.faces, h.normalTriangles, h.uvTriangles, h.noNaN⟩

/-- Everything after the line of the object. -/
theorem readObjLoop_body {ft : FloatText fo} (hl : FloatTextLaws ft) {face : PushFace fo.F} (hp : PushesTriangles face) (b : Build)
    (m : Mesh fo.F) (name : List UInt8) (hm : PlainMesh fo m) (rest : List (List UInt8)) (oi : Importer fo.F)
    (hv : 1 + oi.vertices.length + (m.vertices.getD []).length < 2 ^ 32)
    (hn : 1 + oi.normals.length + (m.normals.getD []).length < 2 ^ 32)
    (hu : 1 + oi.uvs.length + (m.uvs.getD []).length < 2 ^ 32) :
    readObjLoop ft face b (((wmesh m name (offsetsOf oi)).tail).map (ObjLine.render ft) ++ rest)
      { oi with name := name, vertexTriangles := [], normalTriangles := [], uvTriangles := [] } =
    readObjLoop ft face b rest (afterMesh m name oi) := by
  obtain ⟨v, ev, h3, hr⟩ := hm.faces.vertices
  obtain ⟨n, en⟩ := Option.isSome_iff_exists.mp hm.normalTriangles
  obtain ⟨u, eu⟩ := Option.isSome_iff_exists.mp hm.uvTriangles
  obtain ⟨hnl, hnr⟩ := hm.faces.normals n en
  obtain ⟨hul, hur⟩ := hm.faces.uvs u eu
  obtain ⟨n1, n2, n3⟩ := hm.noNaN
  simp only [ev, Option.getD_some] at hnl hul
  simp only [wmesh, wdata, List.cons_append, List.tail_cons, List.map_append, List.append_assoc]
  rw [readObjLoop_vertices hl face b _ _ _ n1, readObjLoop_normals hl face b _ _ _ n2,
    readObjLoop_uvs hl face b _ _ _ n3]
  have hf := readObjLoop_faces ft hp b rest v u n (oi.vertices.length, oi.uvs.length, oi.normals.length)
    (fun i hi => by have := getD_lt hr hi; dsimp only; omega)
    (fun i hi => by have := getD_lt hur (i := i) (by omega); dsimp only; omega)
    (fun i hi => by have := getD_lt hnr (i := i) (by omega); dsimp only; omega) hul hnl (v.length / 3) 0
  simp only [ev, en, eu, Option.getD_some, List.range_eq_range', offsetsOf]
  rw [hf _ (by omega)]
  have e3 : 3 * (v.length / 3) = v.length := Nat.mul_div_cancel' h3
  simp only [e3, Nat.mul_zero, List.drop_zero]
  rw [List.take_length, List.take_of_length_le (by omega), List.take_of_length_le (by omega)]
  simp [Importer.pushIndices, afterMesh, ev, en, eu]

theorem readObjLoop_object {ft : FloatText fo} {face : PushFace fo.F} (b : Build) {name : List UInt8}
    (h : ObjName name) (rest : List (List UInt8)) (oi : Importer fo.F) {m : Mesh fo.F} {res : List (Mesh fo.F × List UInt8)}
    (ht : oi.vertexTriangles ≠ []) (hb : oi.build b = .ok m)
    (hr : readObjLoop ft face b rest { oi with name := name, vertexTriangles := [], normalTriangles := [], uvTriangles := [] } = .ok res) :
    readObjLoop ft face b (ObjLine.render ft (.object name) :: rest) oi = .ok ((m, oi.name) :: res) := by
  rw [readObjLoop, parseLine_object ft face b h, Importer.nextMesh, if_neg ht, hb]
  simp only [bind, Outcome.bind, Outcome.widen]
  rw [hr]
  rfl

theorem afterMesh_ne (m : Mesh fo.F) (name : List UInt8) (oi : Importer fo.F)
    (hm : CompleteMesh fo m) : (afterMesh m name oi).vertexTriangles ≠ [] := by
  obtain ⟨v, ev, _, _⟩ := hm.faces.vertices
  intro h
  simp [afterMesh, ev] at h
  exact hm.nonempty (by rw [ev, h])

/-- The mesh built after the lines of a mesh has its geometry. -/
theorem afterMesh_build (b : Build) (m : Mesh fo.F) (name : List UInt8) (oi : Importer fo.F) (hm : CompleteMesh fo m) :
    ∃ m', (afterMesh m name oi).build b = .ok m' ∧ SameGeometry (m', name) (m, name) := by
  obtain ⟨m', hb, g1, g2, g3⟩ := build_spec b (afterMesh m name oi)
  obtain ⟨v, ev, h3, hr⟩ := hm.faces.vertices
  obtain ⟨n, en⟩ := Option.isSome_iff_exists.mp hm.normalTriangles
  obtain ⟨u, eu⟩ := Option.isSome_iff_exists.mp hm.uvTriangles
  obtain ⟨dv, edv⟩ := Option.isSome_iff_exists.mp hm.vertices
  obtain ⟨dn, edn⟩ := Option.isSome_iff_exists.mp hm.normals
  obtain ⟨du, edu⟩ := Option.isSome_iff_exists.mp hm.uvs
  refine ⟨m', hb, rfl, g1.trans ?_, g2.trans ?_, g3.trans ?_⟩
  · have e : m.getVertexBuffer = Mesh.bufferLoop dv v [] := by
      simp [Mesh.getVertexBuffer, Mesh.getVertices, Mesh.getVertexTriangles, edv, ev]
    simp only [e, afterMesh, ev, edv, Option.getD_some]
    exact bufferLoop_congr [] (lookups_shift _ _ _)
  · have e : m.getNormalBuffer = Mesh.bufferLoop dn n [] := by
      simp [Mesh.getNormalBuffer, Mesh.getNormals, Mesh.getNormalTriangles, edn, en]
    simp only [e, afterMesh, en, edn, Option.getD_some]
    exact bufferLoop_congr [] (lookups_shift _ _ _)
  · have e : m.getUvBuffer = Mesh.bufferLoop du u [] := by
      simp [Mesh.getUvBuffer, Mesh.getUvs, Mesh.getUvTriangles, edu, eu]
    simp only [e, afterMesh, eu, edu, Option.getD_some]
    exact bufferLoop_congr [] (lookups_shift _ _ _)

theorem offsets_after {F : Type} (m : Mesh F) (name : List UInt8) (oi : Importer F) :
    nextOffset m (offsetsOf oi) = offsetsOf (afterMesh m name oi) := by
  simp only [nextOffset, offsetsOf, afterMesh, List.length_append]
  refine Prod.ext (by dsimp only; omega) (Prod.ext (by dsimp only; omega) (by dsimp only; omega))

/-- Reading the lines of meshes after those of a mesh. -/
theorem readObjLoop_meshes {ft : FloatText fo} (hl : FloatTextLaws ft) {face : PushFace fo.F} (hp : PushesTriangles face) (b : Build) :
    ∀ (meshes : List (Mesh fo.F × List UInt8)) (m : Mesh fo.F) (name : List UInt8) (oi : Importer fo.F), CompleteMesh fo m →
      (∀ x ∈ meshes, CompleteMesh fo x.1 ∧ ObjName x.2) →
      1 + oi.vertices.length + (m.vertices.getD []).length + (meshes.map fun m => (m.1.vertices.getD []).length).sum < 2 ^ 32 →
      1 + oi.normals.length + (m.normals.getD []).length + (meshes.map fun m => (m.1.normals.getD []).length).sum < 2 ^ 32 →
      1 + oi.uvs.length + (m.uvs.getD []).length + (meshes.map fun m => (m.1.uvs.getD []).length).sum < 2 ^ 32 →
      ∃ res, readObjLoop ft face b ((wmeshes meshes (offsetsOf (afterMesh m name oi))).map (ObjLine.render ft))
          (afterMesh m name oi) = .ok res ∧ List.Forall₂ SameGeometry res ((m, name) :: meshes)
  | [], m, name, oi, hm, _, _, _, _ => by
    obtain ⟨m', hb, hg⟩ := afterMesh_build b m name oi hm
    refine ⟨[(m', name)], ?_, .cons hg .nil⟩
    rw [wmeshes, List.map_nil, readObjLoop, Importer.finish, hb]
    rfl
  | (m2, name2) :: rest, m, name, oi, hm, hms, h0, h1, h2 => by
    simp only [List.map_cons, List.sum_cons] at h0 h1 h2
    obtain ⟨m', hb, hg⟩ := afterMesh_build b m name oi hm
    obtain ⟨hm2, hn2⟩ := hms _ List.mem_cons_self
    dsimp only at hm2 hn2
    have l0 : (afterMesh m name oi).vertices.length = oi.vertices.length + (m.vertices.getD []).length := by simp [afterMesh]
    have l1 : (afterMesh m name oi).normals.length = oi.normals.length + (m.normals.getD []).length := by simp [afterMesh]
    have l2 : (afterMesh m name oi).uvs.length = oi.uvs.length + (m.uvs.getD []).length := by simp [afterMesh]
    obtain ⟨res, hr, hgs⟩ := readObjLoop_meshes hl hp b rest m2 name2 (afterMesh m name oi) hm2
      (fun x hx => hms x (List.mem_cons_of_mem _ hx)) (by omega) (by omega) (by omega)
    refine ⟨(m', name) :: res, ?_, .cons hg hgs⟩
    rw [wmeshes, List.map_append]
    have ew : ∀ o, wmesh m2 name2 o = .object name2 :: (wmesh m2 name2 o).tail := fun o => rfl
    rw [ew, List.map_cons, List.cons_append, offsets_after m2 name2]
    refine readObjLoop_object b hn2 _ _ (afterMesh_ne m name oi hm) hb ?_
    rw [readObjLoop_body hl hp b m2 name2 hm2.plain _ _ (by omega) (by omega) (by omega)]
    exact hr

/-- All lines of a file are plain. -/
theorem wmeshes_clean {ft : FloatText fo} (hl : FloatTextLaws ft) : ∀ (meshes : List (Mesh fo.F × List UInt8)) (o : Nat × Nat × Nat),
    (∀ x ∈ meshes, PlainMesh fo x.1 ∧ ObjName x.2) → ∀ l ∈ wmeshes meshes o, CleanLine (ObjLine.render ft l)
  | [], _, _, l, h => by simp [wmeshes] at h
  | (m, name) :: rest, o, hms, l, h => by
    rw [wmeshes] at h
    rcases List.mem_append.mp h with h | h
    · obtain ⟨hm, hn⟩ := hms _ List.mem_cons_self
      dsimp only at hm hn
      obtain ⟨n, en⟩ := Option.isSome_iff_exists.mp hm.normalTriangles
      obtain ⟨u, eu⟩ := Option.isSome_iff_exists.mp hm.uvTriangles
      simp only [wmesh, wdata, wfaces, List.cons_append, List.mem_cons, List.mem_append, List.mem_map, en, eu] at h
      rcases h with rfl | (⟨x, _, rfl⟩ | ⟨x, _, rfl⟩ | ⟨x, _, rfl⟩) | ⟨t, _, rfl⟩
      · exact object_valid ft hn
      · exact cleanLine_of_chars (vertex_chars hl x)
      · exact cleanLine_of_chars (normal_chars hl x)
      · exact cleanLine_of_chars (uv_chars hl x)
      · exact cleanLine_of_chars (face_chars ft (_, _, _) (_, _, _) (_, _, _))
    · exact wmeshes_clean hl rest _ (fun x hx => hms x (List.mem_cons_of_mem _ hx)) l h

theorem readFromObj_written {ft : FloatText fo} (hl : FloatTextLaws ft) {face : PushFace fo.F} (hp : PushesTriangles face) (b : Build)
    (meshes : List (Mesh fo.F × List UInt8)) (hne : meshes ≠ []) (hms : ∀ x ∈ meshes, CompleteMesh fo x.1 ∧ ObjName x.2)
    (hf : FitsU32 meshes) :
    ∃ res, readFromObj ft face b (objText ft (.smooth :: wmeshes meshes (1, 1, 1))) = .ok res ∧
      List.Forall₂ SameGeometry res meshes := by
  cases meshes with
  | nil => exact absurd rfl hne
  | cons x rest =>
    obtain ⟨m, name⟩ := x
    obtain ⟨hm, hn⟩ := hms _ List.mem_cons_self
    dsimp only at hm hn
    obtain ⟨f0, f1, f2⟩ := hf
    simp only [List.map_cons, List.sum_cons] at f0 f1 f2
    obtain ⟨res, hr, hg⟩ := readObjLoop_meshes hl hp b rest m name .new hm (fun x hx => hms x (List.mem_cons_of_mem _ hx))
      (by simp only [Importer.new, List.length_nil]; omega) (by simp only [Importer.new, List.length_nil]; omega)
      (by simp only [Importer.new, List.length_nil]; omega)
    refine ⟨res, ?_, hg⟩
    rw [readFromObj, textLines_objText ft]
    · rw [List.map_cons, readObjLoop_none (parseLine_smooth ft face b _)]
      have ew : ∀ o, wmesh m name o = .object name :: (wmesh m name o).tail := fun o => rfl
      rw [wmeshes, List.map_append, ew, List.map_cons, List.cons_append]
      have ho : ((1, 1, 1) : Nat × Nat × Nat) = offsetsOf (Importer.new (F := fo.F)) := rfl
      rw [readObjLoop_none (oi' := { Importer.new with name := name }), ho, offsets_after m name]
      · refine (readObjLoop_body hl hp b m name hm.plain _ .new ?_ ?_ ?_).trans hr <;>
          simp only [Importer.new, List.length_nil] <;> omega
      · rw [parseLine_object ft face b hn]
        rfl
    · intro l h
      rcases List.mem_cons.mp h with rfl | h
      · refine cleanLine_of_chars ?_
        rw [ObjLine.render]
        decide
      · exact wmeshes_clean hl _ _ (fun x hx => ⟨(hms x hx).1.plain, (hms x hx).2⟩) l h

/-! ### Failing -/

theorem outcome_bind_ne_panic {ε α β : Type} {x : Outcome ε α} {f : α → Outcome ε β} (h : x ≠ .panic)
    (hf : ∀ a, x = .ok a → f a ≠ .panic) : (x >>= f) ≠ .panic := by
  cases x with
  | ok a => exact hf a rfl
  | err e => intro h; cases h
  | panic => exact absurd rfl h

theorem nextWord_ne_panic (ws : List (List UInt8)) : nextWord ws ≠ .panic := by
  cases ws <;> (intro h; cases h)

theorem parseFloat_ne_panic (ft : FloatText fo) (w : List UInt8) : parseFloat ft w ≠ .panic := by
  rw [parseFloat]
  cases ft.parse w <;> (intro h; cases h)

theorem loadVec3_ne_panic (ft : FloatText fo) (ws : List (List UInt8)) : loadVec3 ft ws ≠ .panic := by
  unfold loadVec3
  refine outcome_bind_ne_panic (nextWord_ne_panic _) fun _ _ => ?_
  refine outcome_bind_ne_panic (nextWord_ne_panic _) fun _ _ => ?_
  refine outcome_bind_ne_panic (nextWord_ne_panic _) fun _ _ => ?_
  refine outcome_bind_ne_panic (parseFloat_ne_panic _ _) fun _ _ => ?_
  refine outcome_bind_ne_panic (parseFloat_ne_panic _ _) fun _ _ => ?_
  refine outcome_bind_ne_panic (parseFloat_ne_panic _ _) fun _ _ => ?_
  intro h; cases h

theorem loadVec2_ne_panic (ft : FloatText fo) (ws : List (List UInt8)) : loadVec2 ft ws ≠ .panic := by
  unfold loadVec2
  refine outcome_bind_ne_panic (nextWord_ne_panic _) fun _ _ => ?_
  refine outcome_bind_ne_panic (nextWord_ne_panic _) fun _ _ => ?_
  refine outcome_bind_ne_panic (parseFloat_ne_panic _ _) fun _ _ => ?_
  refine outcome_bind_ne_panic (parseFloat_ne_panic _ _) fun _ _ => ?_
  intro h; cases h

theorem build_ne_panic {F : Type} (b : Build) (oi : Importer F) : ∃ m, oi.build b = .ok m := by
  obtain ⟨m, h, _⟩ := build_spec b oi
  exact ⟨m, h⟩

theorem nextMesh_widen_ne_panic {F : Type} (b : Build) (name : List UInt8) (oi : Importer F) :
    (oi.nextMesh b name).widen (ε := IoError) ≠ .panic := by
  rw [Importer.nextMesh]
  split_ifs
  · intro h; cases h
  · obtain ⟨m, hm⟩ := build_ne_panic b oi
    rw [hm]
    intro h; cases h

theorem loadIndices_length {ws : List (List UInt8)} {r : (Nat × Nat × Nat) × List (List UInt8)} (h : loadIndices ws = .ok r) :
    ws.length = r.2.length + 3 := by
  match ws, h with
  | [], h => cases h
  | [_], h => cases h
  | [_, _], h => cases h
  | a :: b :: c :: ws, h =>
    simp only [loadIndices, nextWord, bind, Outcome.bind] at h
    split_ifs at h
    cases h
    rfl

theorem loadIndices_ne_panic (ws : List (List UInt8)) : loadIndices ws ≠ .panic := by
  match ws with
  | [] => nofun
  | [_] => nofun
  | [_, _] => nofun
  | a :: b :: c :: ws =>
    simp only [loadIndices, nextWord, bind, Outcome.bind]
    split_ifs <;> nofun

/-- The loop of `load_face` neither panics nor fails, and finds a corner for every three words at
most. -/
theorem loadFaceLoop_length : ∀ (fuel : Nat) (ws : List (List UInt8)) (v u n : List Nat), ws.length < fuel →
    ∃ r, loadFaceLoop fuel ws v u n = .ok r ∧ 3 * r.1.length ≤ 3 * v.length + ws.length
  | 0, ws, v, u, n, hl => absurd hl (Nat.not_lt_zero _)
  | fuel + 1, ws, v, u, n, hl => by
    rw [loadFaceLoop.eq_def]
    simp only
    split
    · next i j k ws' h =>
      have h1 := loadIndices_length h
      dsimp only at h1
      obtain ⟨r, h2, h3⟩ := loadFaceLoop_length fuel ws' (v ++ [i]) (u ++ [j]) (n ++ [k]) (by omega)
      simp only [List.length_append, List.length_singleton] at h3
      exact ⟨r, h2, by omega⟩
    · exact ⟨_, rfl, by simp⟩
    · next h => exact absurd h (loadIndices_ne_panic ws)

theorem loadFace_ne_panic {F : Type} {face : PushFace F} (hf : ∀ v u n oi, face v u n oi ≠ .panic) (ws : List (List UInt8))
    (oi : Importer F) : loadFace face ws oi ≠ .panic := by
  obtain ⟨r, hr, _⟩ := loadFaceLoop_length (ws.length + 1) ws [] [] [] (by omega)
  rw [loadFace, hr]
  exact hf _ _ _ _

theorem parseWords_ne_panic (ft : FloatText fo) {face : PushFace fo.F} (hf : ∀ v u n oi, face v u n oi ≠ .panic) (b : Build)
    (beg : List UInt8) (ws : List (List UInt8)) (oi : Importer fo.F) : parseWords ft face b beg ws oi ≠ .panic := by
  rw [parseWords]
  split_ifs
  · exact outcome_bind_ne_panic (loadVec3_ne_panic _ _) fun _ _ => by intro h; cases h
  · exact outcome_bind_ne_panic (loadVec3_ne_panic _ _) fun _ _ => by intro h; cases h
  · exact outcome_bind_ne_panic (loadVec2_ne_panic _ _) fun _ _ => by intro h; cases h
  · exact outcome_bind_ne_panic (loadFace_ne_panic hf _ _) fun _ _ => by intro h; cases h
  · exact outcome_bind_ne_panic (nextWord_ne_panic _) fun _ _ => nextMesh_widen_ne_panic _ _ _
  · intro h; cases h

theorem readObjLoop_total (ft : FloatText fo) {face : PushFace fo.F} (hf : ∀ v u n oi, face v u n oi ≠ .panic) (b : Build) :
    ∀ (lines : List (List UInt8)) (oi : Importer fo.F), readObjLoop ft face b lines oi ≠ .panic ∧
      ∀ ms, readObjLoop ft face b lines oi = .ok ms → ms ≠ []
  | [], oi => by
    rw [readObjLoop, Importer.finish]
    obtain ⟨m, hm⟩ := build_ne_panic b oi
    rw [hm]
    refine ⟨nofun, ?_⟩
    intro ms h
    cases h
    simp
  | line :: rest, oi => by
    have hp : parseLine ft face b line oi ≠ .panic := by
      rw [parseLine]
      split_ifs
      · exact outcome_bind_ne_panic (nextWord_ne_panic _) fun _ _ => parseWords_ne_panic ft hf b _ _ _
      · intro h; cases h
    rw [readObjLoop]
    cases hl : parseLine ft face b line oi with
    | panic => exact absurd hl hp
    | err e => exact ⟨nofun, nofun⟩
    | ok r =>
      obtain ⟨m, oi'⟩ := r
      obtain ⟨h1, h2⟩ := readObjLoop_total ft hf b rest oi'
      cases hr : readObjLoop ft face b rest oi' with
      | panic => exact absurd hr h1
      | err e => simp only [bind, Outcome.bind, hr]; exact ⟨nofun, nofun⟩
      | ok ms =>
        simp only [bind, Outcome.bind, hr]
        refine ⟨nofun, ?_⟩
        intro ms' h
        cases h
        have := h2 ms hr
        simp [this]

end Tmf
