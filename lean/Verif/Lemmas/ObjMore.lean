import Verif.Lemmas.ObjFile
import Verif.Lemmas.ObjUnique
import Verif.Spec.ObjExport
/-
More about .obj text: whole triangles, blanks and slashes, refused meshes.
-/

namespace Tmf
open Spec

variable {fo : FloatOps}

/-! ### Whole triangles -/

/-- The index arrays of the importer hold whole triangles. -/
def Importer.Whole {F : Type} (oi : Importer F) : Prop :=
  oi.uvTriangles.length = oi.vertexTriangles.length ∧ oi.normalTriangles.length = oi.vertexTriangles.length ∧
    3 ∣ oi.vertexTriangles.length

/-- A way of adding faces that adds whole triangles. -/
def KeepsWhole {F : Type} (face : PushFace F) : Prop :=
  ∀ v u n oi oi', face v u n oi = .ok oi' → oi.Whole → oi'.Whole

theorem pushIndices_whole {F : Type} {oi : Importer F} (h : oi.Whole) {v u n : List Nat} (hv : v.length = 3) (hu : u.length = 3)
    (hn : n.length = 3) : (oi.pushIndices v u n).Whole := by
  obtain ⟨h1, h2, h3⟩ := h
  simp only [Importer.Whole, Importer.pushIndices, List.length_append, hv, hu, hn, h1, h2, true_and]
  omega

theorem pushFace_whole {F : Type} : KeepsWhole (Importer.pushFace (F := F)) := by
  intro v u n oi oi' h hw
  rw [Importer.pushFace, Importer.pushFaceWith] at h
  split_ifs at h with c1 c2 c3
  cases h
  exact pushIndices_whole hw c3 (by omega) (by omega)

theorem bind_ok_inv {ε α β : Type} {x : Outcome ε α} {f : α → Outcome ε β} {r : β} (h : (x >>= f) = .ok r) :
    ∃ a, x = .ok a ∧ f a = .ok r := by
  cases x with
  | ok a => exact ⟨a, rfl, h⟩
  | err e => cases h
  | panic => cases h

theorem pick3_length {l r : List Nat} {i j k : Nat} (h : pick3 l i j k = .ok r) : r.length = 3 := by
  rw [pick3] at h
  obtain ⟨a, _, h⟩ := bind_ok_inv h
  obtain ⟨b, _, h⟩ := bind_ok_inv h
  obtain ⟨c, _, h⟩ := bind_ok_inv h
  cases h
  rfl

theorem triangulateLoop_whole (acos : fo.F → fo.F) : ∀ (fuel : Nat) (v n u : List Nat) (ears : List fo.F) (mi mi' : Importer fo.F),
    triangulateLoop fo acos fuel v n u ears mi = .ok mi' → mi.Whole → mi'.Whole
  | 0, v, n, u, ears, mi, mi', h, _ => by cases h
  | fuel + 1, v, n, u, ears, mi, mi', h, hw => by
    rw [triangulateLoop] at h
    split_ifs at h with hc
    · obtain ⟨best, _, h⟩ := bind_ok_inv h
      obtain ⟨tv, h1, h⟩ := bind_ok_inv h
      obtain ⟨tn, h2, h⟩ := bind_ok_inv h
      obtain ⟨tu, h3, h⟩ := bind_ok_inv h
      obtain ⟨v', _, h⟩ := bind_ok_inv h
      obtain ⟨n', _, h⟩ := bind_ok_inv h
      obtain ⟨u', _, h⟩ := bind_ok_inv h
      obtain ⟨e', _, h⟩ := bind_ok_inv h
      obtain ⟨e, _, h⟩ := bind_ok_inv h
      obtain ⟨e', _, h⟩ := bind_ok_inv h
      obtain ⟨e, _, h⟩ := bind_ok_inv h
      obtain ⟨e', _, h⟩ := bind_ok_inv h
      exact triangulateLoop_whole acos fuel _ _ _ _ _ _ h
        (pushIndices_whole hw (pick3_length h1) (pick3_length h3) (pick3_length h2))
    · obtain ⟨tv, h1, h⟩ := bind_ok_inv h
      obtain ⟨tn, h2, h⟩ := bind_ok_inv h
      obtain ⟨tu, h3, h⟩ := bind_ok_inv h
      cases h
      exact pushIndices_whole hw (pick3_length h1) (pick3_length h3) (pick3_length h2)

theorem widen_ok_inv {ε α : Type} {x : Outcome Empty α} {r : α} (h : (x.widen : Outcome ε α) = .ok r) : x = .ok r := by
  cases x with
  | ok a => cases h; rfl
  | err e => exact e.elim
  | panic => cases h

theorem pushFaceTri_whole (acos : fo.F → fo.F) : KeepsWhole (Importer.pushFaceTri fo acos) := by
  intro v u n oi oi' h hw
  rw [Importer.pushFaceTri, Importer.pushFaceWith] at h
  split_ifs at h with c1 c2 c3
  · cases h
    exact pushIndices_whole hw c3 (by omega) (by omega)
  · have h := widen_ok_inv h
    obtain ⟨ears, _, h⟩ := bind_ok_inv h
    exact triangulateLoop_whole acos _ _ _ _ _ _ _ h hw

theorem build_whole {F : Type} (b : Build) {oi : Importer F} (h : oi.Whole) {m : Mesh F} (hb : oi.build b = .ok m) : WholeTriangles m := by
  obtain ⟨v, vt, hv, lv, _⟩ := Props.C32_prune b oi.vertices oi.vertexTriangles
  obtain ⟨n, nt, hn, ln, _⟩ := Props.C32_prune b oi.normals oi.normalTriangles
  obtain ⟨u, ut, hu, lu, _⟩ := Props.C32_prune b oi.uvs oi.uvTriangles
  rw [Importer.build, hv, hn, hu] at hb
  cases hb
  obtain ⟨h1, h2, h3⟩ := h
  exact ⟨vt, ut, nt, rfl, rfl, rfl, by omega, by omega, by rw [lv]; exact h3⟩

theorem nextMesh_whole {F : Type} (b : Build) {oi oi' : Importer F} (h : oi.Whole) {name : List UInt8} {m : Option (Mesh F × List UInt8)}
    (hn : oi.nextMesh b name = .ok (m, oi')) : (∀ x ∈ m, WholeTriangles x.1) ∧ oi'.Whole := by
  rw [Importer.nextMesh] at hn
  split_ifs at hn with hc
  · cases hn
    exact ⟨nofun, h⟩
  · obtain ⟨m', hb, hn⟩ := bind_ok_inv hn
    cases hn
    refine ⟨?_, rfl, rfl, ⟨0, rfl⟩⟩
    intro x hx
    cases hx
    exact build_whole b h hb

theorem parseLine_whole (ft : FloatText fo) {face : PushFace fo.F} (hf : KeepsWhole face) (b : Build) {line : List UInt8}
    {oi oi' : Importer fo.F} {m : Option (Mesh fo.F × List UInt8)} (h : parseLine ft face b line oi = .ok (m, oi'))
    (hw : oi.Whole) : (∀ x ∈ m, WholeTriangles x.1) ∧ oi'.Whole := by
  rw [parseLine] at h
  split_ifs at h
  obtain ⟨⟨beg, ws⟩, _, h⟩ := bind_ok_inv h
  simp only [parseWords] at h
  split_ifs at h
  · obtain ⟨x, _, h⟩ := bind_ok_inv h
    cases h
    exact ⟨nofun, hw⟩
  · obtain ⟨x, _, h⟩ := bind_ok_inv h
    cases h
    exact ⟨nofun, hw⟩
  · obtain ⟨x, _, h⟩ := bind_ok_inv h
    cases h
    exact ⟨nofun, hw⟩
  · obtain ⟨x, hx, h⟩ := bind_ok_inv h
    cases h
    rw [loadFace] at hx
    obtain ⟨y, _, hx⟩ := bind_ok_inv hx
    exact ⟨nofun, hf _ _ _ _ _ hx hw⟩
  · obtain ⟨x, _, h⟩ := bind_ok_inv h
    exact nextMesh_whole b hw (widen_ok_inv h)
  · cases h
    exact ⟨nofun, hw⟩

theorem readObjLoop_whole (ft : FloatText fo) {face : PushFace fo.F} (hf : KeepsWhole face) (b : Build) :
    ∀ (lines : List (List UInt8)) (oi : Importer fo.F) (ms : List (Mesh fo.F × List UInt8)), oi.Whole →
      readObjLoop ft face b lines oi = .ok ms → ∀ m ∈ ms, WholeTriangles m.1
  | [], oi, ms, hw, h => by
    rw [readObjLoop] at h
    obtain ⟨x, hx, h⟩ := bind_ok_inv h
    cases h
    obtain ⟨m, hb, hx⟩ := bind_ok_inv (widen_ok_inv hx)
    cases hx
    intro y hy
    rw [List.mem_singleton] at hy
    subst hy
    exact build_whole b hw hb
  | line :: rest, oi, ms, hw, h => by
    rw [readObjLoop] at h
    obtain ⟨⟨m, oi'⟩, hp, h⟩ := bind_ok_inv h
    obtain ⟨ms', hr, h⟩ := bind_ok_inv h
    cases h
    obtain ⟨h1, h2⟩ := parseLine_whole ft hf b hp hw
    intro x hx
    rcases List.mem_append.mp hx with hx | hx
    · exact h1 x (Option.mem_toList.mp hx)
    · exact readObjLoop_whole ft hf b rest oi' ms' h2 hr x hx

/-! ### Blanks and slashes -/

/-- A slash becomes a blank. -/
def blank (c : UInt8) : UInt8 := if c = 47 then 32 else c

theorem blank_ne {c : UInt8} (h : c ≠ 47) : blank c = c := if_neg h

theorem splitBytes_words : ∀ (text : List UInt8), splitBytes isObjSep (text.map blank) = splitBytes isObjSep text
  | [] => rfl
  | c :: rest => by
    rw [List.map_cons, splitBytes, splitBytes, splitBytes_words rest]
    by_cases h : c = 47
    · subst h
      rfl
    · rw [blank_ne h]

theorem blank_ten (c : UInt8) : blank c = 10 ↔ c = 10 := by
  unfold blank
  split_ifs with h
  · subst h; decide
  · rfl

theorem blank_thirteen (c : UInt8) : blank c = 13 ↔ c = 13 := by
  unfold blank
  split_ifs with h
  · subst h; decide
  · rfl

theorem stripCr_blank (l : List UInt8) : stripCr (l.map blank) = (stripCr l).map blank := by
  have : (l.map blank).getLast? = some 13 ↔ l.getLast? = some 13 := by
    rw [List.getLast?_map]
    cases h : l.getLast? with
    | none => simp
    | some c => simp [blank_thirteen]
  rw [stripCr, stripCr]
  by_cases h : l.getLast? = some 13
  · rw [if_pos h, if_pos (this.mpr h), List.map_dropLast]
  · rw [if_neg h, if_neg (fun h' => h (this.mp h'))]

theorem textLinesAux_blank : ∀ (text cur : List UInt8),
    textLinesAux (cur.map blank) (text.map blank) = (textLinesAux cur text).map (List.map blank)
  | [], cur => by
    rw [List.map_nil, textLinesAux, textLinesAux]
    by_cases h : cur = []
    · subst h; rfl
    · rw [if_neg h, if_neg (by simpa using h)]
      rfl
  | c :: rest, cur => by
    rw [List.map_cons, textLinesAux, textLinesAux]
    by_cases h : c = 10
    · rw [if_pos h, if_pos ((blank_ten c).mpr h), stripCr_blank, List.map_cons, ← textLinesAux_blank rest []]
      rfl
    · rw [if_neg h, if_neg (fun h' => h ((blank_ten c).mp h')), ← textLinesAux_blank rest (cur ++ [c]), List.map_append]
      rfl

theorem blank_lt (c : UInt8) : (blank c).toNat < 128 ↔ c.toNat < 128 := by
  unfold blank
  split_ifs with h
  · subst h; decide
  · rfl

theorem blank_cont (c : UInt8) : isCont (blank c) = isCont c := by
  unfold blank
  split_ifs with h
  · subst h; decide
  · rfl

theorem blank_big {c : UInt8} (h : ¬ c.toNat < 128) : blank c = c := by
  refine blank_ne ?_
  rintro rfl
  exact h (by decide)

theorem cont_big {c : UInt8} (h : isCont c = true) : blank c = c := by
  refine blank_ne ?_
  rintro rfl
  revert h
  decide

theorem validUtf8_blank (n : Nat) : ∀ (text : List UInt8), text.length ≤ n → validUtf8 (text.map blank) = validUtf8 text := by
  induction n with
  | zero =>
    intro text h
    rw [List.length_eq_zero_iff.mp (Nat.le_zero.mp h)]
    rfl
  | succ n ih =>
    intro text h
    match text, h with
    | [], _ => rfl
    | c0 :: l0, h =>
      rw [List.length_cons] at h
      rw [List.map_cons, validUtf8.eq_def, validUtf8.eq_def (c0 :: l0)]
      simp only [blank_lt]
      by_cases h0 : c0.toNat < 128
      · rw [if_pos h0, if_pos h0]
        exact ih l0 (by omega)
      · rw [if_neg h0, if_neg h0, blank_big h0]
        match l0, h with
        | [], _ => rfl
        | c1 :: l1, h =>
          rw [List.length_cons] at h
          simp only [List.map_cons]
          by_cases h1 : 194 ≤ c0.toNat ∧ c0.toNat < 224
          · rw [if_pos h1, if_pos h1, blank_cont, ih l1 (by omega)]
          · rw [if_neg h1, if_neg h1]
            match l1, h with
            | [], _ => rfl
            | c2 :: l2, h =>
              rw [List.length_cons] at h
              simp only [List.map_cons]
              by_cases h2 : 224 ≤ c0.toNat ∧ c0.toNat < 240
              · rw [if_pos h2, if_pos h2, blank_cont, blank_cont, ih l2 (by omega)]
                cases hc : isCont c1 with
                | false => simp
                | true => rw [cont_big hc]
              · rw [if_neg h2, if_neg h2]
                match l2, h with
                | [], _ => rfl
                | c3 :: l3, h =>
                  rw [List.length_cons] at h
                  simp only [List.map_cons]
                  rw [blank_cont, blank_cont, blank_cont, ih l3 (by omega)]
                  cases hc : isCont c1 with
                  | false => simp
                  | true => rw [cont_big hc]

theorem parseLine_blank (ft : FloatText fo) (face : PushFace fo.F) (b : Build) (line : List UInt8) (oi : Importer fo.F) :
    parseLine ft face b (line.map blank) oi = parseLine ft face b line oi := by
  rw [parseLine, parseLine, validUtf8_blank _ line le_rfl, splitBytes_words]

theorem readObjLoop_blank (ft : FloatText fo) (face : PushFace fo.F) (b : Build) : ∀ (lines : List (List UInt8)) (oi : Importer fo.F),
    readObjLoop ft face b (lines.map (List.map blank)) oi = readObjLoop ft face b lines oi
  | [], _ => rfl
  | line :: rest, oi => by
    rw [List.map_cons, readObjLoop, readObjLoop, parseLine_blank]
    congr 1
    funext ⟨m, oi'⟩
    dsimp only
    rw [readObjLoop_blank ft face b rest]

/-! ### The lines after some text -/

theorem textLinesAux_prefix : ∀ (p cur : List UInt8), ∃ ls, ∀ t, textLinesAux cur (p ++ 10 :: t) = ls ++ textLinesAux [] t
  | [], cur => ⟨[stripCr cur], fun t => by rw [List.nil_append, textLinesAux, if_pos rfl]; rfl⟩
  | c :: p, cur => by
    by_cases h : c = 10
    · obtain ⟨ls, hl⟩ := textLinesAux_prefix p []
      refine ⟨stripCr cur :: ls, fun t => ?_⟩
      rw [List.cons_append, textLinesAux, if_pos h, hl, List.cons_append]
    · obtain ⟨ls, hl⟩ := textLinesAux_prefix p (cur ++ [c])
      refine ⟨ls, fun t => ?_⟩
      rw [List.cons_append, textLinesAux, if_neg h, hl]

theorem readObjLoop_congr (ft : FloatText fo) (face : PushFace fo.F) (b : Build) {l l' : List (List UInt8)}
    (h : ∀ oi, readObjLoop ft face b l oi = readObjLoop ft face b l' oi) : ∀ (pre : List (List UInt8)) (oi : Importer fo.F),
    readObjLoop ft face b (pre ++ l) oi = readObjLoop ft face b (pre ++ l') oi
  | [], oi => h oi
  | line :: pre, oi => by
    rw [List.cons_append, List.cons_append, readObjLoop, readObjLoop]
    congr 1
    funext ⟨m, oi'⟩
    dsimp only
    rw [readObjLoop_congr ft face b h pre]

/-! ### Refused meshes -/

theorem lengthFits_iff (a : Option (List Nat)) (len : Nat) : lengthFits a len = false ↔ ∃ l, a = some l ∧ l.length ≠ len := by
  cases a with
  | none => simp [lengthFits]
  | some l => simp [lengthFits]

theorem facesText_wrapping (v : List Nat) (u n : Option (List Nat)) (o : Nat × Nat × Nat) (hu : lengthFits u v.length = true)
    (hn : lengthFits n v.length = true) : ∀ (is : List Nat), (∀ i ∈ is, i < v.length) → ∃ t, facesText .wrapping v u n o is = .ok t
  | [], _ => ⟨[], rfl⟩
  | i :: is, h => by
    obtain ⟨t, ht⟩ := facesText_wrapping v u n o hu hn is fun j hj => h j (List.mem_cons_of_mem _ hj)
    have hi := h i List.mem_cons_self
    have add : ∀ x y, ∃ z, addU32 .wrapping x y = .ok z := by
      intro x y
      rw [addU32]
      split_ifs
      · exact ⟨_, rfl⟩
      · exact ⟨_, rfl⟩
    have hut : ∃ t, uvText .wrapping u n o.2.1 i = .ok t := by
      cases u with
      | none => exact ⟨_, rfl⟩
      | some u =>
        simp only [lengthFits, beq_iff_eq] at hu
        obtain ⟨z, hz⟩ := add (u.getD i 0) o.2.1
        rw [uvText, indexAt_ok (by omega)]
        simp only [bind, Outcome.bind, hz]
        exact ⟨_, rfl⟩
    have hnt : ∃ t, normalText .wrapping n o.2.2 i = .ok t := by
      cases n with
      | none => exact ⟨_, rfl⟩
      | some n =>
        simp only [lengthFits, beq_iff_eq] at hn
        obtain ⟨z, hz⟩ := add (n.getD i 0) o.2.2
        rw [normalText, indexAt_ok (by omega)]
        simp only [bind, Outcome.bind, hz]
        exact ⟨_, rfl⟩
    obtain ⟨t1, h1⟩ := hut
    obtain ⟨t2, h2⟩ := hnt
    obtain ⟨z, hz⟩ := add (v.getD i 0) o.1
    rw [facesText, indexAt_ok hi]
    simp only [bind, Outcome.bind, hz, h1, h2, ht]
    exact ⟨_, rfl⟩

/-- Release builds refuse a mesh exactly if its arrays do not belong together. -/
theorem saveObj_wrapping (ft : FloatText fo) (m : Mesh fo.F) (o : Nat × Nat × Nat) (name : List UInt8) :
    (Mismatched m ∧ saveObj ft .wrapping m o name = .err .other) ∨
    (¬ Mismatched m ∧ ∃ r, saveObj ft .wrapping m o name = .ok r) := by
  unfold Mismatched saveObj
  cases hv : m.vertexTriangles with
  | none =>
    dsimp only
    by_cases h : m.normalTriangles.isSome ∨ m.uvTriangles.isSome
    · rw [if_pos h]
      refine .inl ⟨?_, rfl⟩
      rcases h with h | h
      · exact .inl (Option.isSome_iff_ne_none.mp h)
      · exact .inr (Option.isSome_iff_ne_none.mp h)
    · rw [if_neg h]
      refine .inr ⟨?_, _, rfl⟩
      push Not at h ⊢
      simpa using h
  | some v =>
    dsimp only
    by_cases hn : lengthFits m.normalTriangles v.length = true
    · by_cases hu : lengthFits m.uvTriangles v.length = true
      · rw [if_pos (by simp [hn, hu])]
        refine .inr ⟨?_, ?_⟩
        · rintro (h | h)
          · rw [(lengthFits_iff _ _).mpr h] at hn
            cases hn
          · rw [(lengthFits_iff _ _).mpr h] at hu
            cases hu
        · obtain ⟨t, ht⟩ := facesText_wrapping v m.uvTriangles m.normalTriangles o hu hn (List.range v.length)
            (fun i hi => List.mem_range.mp hi)
          rw [ht]
          exact ⟨_, rfl⟩
      · rw [if_neg (by simp [hu])]
        exact .inl ⟨.inr ((lengthFits_iff _ _).mp (Bool.eq_false_iff.mpr hu)), rfl⟩
    · rw [if_neg (by simp [hn])]
      exact .inl ⟨.inl ((lengthFits_iff _ _).mp (Bool.eq_false_iff.mpr hn)), rfl⟩

theorem addU32_wrapping (x y : Nat) : ∃ z, addU32 .wrapping x y = .ok z := by
  rw [addU32]
  split_ifs
  · exact ⟨_, rfl⟩
  · exact ⟨_, rfl⟩

theorem writeObjLoop_wrapping (ft : FloatText fo) : ∀ (meshes : List (Mesh fo.F × List UInt8)) (o : Nat × Nat × Nat),
    ((∃ m ∈ meshes, Mismatched m.1) ∧ writeObjLoop ft .wrapping meshes o = .err .other) ∨
    ((∀ m ∈ meshes, ¬ Mismatched m.1) ∧ ∃ t, writeObjLoop ft .wrapping meshes o = .ok t)
  | [], o => .inr ⟨by simp, _, rfl⟩
  | (m, name) :: rest, o => by
    rw [writeObjLoop]
    rcases saveObj_wrapping ft m o name with ⟨hm, h⟩ | ⟨hm, ⟨text, c⟩, h⟩
    · rw [h]
      exact .inl ⟨⟨_, List.mem_cons_self, hm⟩, rfl⟩
    · obtain ⟨o0, h0⟩ := addU32_wrapping o.1 c.1
      obtain ⟨o1, h1⟩ := addU32_wrapping o.2.1 c.2.1
      obtain ⟨o2, h2⟩ := addU32_wrapping o.2.2 c.2.2
      rw [h]
      simp only [bind, Outcome.bind, h0, h1, h2]
      rcases writeObjLoop_wrapping ft rest (o0, o1, o2) with ⟨⟨x, hx, hxm⟩, hr⟩ | ⟨hall, t, hr⟩
      · rw [hr]
        exact .inl ⟨⟨x, List.mem_cons_of_mem _ hx, hxm⟩, rfl⟩
      · rw [hr]
        refine .inr ⟨?_, _, rfl⟩
        intro x hx
        rcases List.mem_cons.mp hx with rfl | hx
        · exact hm
        · exact hall x hx

/-- A debug build does the same as a release build or panics. -/
def Sub {ε α : Type} (x y : Outcome ε α) : Prop := x = .panic ∨ x = y

theorem Sub.bind {ε α β : Type} {x y : Outcome ε α} {f g : α → Outcome ε β} (h : Sub x y) (hf : ∀ a, Sub (f a) (g a)) :
    Sub (x >>= f) (y >>= g) := by
  rcases h with rfl | rfl
  · exact .inl rfl
  · cases x with
    | ok a => exact hf a
    | err e => exact .inr rfl
    | panic => exact .inl rfl

theorem Sub.refl {ε α : Type} (x : Outcome ε α) : Sub x x := .inr rfl

theorem addU32_sub (x y : Nat) : Sub (addU32 .checked x y) (addU32 .wrapping x y) := by
  rw [addU32, addU32]
  split_ifs
  · exact .refl _
  · exact .inl rfl

theorem uvText_sub (u n : Option (List Nat)) (o i : Nat) : Sub (uvText .checked u n o i) (uvText .wrapping u n o i) := by
  cases u with
  | none => exact .refl _
  | some u => exact (Sub.refl _).bind fun _ => (addU32_sub _ _).bind fun _ => .refl _

theorem normalText_sub (n : Option (List Nat)) (o i : Nat) : Sub (normalText .checked n o i) (normalText .wrapping n o i) := by
  cases n with
  | none => exact .refl _
  | some n => exact (Sub.refl _).bind fun _ => (addU32_sub _ _).bind fun _ => .refl _

theorem facesText_sub (v : List Nat) (u n : Option (List Nat)) (o : Nat × Nat × Nat) : ∀ (is : List Nat),
    Sub (facesText .checked v u n o is) (facesText .wrapping v u n o is)
  | [] => .refl _
  | i :: is => by
    rw [facesText, facesText]
    exact (Sub.refl _).bind fun _ => (addU32_sub _ _).bind fun _ => (uvText_sub _ _ _ _).bind fun _ =>
      (normalText_sub _ _ _).bind fun _ => (facesText_sub v u n o is).bind fun _ => .refl _

theorem saveObj_sub (ft : FloatText fo) (m : Mesh fo.F) (o : Nat × Nat × Nat) (name : List UInt8) :
    Sub (saveObj ft .checked m o name) (saveObj ft .wrapping m o name) := by
  rw [saveObj, saveObj]
  cases m.vertexTriangles with
  | none => exact .refl _
  | some v =>
    dsimp only
    split_ifs
    · exact (facesText_sub _ _ _ _ _).bind fun _ => .refl _
    · exact .refl _

theorem writeObjLoop_sub (ft : FloatText fo) : ∀ (meshes : List (Mesh fo.F × List UInt8)) (o : Nat × Nat × Nat),
    Sub (writeObjLoop ft .checked meshes o) (writeObjLoop ft .wrapping meshes o)
  | [], _ => .refl _
  | (m, name) :: rest, o => by
    rw [writeObjLoop, writeObjLoop]
    exact (saveObj_sub ft m o name).bind fun _ => (addU32_sub _ _).bind fun _ => (addU32_sub _ _).bind fun _ =>
      (addU32_sub _ _).bind fun _ => (writeObjLoop_sub ft rest _).bind fun _ => .refl _

end Tmf
