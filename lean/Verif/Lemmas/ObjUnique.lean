import Verif.Lemmas.ObjRead
/-
The text of a file determines its lines.
-/

namespace Tmf
open Spec

variable {fo : FloatOps}

theorem sep_inj {s : UInt8} : ∀ {a b r r' : List UInt8}, (∀ c ∈ a, c ≠ s) → (∀ c ∈ b, c ≠ s) →
    a ++ s :: r = b ++ s :: r' → a = b ∧ r = r'
  | [], [], r, r', _, _, h => ⟨rfl, (List.cons.inj h).2⟩
  | [], c :: b, r, r', _, hb, h => absurd (List.cons.inj h).1.symm (hb c List.mem_cons_self)
  | c :: a, [], r, r', ha, _, h => absurd (List.cons.inj h).1 (ha c List.mem_cons_self)
  | c :: a, d :: b, r, r', ha, hb, h => by
    obtain ⟨h1, h2⟩ := List.cons.inj h
    obtain ⟨h3, h4⟩ := sep_inj (fun x hx => ha x (List.mem_cons_of_mem _ hx)) (fun x hx => hb x (List.mem_cons_of_mem _ hx)) h2
    exact ⟨by rw [h1, h3], h4⟩

theorem sep_absent {s : UInt8} {a b r : List UInt8} (ha : ∀ c ∈ a, c ≠ s) (h : a = b ++ s :: r) : False :=
  ha s (by rw [h]; simp) rfl

theorem decimal_inj {m n : Nat} (hm : m < 2 ^ 32) (hn : n < 2 ^ 32) (h : decimal m = decimal n) : m = n := by
  have := parseU32_decimal hm
  rw [h, parseU32_decimal hn] at this
  exact (Option.some.inj this).symm

/-- Numbers fit. -/
def CornerFits (k : ObjCorner) : Prop := k.v < 2 ^ 32 ∧ (∀ u, k.u = some u → u < 2 ^ 32) ∧ ∀ n, k.n = some n → n < 2 ^ 32

theorem decimal_noSlash (n : Nat) : ∀ c ∈ decimal n, c ≠ 47 := fun c hc => (decimal_clean n c hc).2.2.1

theorem corner_inj {a b : ObjCorner} (ha : CornerFits a) (hb : CornerFits b) (h : a.render = b.render) : a = b := by
  obtain ⟨v, u, n⟩ := a
  obtain ⟨v', u', n'⟩ := b
  obtain ⟨h1, h2, h3⟩ := ha
  obtain ⟨k1, k2, k3⟩ := hb
  dsimp only at h1 h2 h3 k1 k2 k3
  have split := fun (r r' : List UInt8) => sep_inj (s := 47) (r := r) (r' := r') (decimal_noSlash v) (decimal_noSlash v')
  have nil : ∀ {x : Nat} {l : List UInt8}, decimal x = 47 :: l → False :=
    fun {x l} h => sep_absent (b := []) (decimal_noSlash x) h
  have nil' : ∀ {x : Nat} {l : List UInt8}, 47 :: l = decimal x → False := fun h => nil h.symm
  cases u with
  | none =>
    cases n with
    | none =>
      cases u' with
      | none =>
        cases n' with
        | none =>
          simp only [ObjCorner.render] at h
          rw [decimal_inj h1 k1 h]
        | some n' =>
          simp only [ObjCorner.render, List.append_assoc, List.cons_append, List.nil_append] at h
          exact (sep_absent (decimal_noSlash _) h).elim
      | some u' =>
        cases n' <;> simp only [ObjCorner.render, List.append_assoc, List.cons_append, List.nil_append] at h <;>
          exact (sep_absent (decimal_noSlash _) h).elim
    | some n =>
      cases u' with
      | none =>
        cases n' with
        | none =>
          simp only [ObjCorner.render, List.append_assoc, List.cons_append, List.nil_append] at h
          exact (sep_absent (decimal_noSlash _) h.symm).elim
        | some n' =>
          simp only [ObjCorner.render, List.append_assoc, List.cons_append, List.nil_append] at h
          obtain ⟨e1, e2⟩ := split _ _ h
          rw [decimal_inj h1 k1 e1, decimal_inj (h3 _ rfl) (k3 _ rfl) (List.cons.inj e2).2]
      | some u' =>
        cases n' with
        | none =>
          simp only [ObjCorner.render, List.append_assoc, List.cons_append, List.nil_append] at h
          obtain ⟨e1, e2⟩ := split _ _ h
          exact (nil' e2).elim
        | some n' =>
          simp only [ObjCorner.render, List.append_assoc, List.cons_append, List.nil_append] at h
          obtain ⟨e1, e2⟩ := split _ _ h
          have := sep_inj (a := []) (by simp) (decimal_noSlash _) e2
          exact absurd this.1.symm (decimal_ne_nil _)
  | some u =>
    cases n with
    | none =>
      cases u' with
      | none =>
        cases n' with
        | none =>
          simp only [ObjCorner.render, List.append_assoc, List.cons_append, List.nil_append] at h
          exact (sep_absent (decimal_noSlash _) h.symm).elim
        | some n' =>
          simp only [ObjCorner.render, List.append_assoc, List.cons_append, List.nil_append] at h
          obtain ⟨e1, e2⟩ := split _ _ h
          exact (nil e2).elim
      | some u' =>
        cases n' with
        | none =>
          simp only [ObjCorner.render, List.append_assoc, List.cons_append, List.nil_append] at h
          obtain ⟨e1, e2⟩ := split _ _ h
          rw [decimal_inj h1 k1 e1, decimal_inj (h2 _ rfl) (k2 _ rfl) e2]
        | some n' =>
          simp only [ObjCorner.render, List.append_assoc, List.cons_append, List.nil_append] at h
          obtain ⟨e1, e2⟩ := split _ _ h
          exact (sep_absent (decimal_noSlash _) e2).elim
    | some n =>
      cases u' with
      | none =>
        cases n' with
        | none =>
          simp only [ObjCorner.render, List.append_assoc, List.cons_append, List.nil_append] at h
          exact (sep_absent (decimal_noSlash _) h.symm).elim
        | some n' =>
          simp only [ObjCorner.render, List.append_assoc, List.cons_append, List.nil_append] at h
          obtain ⟨e1, e2⟩ := split _ _ h
          have := sep_inj (b := []) (decimal_noSlash _) (by simp) e2
          exact absurd this.1 (decimal_ne_nil _)
      | some u' =>
        cases n' with
        | none =>
          simp only [ObjCorner.render, List.append_assoc, List.cons_append, List.nil_append] at h
          obtain ⟨e1, e2⟩ := split _ _ h
          exact (sep_absent (decimal_noSlash _) e2.symm).elim
        | some n' =>
          simp only [ObjCorner.render, List.append_assoc, List.cons_append, List.nil_append] at h
          obtain ⟨e1, e2⟩ := split _ _ h
          obtain ⟨e3, e4⟩ := sep_inj (decimal_noSlash _) (decimal_noSlash _) e2
          rw [decimal_inj h1 k1 e1, decimal_inj (h2 _ rfl) (k2 _ rfl) e3, decimal_inj (h3 _ rfl) (k3 _ rfl) e4]

theorem corner_chars (k : ObjCorner) : ∀ c ∈ k.render, c ≠ 32 ∧ c ≠ 10 := by
  have hd : ∀ n, ∀ c ∈ decimal n, c ≠ 32 ∧ c ≠ 10 := fun n c hc => ⟨(decimal_clean n c hc).2.1, (decimal_clean n c hc).2.2.2.1⟩
  obtain ⟨v, u, n⟩ := k
  intro c hc
  cases u <;> cases n <;> simp only [ObjCorner.render, List.mem_append, List.mem_cons, List.not_mem_nil, or_false] at hc
  · exact hd _ c hc
  · rcases hc with (h | rfl | rfl) | h
    · exact hd _ c h
    · decide
    · decide
    · exact hd _ c h
  · rcases hc with (h | rfl) | h
    · exact hd _ c h
    · decide
    · exact hd _ c h
  · rcases hc with (((h | rfl) | h) | rfl) | h
    · exact hd _ c h
    · decide
    · exact hd _ c h
    · decide
    · exact hd _ c h

theorem print_inj {ft : FloatText fo} (hl : FloatTextLaws ft) {x y : fo.F} (hx : fo.isNaN x = false) (hy : fo.isNaN y = false)
    (h : ft.print x = ft.print y) : x = y := by
  have := hl.parse_print x hx
  rw [h, hl.parse_print y hy] at this
  exact (Option.some.inj this).symm

theorem print_noBlank {ft : FloatText fo} (hl : FloatTextLaws ft) (x : fo.F) : ∀ c ∈ ft.print x, c ≠ 32 :=
  fun c hc => (hl.clean x c hc).2.1

theorem three_inj {a b c a' b' c' : List UInt8} (ha : ∀ x ∈ a, x ≠ 32) (hb : ∀ x ∈ b, x ≠ 32)
    (ha' : ∀ x ∈ a', x ≠ 32) (hb' : ∀ x ∈ b', x ≠ 32)
    (h : a ++ 32 :: (b ++ 32 :: c) = a' ++ 32 :: (b' ++ 32 :: c')) : a = a' ∧ b = b' ∧ c = c' := by
  obtain ⟨e1, e2⟩ := sep_inj ha ha' h
  obtain ⟨e3, e4⟩ := sep_inj hb hb' e2
  exact ⟨e1, e3, e4⟩

theorem vec3_inj {ft : FloatText fo} (hl : FloatTextLaws ft) {x y : Vec3 fo.F}
    (hx : fo.isNaN x.1 = false ∧ fo.isNaN x.2.1 = false ∧ fo.isNaN x.2.2 = false)
    (hy : fo.isNaN y.1 = false ∧ fo.isNaN y.2.1 = false ∧ fo.isNaN y.2.2 = false)
    (h : ft.print x.1 ++ 32 :: (ft.print x.2.1 ++ 32 :: ft.print x.2.2) =
      ft.print y.1 ++ 32 :: (ft.print y.2.1 ++ 32 :: ft.print y.2.2)) : x = y := by
  obtain ⟨e1, e2, e3⟩ := three_inj (print_noBlank hl _) (print_noBlank hl _) (print_noBlank hl _) (print_noBlank hl _) h
  exact Prod.ext (print_inj hl hx.1 hy.1 e1) (Prod.ext (print_inj hl hx.2.1 hy.2.1 e2) (print_inj hl hx.2.2 hy.2.2 e3))

theorem render_inj {ft : FloatText fo} (hl : FloatTextLaws ft) {a b : ObjLine fo.F} (ha : a.Readable fo) (hb : b.Readable fo)
    (h : a.render ft = b.render ft) : a = b := by
  cases a <;> cases b <;>
    first
    | rfl
    | (simp [ObjLine.render, ascii] at h; done)
    | skip
  · simp only [ObjLine.render] at h
    rw [List.append_cancel_left h]
  · rw [render_vertex, render_vertex] at h
    rw [vec3_inj hl ha hb (List.cons.inj (List.append_cancel_left h)).2]
  · rw [render_normal, render_normal] at h
    rw [vec3_inj hl ha hb (List.cons.inj (List.append_cancel_left h)).2]
  · rw [render_uv, render_uv] at h
    obtain ⟨e1, e2⟩ := sep_inj (print_noBlank hl _) (print_noBlank hl _) (List.cons.inj (List.append_cancel_left h)).2
    rename_i x y
    have : x = y := Prod.ext (print_inj hl ha.1 hb.1 e1) (print_inj hl ha.2 hb.2 e2)
    rw [this]
  · rename_i a b c a' b' c'
    simp only [ObjLine.render, List.append_assoc, List.cons_append, List.nil_append] at h
    obtain ⟨e1, e2, e3⟩ := three_inj (fun x hx => (corner_chars _ x hx).1) (fun x hx => (corner_chars _ x hx).1)
      (fun x hx => (corner_chars _ x hx).1) (fun x hx => (corner_chars _ x hx).1) (List.append_cancel_left h)
    rw [corner_inj (ha a (by simp)) (hb a' (by simp)) e1, corner_inj (ha b (by simp)) (hb b' (by simp)) e2,
      corner_inj (ha c (by simp)) (hb c' (by simp)) e3]

theorem render_noFeed {ft : FloatText fo} (hl : FloatTextLaws ft) {a : ObjLine fo.F} (ha : a.Readable fo) :
    ∀ c ∈ a.render ft, c ≠ 10 := by
  cases a with
  | smooth => rw [ObjLine.render]; decide
  | object name =>
    rw [render_object]
    intro c hc
    rcases List.mem_append.mp hc with hc | hc
    · exact (cleanWord_o c hc).2.2.2.1
    · rcases List.mem_cons.mp hc with rfl | hc
      · decide
      · exact ha c hc
  | vertex x => exact fun c hc => (vertex_chars hl x c hc).2.1
  | normal x => exact fun c hc => (normal_chars hl x c hc).2.1
  | uv x => exact fun c hc => (uv_chars hl x c hc).2.1
  | face x y z =>
    intro c hc
    simp only [ObjLine.render, List.mem_append, List.mem_singleton] at hc
    rcases hc with ((((hc | hc) | rfl) | hc) | rfl) | hc
    · revert c; decide
    · exact (corner_chars _ c hc).2
    · decide
    · exact (corner_chars _ c hc).2
    · decide
    · exact (corner_chars _ c hc).2

theorem objText_inj {ft : FloatText fo} (hl : FloatTextLaws ft) : ∀ {a b : List (ObjLine fo.F)},
    (∀ l ∈ a, l.Readable fo) → (∀ l ∈ b, l.Readable fo) → objText ft a = objText ft b → a = b
  | [], [], _, _, _ => rfl
  | [], l :: b, _, _, h => by simp [objText] at h
  | l :: a, [], _, _, h => by simp [objText] at h
  | l :: a, l' :: b, ha, hb, h => by
    have e : ∀ (l : ObjLine fo.F) a, objText ft (l :: a) = l.render ft ++ 10 :: objText ft a := fun l a => by simp [objText]
    rw [e, e] at h
    obtain ⟨e1, e2⟩ := sep_inj (render_noFeed hl (ha l List.mem_cons_self)) (render_noFeed hl (hb l' List.mem_cons_self)) h
    rw [render_inj hl (ha l List.mem_cons_self) (hb l' List.mem_cons_self) e1,
      objText_inj hl (fun x hx => ha x (List.mem_cons_of_mem _ hx)) (fun x hx => hb x (List.mem_cons_of_mem _ hx)) e2]

/-- The lines written are readable. -/
theorem wmesh_readable (m : Mesh fo.F) (name : List UInt8) (o : Nat × Nat × Nat) (hm : HasFaces m) (hn : NoNaN fo m)
    (hname : ∀ c ∈ name, c ≠ 10) (h0 : o.1 + (m.vertices.getD []).length < 2 ^ 32)
    (h1 : o.2.1 + (m.uvs.getD []).length < 2 ^ 32) (h2 : o.2.2 + (m.normals.getD []).length < 2 ^ 32) :
    ∀ l ∈ wmesh m name o, l.Readable fo := by
  obtain ⟨v, ev, h3, hr⟩ := hm.vertices
  obtain ⟨n1, n2, n3⟩ := hn
  have gn := hm.normals
  have gu := hm.uvs
  intro l hl
  simp only [ev, Option.getD_some] at gn gu
  simp only [wmesh, wdata, wfaces, List.cons_append, List.mem_cons, List.mem_append, List.mem_map, ev, Option.getD_some] at hl
  rcases hl with rfl | (⟨x, hx, rfl⟩ | ⟨x, hx, rfl⟩ | ⟨x, hx, rfl⟩) | ⟨t, ht, rfl⟩
  · exact hname
  · exact n1 x hx
  · exact n2 x hx
  · exact n3 x hx
  · rw [List.mem_range] at ht
    have key : ∀ i < v.length, CornerFits (wcorner v m.uvTriangles m.normalTriangles o i) := by
      intro i hi
      refine ⟨by have := getD_lt hr hi; simp only [wcorner]; omega, ?_, ?_⟩
      · intro u hu
        obtain ⟨t, ht, rfl⟩ := Option.map_eq_some_iff.mp hu
        have := getD_lt (gu t ht).2 (i := i) (by have := (gu t ht).1; omega)
        omega
      · intro u hu
        obtain ⟨t, ht, rfl⟩ := Option.map_eq_some_iff.mp hu
        have := getD_lt (gn t ht).2 (i := i) (by have := (gn t ht).1; omega)
        omega
    intro k hk
    simp only [List.mem_cons, List.not_mem_nil, or_false] at hk
    rcases hk with rfl | rfl | rfl
    · exact key _ (by omega)
    · exact key _ (by omega)
    · exact key _ (by omega)

theorem wmeshes_readable : ∀ (meshes : List (Mesh fo.F × List UInt8)) (o : Nat × Nat × Nat),
    (∀ m ∈ meshes, HasFaces m.1 ∧ NoNaN fo m.1 ∧ ∀ c ∈ m.2, c ≠ 10) →
    o.1 + (meshes.map fun m => (m.1.vertices.getD []).length).sum < 2 ^ 32 →
    o.2.1 + (meshes.map fun m => (m.1.uvs.getD []).length).sum < 2 ^ 32 →
    o.2.2 + (meshes.map fun m => (m.1.normals.getD []).length).sum < 2 ^ 32 →
    ∀ l ∈ wmeshes meshes o, l.Readable fo
  | [], _, _, _, _, _, l, h => by simp [wmeshes] at h
  | (m, name) :: rest, o, hm, h0, h1, h2, l, h => by
    simp only [List.map_cons, List.sum_cons] at h0 h1 h2
    rw [wmeshes] at h
    obtain ⟨g1, g2, g3⟩ := hm _ List.mem_cons_self
    rcases List.mem_append.mp h with h | h
    · exact wmesh_readable m name o g1 g2 g3 (by omega) (by omega) (by omega) l h
    · exact wmeshes_readable rest (nextOffset m o) (fun x hx => hm x (List.mem_cons_of_mem _ hx))
        (by simp only [nextOffset]; omega) (by simp only [nextOffset]; omega) (by simp only [nextOffset]; omega) l h

/-! ### Short faces -/

theorem wmesh_clean_all {ft : FloatText fo} (hl : FloatTextLaws ft) (m : Mesh fo.F) (name : List UInt8) (o : Nat × Nat × Nat)
    (hn : ObjName name) : ∀ l ∈ wmesh m name o, CleanLine (ObjLine.render ft l) := by
  intro l h
  simp only [wmesh, wdata, wfaces, List.cons_append, List.mem_cons, List.mem_append, List.mem_map] at h
  rcases h with rfl | (⟨x, _, rfl⟩ | ⟨x, _, rfl⟩ | ⟨x, _, rfl⟩) | ⟨t, _, rfl⟩
  · exact object_valid ft hn
  · exact cleanLine_of_chars (vertex_chars hl x)
  · exact cleanLine_of_chars (normal_chars hl x)
  · exact cleanLine_of_chars (uv_chars hl x)
  · apply cleanLine_of_chars
    have hc : ∀ k : ObjCorner, ∀ c ∈ k.render, c.toNat < 128 ∧ c ≠ 10 ∧ c ≠ 13 := by
      intro ⟨v, u, n⟩ c hc
      have hd := fun n => (decimal_clean n).line
      cases u <;> cases n <;> simp only [ObjCorner.render, List.mem_append, List.mem_cons, List.not_mem_nil, or_false] at hc
      · exact hd _ c hc
      · rcases hc with (h | rfl | rfl) | h
        · exact hd _ c h
        · decide
        · decide
        · exact hd _ c h
      · rcases hc with (h | rfl) | h
        · exact hd _ c h
        · decide
        · exact hd _ c h
      · rcases hc with (((h | rfl) | h) | rfl) | h
        · exact hd _ c h
        · decide
        · exact hd _ c h
        · decide
        · exact hd _ c h
    intro c h
    simp only [ObjLine.render, List.mem_append, List.mem_singleton] at h
    rcases h with ((((h | h) | rfl) | h) | rfl) | h
    · revert c; decide
    · exact hc _ c h
    · decide
    · exact hc _ c h
    · decide
    · exact hc _ c h

theorem readObjLoop_lines (ft : FloatText fo) (face : PushFace fo.F) (b : Build) : ∀ (lines : List (List UInt8)) (oi : Importer fo.F)
    (ms : List (Mesh fo.F × List UInt8)), readObjLoop ft face b lines oi = .ok ms → ∀ l ∈ lines, ∃ oi r, parseLine ft face b l oi = .ok r
  | [], _, _, _, l, hl => by simp at hl
  | line :: rest, oi, ms, h, l, hl => by
    rw [readObjLoop] at h
    cases hp : parseLine ft face b line oi with
    | panic => rw [hp] at h; cases h
    | err e => rw [hp] at h; cases h
    | ok r =>
      rcases List.mem_cons.mp hl with rfl | hl
      · exact ⟨oi, r, hp⟩
      · rw [hp] at h
        simp only [bind, Outcome.bind] at h
        cases hr : readObjLoop ft face b rest r.2 with
        | panic => rw [hr] at h; cases h
        | err e => rw [hr] at h; cases h
        | ok ms' => exact readObjLoop_lines ft face b rest r.2 ms' hr l hl

theorem splitBytes_corner (k : ObjCorner) (hn : k.n = none) (rest : List UInt8) :
    ∃ ws, ws.length ≤ 2 ∧ splitBytes isObjSep (k.render ++ 32 :: rest) = ws ++ splitBytes isObjSep rest := by
  obtain ⟨v, u, n⟩ := k
  dsimp only at hn
  subst hn
  cases u with
  | none =>
    refine ⟨[decimal v], by simp, ?_⟩
    simp only [ObjCorner.render]
    rw [splitBytes_sep (decimal_clean _).seps (.inl rfl)]
    rfl
  | some u =>
    refine ⟨[decimal v, decimal u], by simp, ?_⟩
    simp only [ObjCorner.render, List.append_assoc, List.cons_append, List.nil_append]
    rw [splitBytes_sep (decimal_clean _).seps (.inr rfl), splitBytes_sep (decimal_clean _).seps (.inl rfl)]

theorem splitBytes_last_corner (k : ObjCorner) (hn : k.n = none) : (splitBytes isObjSep k.render).length ≤ 2 := by
  obtain ⟨v, u, n⟩ := k
  dsimp only at hn
  subst hn
  cases u with
  | none =>
    simp only [ObjCorner.render]
    rw [splitBytes_clean (decimal_clean _).seps]
    simp
  | some u =>
    simp only [ObjCorner.render, List.append_assoc, List.cons_append, List.nil_append]
    rw [splitBytes_sep (decimal_clean _).seps (.inr rfl), splitBytes_clean (decimal_clean _).seps]
    simp

/-- A face without normals has at most six numbers, which are taken for two corners. -/
theorem parseLine_short_face (ft : FloatText fo) (b : Build) (x y z : ObjCorner) (hx : x.n = none) (hy : y.n = none) (hz : z.n = none)
    (oi : Importer fo.F) (hv : validUtf8 (ObjLine.render ft (.face x y z)) = true)
    (r : Option (Mesh fo.F × List UInt8) × Importer fo.F) :
    parseLine ft Importer.pushFace b (ObjLine.render ft (.face x y z)) oi ≠ .ok r := by
  have e1 : ascii "f" ≠ ascii "v" := by decide
  have e2 : ascii "f" ≠ ascii "vn" := by decide
  have e3 : ascii "f" ≠ ascii "vt" := by decide
  have hs : ∃ ws, ws.length ≤ 6 ∧ splitBytes isObjSep (ObjLine.render ft (.face x y z)) = ascii "f" :: ws := by
    have er : ObjLine.render ft (.face x y z) = ascii "f" ++ 32 :: (x.render ++ 32 :: (y.render ++ 32 :: z.render)) := by
      simp [ObjLine.render, ascii]
    obtain ⟨w1, l1, s1⟩ := splitBytes_corner x hx (y.render ++ 32 :: z.render)
    obtain ⟨w2, l2, s2⟩ := splitBytes_corner y hy z.render
    have l3 := splitBytes_last_corner z hz
    refine ⟨w1 ++ (w2 ++ splitBytes isObjSep z.render), ?_, ?_⟩
    · simp only [List.length_append]
      omega
    · rw [er, splitBytes_sep cleanWord_f.seps (.inl rfl), s1, s2]
  obtain ⟨ws, hlen, hs⟩ := hs
  rw [parseLine, if_pos hv, hs]
  simp only [nextWord, bind, Outcome.bind, parseWords, if_neg e1, if_neg e2, if_neg e3, if_true, loadFace]
  obtain ⟨⟨v, u, n⟩, hr, hl⟩ := loadFaceLoop_length (ws.length + 1) ws [] [] [] (by omega)
  rw [hr]
  simp only [List.length_nil] at hl ⊢
  rw [Importer.pushFace, Importer.pushFaceWith]
  split_ifs with c1 c2 c3
  · nofun
  · omega
  · nofun
  · nofun

end Tmf
