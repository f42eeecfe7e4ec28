import Verif.Model.IndexWidthObjIo
import Verif.Lemmas.ObjIo
import Verif.Lemmas.IndexWidthObj
import Verif.Spec.ObjIo
import Verif.Spec.ObjExport
/-
Buffered .obj text for other types of indices.
-/

namespace Tmf

open Tmf.Spec

variable {fo : FloatOps}

theorem cornerOutIn_out (w : Nat) (b : Build) (v : List Nat) (u n : Option (List Nat)) (offset : Nat × Nat × Nat) (i : Nat) :
    (cornerOutIn w b v u n offset i).out = (do
      let x ← indexAt v i
      let x ← addUIntIn w b x offset.1
      let ut ← uvTextIn w b u n offset.2.1 i
      let nt ← normalTextIn w b n offset.2.2 i
      .ok ((), (if i % 3 = 0 then ascii "f " else []) ++ decimal x ++ ut ++ nt ++ (if i % 3 = 2 then [10] else [32]))) := by
  have hu : (uvOutIn w b u n offset.2.1 i).out = uvTextIn w b u n offset.2.1 i >>= fun t => .ok ((), t) := by
    rw [uvOutIn.eq_def, uvTextIn.eq_def]
    cases u with
    | none => rw [TextOut.out_writeIf]; rfl
    | some u =>
      dsimp only
      rw [TextOut.out_bind, TextOut.out_compute, shiftedIndexIn]
      cases indexAt u i with
      | ok x =>
        simp only [Outcome.bind_ok]
        cases addUIntIn w b x offset.2.1 with
        | ok y => simp only [Outcome.bind_ok, TextOut.out_write, List.nil_append]
        | err e => rfl
        | panic => rfl
      | err e => rfl
      | panic => rfl
  have hn : (normalOutIn w b n offset.2.2 i).out = normalTextIn w b n offset.2.2 i >>= fun t => .ok ((), t) := by
    rw [normalOutIn.eq_def, normalTextIn.eq_def]
    cases n with
    | none => rfl
    | some u =>
      dsimp only
      rw [TextOut.out_bind, TextOut.out_compute, shiftedIndexIn]
      cases indexAt u i with
      | ok x =>
        simp only [Outcome.bind_ok]
        cases addUIntIn w b x offset.2.2 with
        | ok y => simp only [Outcome.bind_ok, TextOut.out_write, List.nil_append]
        | err e => rfl
        | panic => rfl
      | err e => rfl
      | panic => rfl
  rw [cornerOutIn, TextOut.out_bind, TextOut.out_writeIf, Outcome.bind_ok, TextOut.out_bind, TextOut.out_compute, shiftedIndexIn]
  cases indexAt v i with
  | ok x =>
    simp only [Outcome.bind_ok]
    cases addUIntIn w b x offset.1 with
    | ok y =>
      simp only [Outcome.bind_ok]
      rw [TextOut.out_bind, TextOut.out_write, Outcome.bind_ok, TextOut.out_bind, hu]
      cases uvTextIn w b u n offset.2.1 i with
      | ok t =>
        simp only [Outcome.bind_ok]
        rw [TextOut.out_bind, hn]
        cases normalTextIn w b n offset.2.2 i with
        | ok t' =>
          simp only [Outcome.bind_ok]
          rw [TextOut.out_write]
          simp only [Outcome.bind_ok, List.nil_append, List.append_assoc, beq_iff_eq]
        | err e => rfl
        | panic => rfl
      | err e => rfl
      | panic => rfl
    | err e => rfl
    | panic => rfl
  | err e => rfl
  | panic => rfl

theorem cornersIn_out (w : Nat) (b : Build) (v : List Nat) (u n : Option (List Nat)) (offset : Nat × Nat × Nat) : ∀ l : List Nat,
    (TextOut.forEach (cornerOutIn w b v u n offset) l).out = facesTextIn w b v u n offset l >>= fun t => .ok ((), t)
  | [] => rfl
  | i :: l => by
    rw [TextOut.forEach, TextOut.out_bind, cornerOutIn_out, facesTextIn]
    cases indexAt v i with
    | ok x =>
      simp only [Outcome.bind_ok]
      cases addUIntIn w b x offset.1 with
      | ok y =>
        simp only [Outcome.bind_ok]
        cases uvTextIn w b u n offset.2.1 i with
        | ok t =>
          simp only [Outcome.bind_ok]
          cases normalTextIn w b n offset.2.2 i with
          | ok t' =>
            simp only [Outcome.bind_ok]
            rw [cornersIn_out w b v u n offset l]
            cases facesTextIn w b v u n offset l <;> rfl
          | err e => rfl
          | panic => rfl
        | err e => rfl
        | panic => rfl
      | err e => rfl
      | panic => rfl
    | err e => rfl
    | panic => rfl

theorem saveObjOutIn_out (w : Nat) (ft : FloatText fo) (b : Build) (m : Mesh fo.F) (offset : Nat × Nat × Nat) (name : List UInt8) :
    (saveObjOutIn w ft b m offset name).out = saveObjIn w ft b m offset name >>= fun p => .ok (p.2, p.1) := by
  obtain ⟨pre, hpre, e⟩ := meshOut_eq ft m name (facesOutIn w b m offset)
  rw [saveObjOutIn, e, saveObjIn.eq_def, facesOutIn.eq_def]
  cases m.vertexTriangles with
  | none =>
    dsimp only
    split
    · rfl
    · simp only [TextOut.out, Outcome.bind_ok, List.append_nil, hpre]
  | some v =>
    dsimp only
    split
    · have hc := cornersIn_out w b v m.uvTriangles m.normalTriangles offset (List.range v.length)
      generalize TextOut.forEach (cornerOutIn w b v m.uvTriangles m.normalTriangles offset) (List.range v.length) = o at hc
      obtain ⟨ts, r⟩ := o
      rw [TextOut.out] at hc
      rw [TextOut.bind_def, TextOut.bind]
      cases r with
      | ok u =>
        cases hf : facesTextIn w b v m.uvTriangles m.normalTriangles offset (List.range v.length) with
        | ok t =>
          rw [hf] at hc
          simp only [Outcome.bind_ok, Outcome.ok.injEq, Prod.mk.injEq, true_and] at hc
          simp only [TextOut.out, Outcome.bind_ok, List.flatten_append, hpre, hc]
          simp [pure]
        | err e => rw [hf] at hc; cases hc
        | panic => rw [hf] at hc; cases hc
      | err e =>
        cases hf : facesTextIn w b v m.uvTriangles m.normalTriangles offset (List.range v.length) with
        | ok t => rw [hf] at hc; cases hc
        | err e => rw [hf] at hc; cases hc; rfl
        | panic => rw [hf] at hc; cases hc
      | panic =>
        cases hf : facesTextIn w b v m.uvTriangles m.normalTriangles offset (List.range v.length) with
        | ok t => rw [hf] at hc; cases hc
        | err e => rw [hf] at hc; cases hc
        | panic => rfl
    · rfl

theorem writeObjLoopOutIn_out (w : Nat) (ft : FloatText fo) (b : Build) : ∀ (meshes : List (Mesh fo.F × List UInt8)) (offset : Nat × Nat × Nat),
    (writeObjLoopOutIn w ft b meshes offset).out = writeObjLoopIn w ft b meshes offset >>= fun t => .ok ((), t)
  | [], _ => rfl
  | (m, name) :: rest, offset => by
    rw [writeObjLoopOutIn, writeObjLoopIn, TextOut.out_bind, saveObjOutIn_out]
    cases saveObjIn w ft b m offset name with
    | ok p =>
      simp only [Outcome.bind_ok]
      rw [TextOut.out_bind, TextOut.out_compute, addOffsetsIn]
      cases addUIntIn w b offset.1 p.2.1 with
      | ok o0 =>
        simp only [Outcome.bind_ok]
        cases addUIntIn w b offset.2.1 p.2.2.1 with
        | ok o1 =>
          simp only [Outcome.bind_ok]
          cases addUIntIn w b offset.2.2 p.2.2.2 with
          | ok o2 =>
            simp only [Outcome.bind_ok]
            rw [writeObjLoopOutIn_out w ft b rest]
            cases writeObjLoopIn w ft b rest (o0, o1, o2) <;> rfl
          | err e => rfl
          | panic => rfl
        | err e => rfl
        | panic => rfl
      | err e => rfl
      | panic => rfl
    | err e => rfl
    | panic => rfl

theorem writeObjOutIn_out (w : Nat) (ft : FloatText fo) (b : Build) (meshes : List (Mesh fo.F × List UInt8)) :
    (writeObjOutIn w ft b meshes).out = writeObjIn w ft b meshes >>= fun t => .ok ((), t) := by
  rw [writeObjOutIn, writeObjIn, TextOut.out_bind, TextOut.out_write, Outcome.bind_ok, writeObjLoopOutIn_out]
  cases writeObjLoopIn w ft b meshes (1, 1, 1) <;> rfl

/-- A reader that does not fail: only the text matters. -/
theorem readObjLinesIn_eq (w : Nat) (ft : FloatText fo) (face : PushFace fo.F) (b : Build) : ∀ (fuel : Nat) (r : BufReader) (oi : Importer fo.F),
    r.pending.length < fuel → r.src.broken = false →
    readObjLinesIn w ft face b fuel r oi = readObjLoopIn w ft face b (textLines r.pending) oi
  | 0, _, _, h, _ => absurd h (by omega)
  | fuel + 1, r, oi, h, hb => by
    rw [readObjLinesIn]
    rcases readUntil_spec (r.pending.length + 1) [] r (by omega) with
      ⟨p, rest, r', h1, h2, h3, h4, h5⟩ | ⟨h1, h2, r', h3, h4, h5⟩ | ⟨h1, h2, h3⟩
    · rw [h3, List.nil_append, h1, textLines, textLinesAux_cut _ _ _ h2, readObjLoopIn]
      dsimp only
      rw [if_neg (by simp), stripLine_line, List.nil_append]
      have hlen : rest.length < fuel := by rw [h1] at h; simp only [List.length_append, List.length_cons] at h; omega
      cases parseLineIn w ft face b (stripCr p) oi with
      | ok v =>
        simp only [Outcome.bind_ok]
        rw [readObjLinesIn_eq w ft face b fuel r' v.2 (by rw [h4]; exact hlen) (by rw [h5, hb]), h4]
        rfl
      | err e => rfl
      | panic => rfl
    · rw [h3, List.nil_append, textLines, textLinesAux_end _ _ h1, List.nil_append]
      dsimp only
      split
      · rfl
      · next hne =>
        rw [stripLine_end h1, readObjLoopIn]
        cases parseLineIn w ft face b r.pending oi with
        | ok v =>
          simp only [Outcome.bind_ok]
          have hpos := List.length_pos_iff.mpr hne
          rw [readObjLinesIn_eq w ft face b fuel r' v.2 (by rw [h4]; simp only [List.length_nil]; omega) h5, h4]
          rfl
        | err e => rfl
        | panic => rfl
    · rw [hb] at h2; cases h2

/-- A reader that fails after its last byte: the result is the error of the reader, or what any text with
this beginning gives, which is not a success. -/
theorem readObjLinesIn_broken (w : Nat) (ft : FloatText fo) (face : PushFace fo.F) (b : Build) : ∀ (fuel : Nat) (r : BufReader) (oi : Importer fo.F),
    r.pending.length < fuel → r.src.broken = true →
    readObjLinesIn w ft face b fuel r oi = .err .device ∨
      (∀ out, readObjLinesIn w ft face b fuel r oi ≠ .ok out) ∧
      ∀ more, readObjLoopIn w ft face b (textLines (r.pending ++ more)) oi = readObjLinesIn w ft face b fuel r oi
  | 0, _, _, h, _ => absurd h (by omega)
  | fuel + 1, r, oi, h, hb => by
    rw [readObjLinesIn]
    rcases readUntil_spec (r.pending.length + 1) [] r (by omega) with
      ⟨p, rest, r', h1, h2, h3, h4, h5⟩ | ⟨h1, h2, r', h3, h4, h5⟩ | ⟨h1, h2, h3⟩
    · rw [h3, List.nil_append, h1]
      dsimp only
      rw [if_neg (by simp), stripLine_line]
      have hlen : rest.length < fuel := by rw [h1] at h; simp only [List.length_append, List.length_cons] at h; omega
      have hmore : ∀ more, readObjLoopIn w ft face b (textLines (p ++ 10 :: rest ++ more)) oi =
          parseLineIn w ft face b (stripCr p) oi >>= fun v => readObjLoopIn w ft face b (textLines (rest ++ more)) v.2 >>= fun ms => .ok (v.1.toList ++ ms) := by
        intro more
        rw [List.append_assoc, List.cons_append, textLines, textLinesAux_cut _ _ _ h2, List.nil_append, readObjLoopIn]
        rfl
      cases hp : parseLineIn w ft face b (stripCr p) oi with
      | ok v =>
        simp only [Outcome.bind_ok]
        rcases readObjLinesIn_broken w ft face b fuel r' v.2 (by rw [h4]; exact hlen) (by rw [h5, hb]) with he | ⟨hn, he⟩
        · exact .inl (by rw [he]; rfl)
        · refine .inr ⟨fun out ho => ?_, fun more => ?_⟩
          · rw [Outcome.bind_eq_ok] at ho
            obtain ⟨ms, hms, -⟩ := ho
            exact hn ms hms
          · rw [hmore, hp, Outcome.bind_ok]
            have := he more
            rw [h4] at this
            rw [this]
      | err e => exact .inr ⟨fun out ho => (by cases ho), fun more => by rw [hmore, hp]; rfl⟩
      | panic => exact .inr ⟨fun out ho => (by cases ho), fun more => by rw [hmore, hp]; rfl⟩
    · rw [hb] at h2; cases h2
    · exact .inl (by rw [h3])

/-! ### A refused mesh -/

variable (w : Nat) (ft : FloatText fo) (b : Build)

theorem facesOutIn_refused {m : Mesh fo.F} (hm : Mismatched m) (offset : Nat × Nat × Nat) : facesOutIn w b m offset = ⟨[], .err .other⟩ := by
  rw [Mismatched] at hm
  rw [facesOutIn.eq_def]
  cases hv : m.vertexTriangles with
  | none =>
    rw [hv] at hm
    dsimp only at hm ⊢
    rw [if_pos]
    rcases hm with h | h
    · exact .inl (Option.isSome_iff_ne_none.mpr h)
    · exact .inr (Option.isSome_iff_ne_none.mpr h)
  | some v =>
    rw [hv] at hm
    dsimp only at hm ⊢
    rw [if_neg]
    rcases hm with ⟨n, hn, hl⟩ | ⟨n, hn, hl⟩
    · simp [hn, lengthFits, hl]
    · simp [hn, lengthFits, hl]

theorem writeObjLoopOutIn_refused (m : Mesh fo.F) (name : List UInt8) (hm : Mismatched m) (post : List (Mesh fo.F × List UInt8)) :
    ∀ (pre : List (Mesh fo.F × List UInt8)) (offset : Nat × Nat × Nat) {text : List UInt8},
      offset.1 < 2 ^ w → offset.2.1 < 2 ^ w → offset.2.2 < 2 ^ w → writeObjLoopIn w ft b pre offset = .ok text →
      ∃ t, writeObjLoopIn w ft b (pre ++ [(withoutFaces m, name)]) offset = .ok t ∧
        (writeObjLoopOutIn w ft b (pre ++ (m, name) :: post) offset).texts.flatten = t ∧
        (writeObjLoopOutIn w ft b (pre ++ (m, name) :: post) offset).result = .err .other
  | [], offset, _, h0, h1, h2, _ => by
    obtain ⟨p, hp, e⟩ := meshOut_eq ft m name (facesOutIn w b m offset)
    refine ⟨meshText ft m name, ?_, ?_, ?_⟩
    · rw [List.nil_append, writeObjLoopIn, show saveObjIn w ft b (withoutFaces m) offset name = .ok (meshText ft m name, 0, 0, 0) from rfl]
      have ha : ∀ x, x < 2 ^ w → addUIntIn w b x 0 = (.ok x : Outcome IoError Nat) := fun x hx => by
        rw [addUIntIn.eq_def, Nat.add_zero, if_pos hx]
      rw [Outcome.bind_ok]
      dsimp only
      rw [ha _ h0, Outcome.bind_ok, ha _ h1, Outcome.bind_ok, ha _ h2, Outcome.bind_ok, writeObjLoopIn, Outcome.bind_ok,
        List.append_nil]
    · rw [List.nil_append, writeObjLoopOutIn, saveObjOutIn, e, facesOutIn_refused w b hm]
      show (p ++ []).flatten = _
      rw [List.append_nil, hp]
    · rw [List.nil_append, writeObjLoopOutIn, saveObjOutIn, e, facesOutIn_refused w b hm]
      rfl
  | (m', name') :: pre, offset, text, h0, h1, h2, h => by
    rw [writeObjLoopIn, Outcome.bind_eq_ok] at h
    obtain ⟨⟨t1, counts⟩, hs, h⟩ := h
    dsimp only at h
    rw [Outcome.bind_eq_ok] at h
    obtain ⟨o0, e0, h⟩ := h
    rw [Outcome.bind_eq_ok] at h
    obtain ⟨o1, e1, h⟩ := h
    rw [Outcome.bind_eq_ok] at h
    obtain ⟨o2, e2, h⟩ := h
    rw [Outcome.bind_eq_ok] at h
    obtain ⟨t2, ht2, -⟩ := h
    have hlt : ∀ {x y z}, addUIntIn w b x y = .ok z → z < 2 ^ w := by
      intro x y z hz
      rw [addUIntIn.eq_def] at hz
      split at hz
      · cases hz; assumption
      · cases b with
        | checked => cases hz
        | wrapping => cases hz; exact Nat.mod_lt _ (Nat.two_pow_pos w)
    obtain ⟨t, ht, hf, hr⟩ := writeObjLoopOutIn_refused m name hm post pre (o0, o1, o2) (hlt e0) (hlt e1) (hlt e2) ht2
    have hso := saveObjOutIn_out w ft b m' offset name'
    rw [hs, Outcome.bind_ok, TextOut.out, Outcome.bind_eq_ok] at hso
    obtain ⟨c, hc, e⟩ := hso
    simp only [Outcome.ok.injEq, Prod.mk.injEq] at e
    obtain ⟨rfl, rfl⟩ := e
    have hloop : writeObjLoopOutIn w ft b ((m', name') :: pre ++ (m, name) :: post) offset =
        ⟨(saveObjOutIn w ft b m' offset name').texts ++ (writeObjLoopOutIn w ft b (pre ++ (m, name) :: post) (o0, o1, o2)).texts,
          (writeObjLoopOutIn w ft b (pre ++ (m, name) :: post) (o0, o1, o2)).result⟩ := by
      rw [List.cons_append, writeObjLoopOutIn, TextOut.bind_def, TextOut.bind, hc]
      dsimp only
      rw [addOffsetsIn, e0, Outcome.bind_ok, e1, Outcome.bind_ok, e2, Outcome.bind_ok]
      rfl
    refine ⟨(saveObjOutIn w ft b m' offset name').texts.flatten ++ t, ?_, ?_, ?_⟩
    · rw [List.cons_append, writeObjLoopIn, hs, Outcome.bind_ok]
      dsimp only
      rw [e0, Outcome.bind_ok, e1, Outcome.bind_ok, e2, Outcome.bind_ok, ht, Outcome.bind_ok]
    · rw [hloop, List.flatten_append, hf]
    · rw [hloop, hr]

/-! ### The default build -/

omit w in
theorem writeObjOutIn_default (meshes : List (Mesh fo.F × List UInt8)) : writeObjOutIn 32 ft b meshes = writeObjOut ft b meshes := by
  have h : ∀ (meshes : List (Mesh fo.F × List UInt8)) (o : Nat × Nat × Nat),
      writeObjLoopOutIn 32 ft b meshes o = writeObjLoopOut ft b meshes o := by
    intro meshes
    induction meshes with
    | nil => intro o; rfl
    | cons m meshes ih =>
      intro o
      obtain ⟨m, name⟩ := m
      rw [writeObjLoopOutIn, writeObjLoopOut]
      simp only [ih]
      rfl
  rw [writeObjOutIn, writeObjOut, h]

omit w in
theorem readObjLinesIn_default (face : PushFace fo.F) : ∀ (fuel : Nat) (r : BufReader) (oi : Importer fo.F),
    readObjLinesIn 32 ft face b fuel r oi = readObjLines ft face b fuel r oi := by
  intro fuel
  induction fuel with
  | zero => intros; rfl
  | succ fuel ih => intro r oi; rw [readObjLinesIn, readObjLines]; simp only [parseLineIn_default, ih]; rfl

end Tmf
