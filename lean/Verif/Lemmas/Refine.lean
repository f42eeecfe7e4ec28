import Verif.Lemmas.Saving
/-
A file that a build with overflow checks writes is written byte for byte the same by a build
without them.
-/

namespace Tmf

/-- Whatever succeeds with overflow checks gives the same without them. -/
def Refines {ε α : Type} (f : Build → Outcome ε α) : Prop := ∀ a, f .checked = .ok a → f .wrapping = .ok a

namespace Refines
variable {ε α β : Type}

theorem const (x : Outcome ε α) : Refines (fun _ => x) := fun _ h => h

theorem bind {f : Build → Outcome ε α} {g : α → Build → Outcome ε β} (hf : Refines f) (hg : ∀ a, Refines (g a)) :
    Refines (fun b => f b >>= fun a => g a b) := by
  intro c h
  obtain ⟨a, ha, hc⟩ := Outcome.bind_eq_ok.mp h
  exact Outcome.bind_eq_ok.mpr ⟨a, hf a ha, hg a c hc⟩

theorem map {f : Build → Outcome ε α} (hf : Refines f) (g : α → β) : Refines (fun b => f b >>= fun a => Outcome.ok (g a)) :=
  bind hf (fun _ => const _)

theorem mapAll {f : Build → α → Outcome ε β} (hf : ∀ a, Refines (fun b => f b a)) (l : List α) :
    Refines (fun b => Outcome.mapAll (f b) l) := by
  induction l with
  | nil => exact const _
  | cons a l ih => exact bind (hf a) (fun x => bind ih (fun xs => const _))

end Refines

theorem refines_mulI32 (n : Nat) : Refines (fun b => mulI32 b n) := by
  intro a h
  simp only [mulI32] at h ⊢
  split at h
  · rw [← h, Nat.mod_eq_of_lt (by omega)]
  · cases h

theorem refines_write (mode data : Nat) (w : BitWriter) : Refines (fun b => w.write b mode data) := by
  intro a h
  simp only [BitWriter.write] at h ⊢
  split at h
  · rw [if_pos (by assumption)]; exact h
  · rw [if_neg (by assumption)]
    split at h
    · rw [if_pos (by assumption)]; exact h
    · cases h

theorem refines_writeAll : ∀ (fields : List (Nat × Nat)) (w : BitWriter), Refines (fun b => BitWriter.writeAll b fields w) := by
  intro fields
  induction fields with
  | nil => intro w; exact .const _
  | cons f rest ih => intro w; exact .bind (refines_write f.1 f.2 w) (fun w => ih w)

theorem refines_saveTriangles (l : List Nat) (m : Nat) : Refines (fun b => saveTriangles b l m) :=
  .map (refines_writeAll _ _) _

section
variable (fo : FloatOps) (fb : F64Bytes fo)

theorem refines_saveVertices (l : List (Vec3 fo.F)) (p e : fo.F) : Refines (fun b => saveVertices fo fb b l p e) :=
  .bind (.const _) (fun _ => .bind (refines_mulI32 _) (fun _ => .bind (refines_mulI32 _) (fun _ =>
    .bind (refines_mulI32 _) (fun _ => .map (refines_writeAll _ _) _))))

theorem refines_saveUvs (l : List (Vec2 fo.F)) (p : Nat) : Refines (fun b => saveUvs fo b l p) :=
  .bind (refines_mulI32 _) (fun _ => .map (refines_writeAll _ _) _)

theorem refines_normal (p : Nat) (n : Vec3 fo.F) : Refines (fun b => normalToEncoding fo b p n) :=
  .map (refines_mulI32 _) _

theorem refines_saveNormals (l : List (Vec3 fo.F)) (p : Nat) : Refines (fun b => saveNormals fo b l p) :=
  .bind (.mapAll (fun n => .map (refines_normal fo p n) _) l) (fun _ => .map (refines_writeAll _ _) _)

theorem refines_tangentFields (p : Nat) (t : Tangent fo.F) : Refines (fun b => tangentFields fo b p t) :=
  .map (refines_normal fo p t.1) _

theorem refines_saveTangents (l : List (Tangent fo.F)) (p : Nat) : Refines (fun b => saveTangents fo b l p) :=
  .bind (.mapAll (refines_tangentFields fo p) l) (fun _ => .map (refines_writeAll _ _) _)

theorem refines_saveFloats (l : List fo.F) (p : fo.F) : Refines (fun b => saveFloats fo fb b l p) :=
  .bind (refines_mulI32 _) (fun _ => .map (refines_writeAll _ _) _)

theorem refines_saveColors (l : List (Vec4 fo.F)) (p : fo.F) : Refines (fun b => saveColors fo b l p) :=
  .bind (refines_mulI32 _) (fun _ => .map (refines_writeAll _ _) _)

theorem refines_custom (s : CustomSeg fo.F) : Refines (fun b => s.encode fo fb b) := by
  have : Refines (fun b => s.data.write fo fb b) := by
    cases s.data with
    | index l m => exact refines_saveTriangles l m
    | integer l m => exact refines_saveTriangles l m
    | float l p => exact refines_saveFloats fo fb l p
    | color l p => exact refines_saveColors fo l p
  exact .map this _

theorem refines_encode (prec : PrecisionInfo fo.F) (edge : fo.F) (s : DecodedSegment fo.F) :
    Refines (fun b => s.encode fo fb b prec edge) := by
  cases s with
  | nothing => exact .const _
  | vertex l => exact .map (refines_saveVertices fo fb l _ _) _
  | normal l => exact .map (refines_saveNormals fo l _) _
  | uv l => exact .map (refines_saveUvs fo l _) _
  | tangent l => exact .map (refines_saveTangents fo l _) _
  | triVertex l => exact .map (refines_saveTriangles l _) _
  | triNormal l => exact .map (refines_saveTriangles l _) _
  | triUv l => exact .map (refines_saveTriangles l _) _
  | triTangent l => exact .map (refines_saveTriangles l _) _
  | shared mask l => exact .map (refines_saveTriangles l _) _
  | custom s => exact .map (refines_custom fo fb s) _

/-! ### Splitting -/

theorem refines_score (n : Nat) (d : Nat × Nat) : Refines (fun b => calcSpiltScore b n d) := by
  intro a h
  simp only [calcSpiltScore] at h ⊢
  split at h
  · cases h
  · rw [if_neg (by assumption)]; exact h

theorem refines_scanMax (t : Nat) : ∀ (l : List Nat) (i m : Nat) (best : Best), Refines (fun b => scanMax b t i m l best) := by
  intro l
  induction l with
  | nil => intro i m best; exact .const _
  | cons x l ih => intro i m best; exact .bind (refines_score _ _) (fun _ => ih _ _ _)

theorem refines_scanMin (t : Nat) : ∀ (l : List Nat) (i m : Nat) (best : Best), Refines (fun b => scanMin b t i m l best) := by
  intro l
  induction l with
  | nil => intro i m best; exact .const _
  | cons x l ih => intro i m best; exact .bind (refines_score _ _) (fun _ => ih _ _ _)

theorem refines_trisSplit (l : List Nat) : Refines (fun b => trisSplit b l) := by
  refine .bind (refines_scanMax _ _ _ _ _) (fun best => ?_)
  cases best.split with
  | some i => exact .const _
  | none => exact .map (refines_scanMin _ _ _ _ _) _

theorem refines_optTrisFuel : ∀ (fuel : Nat) (l : List Nat), Refines (fun b => optTrisFuel b fuel l) := by
  intro fuel
  induction fuel with
  | zero => intro l; exact .const _
  | succ fuel ih =>
    intro l
    refine .bind (refines_trisSplit l) (fun split => ?_)
    cases split with
    | some i => exact .bind (ih _) (fun _ => .bind (ih _) (fun _ => .const _))
    | none => exact .const _

theorem refines_addU8 (x y : Nat) : Refines (fun b => addU8 b x y) := by
  intro a h
  simp only [addU8] at h ⊢
  split at h
  · rw [if_pos (by assumption)]; exact h
  · cases h

theorem refines_subU8 (x y : Nat) : Refines (fun b => subU8 b x y) := by
  intro a h
  simp only [subU8] at h ⊢
  split at h
  · rw [if_pos (by assumption)]; exact h
  · cases h

theorem refines_bitCount (span : Span fo.F) (edge : fo.F) : Refines (fun b => rangeToVertexBitCount fo b span edge) :=
  .bind (refines_addU8 _ _) (fun _ => refines_addU8 _ _)

theorem refines_vertexScan (edge : fo.F) (total : Nat) : ∀ (l : List (Vec3 fo.F)) (i : Nat) (span : Span fo.F) (bits : Nat)
    (best : Best), Refines (fun b => vertexScan fo b edge total i span bits l best) := by
  intro l
  induction l with
  | nil => intro i span bits best; exact .const _
  | cons v l ih =>
    intro i span bits best
    unfold vertexScan
    by_cases h : insideSpan fo span v = true
    · simp only [h, if_true]
      exact .bind (refines_subU8 _ _) (fun _ => ih _ _ _ _)
    · simp only [h]
      exact .bind (refines_bitCount fo _ _) (fun _ => ih _ _ _ _)

theorem refines_findBest (l : List (Vec3 fo.F)) (edge : fo.F) : Refines (fun b => findBestVertexSplit fo b l edge) := by
  refine .bind (refines_bitCount fo _ _) (fun total => .bind (refines_vertexScan fo _ _ _ _ _ _ _) (fun best => ?_))
  exact .const _

theorem refines_optVerticesFuel : ∀ (fuel : Nat) (l : List (Vec3 fo.F)), Refines (fun b => optVerticesFuel fo b fuel l) := by
  intro fuel
  induction fuel with
  | zero => intro l; exact .const _
  | succ fuel ih =>
    intro l
    refine .bind (refines_findBest fo l _) (fun split => ?_)
    cases split with
    | some i => exact .bind (ih _) (fun _ => .bind (ih _) (fun _ => .const _))
    | none => exact .const _

theorem refines_optimize (s : DecodedSegment fo.F) : Refines (fun b => s.optimize fo b) := by
  cases s with
  | nothing => exact .const _
  | vertex l => exact .map (refines_optVerticesFuel fo _ l) _
  | normal l => exact .const _
  | uv l => exact .const _
  | tangent l => exact .const _
  | triVertex l => exact .map (refines_optTrisFuel _ l) _
  | triNormal l => exact .map (refines_optTrisFuel _ l) _
  | triUv l => exact .map (refines_optTrisFuel _ l) _
  | triTangent l => exact .map (refines_optTrisFuel _ l) _
  | shared mask l => exact .map (refines_optTrisFuel _ l) _
  | custom s => exact .const _

theorem refines_encodeMesh (prec : PrecisionInfo fo.F) (m : Mesh fo.F) : Refines (fun b => encodeMesh fo fb b prec m) :=
  .bind (.const _) (fun _ => .bind (.const _) (fun _ => .bind (.mapAll (refines_optimize fo) _) (fun _ =>
    .mapAll (refines_encode fo fb prec _) _)))

/-- Files. -/
theorem refines_tmfBytes (prec : PrecisionInfo fo.F) (meshes : List (Mesh fo.F × List UInt8)) :
    Refines (fun b => tmfBytes fo fb b prec meshes) := by
  intro bytes h
  obtain ⟨enc, hE, hb⟩ := tmfBytes_ok fo fb .checked prec h
  have hE' := Refines.mapAll (f := fun b (mn : Mesh fo.F × List UInt8) => encodeMesh fo fb b prec mn.1)
    (fun mn => refines_encodeMesh fo fb prec mn.1) meshes enc hE
  have := tmfBytes_of fo fb .wrapping prec hE'
  rw [← hb] at this
  exact this

end

end Tmf
