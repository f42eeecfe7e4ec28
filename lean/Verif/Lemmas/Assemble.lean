import Verif.Lemmas.Loading
import Verif.Lemmas.Decode
import Verif.Lemmas.Saving
/-
How errors and skipped segments act on the whole file.
-/

namespace Tmf
open Spec

theorem mapAll_append {ε α β : Type} (f : α → Outcome ε β) (l₁ l₂ : List α) :
    Outcome.mapAll f (l₁ ++ l₂) =
      Outcome.mapAll f l₁ >>= fun x => Outcome.mapAll f l₂ >>= fun y => .ok (x ++ y) := by
  induction l₁ with
  | nil => simp [Outcome.mapAll]; cases Outcome.mapAll f l₂ <;> rfl
  | cons a l₁ ih =>
    simp only [List.cons_append, Outcome.mapAll, ih]
    cases f a with
    | err e => rfl
    | panic => rfl
    | ok v =>
      simp only [Outcome.bind_ok]
      cases Outcome.mapAll f l₁ with
      | err e => rfl
      | panic => rfl
      | ok x =>
        simp only [Outcome.bind_ok]
        cases Outcome.mapAll f l₂ <;> rfl

theorem mapAll_first_err {ε α β : Type} {f : α → Outcome ε β} {l₁ l₂ : List α} {a : α} {e : ε}
    (h₁ : ∀ x ∈ l₁, ∃ v, f x = .ok v) (ha : f a = .err e) : Outcome.mapAll f (l₁ ++ a :: l₂) = .err e := by
  rw [mapAll_append]
  induction l₁ with
  | nil => simp [Outcome.mapAll, ha]
  | cons x l₁ ih =>
    obtain ⟨v, hv⟩ := h₁ x List.mem_cons_self
    have := ih (fun y hy => h₁ y (List.mem_cons_of_mem _ hy))
    simp only [Outcome.mapAll, hv, Outcome.bind_ok]
    cases hm : Outcome.mapAll f l₁ with
    | ok vs => simp [ha]
    | err e' => rw [hm] at this; simpa using this
    | panic => rw [hm] at this; simp at this

theorem mapAll_map {ε α β γ : Type} (f : β → Outcome ε γ) (g : α → β) (l : List α) :
    Outcome.mapAll f (l.map g) = Outcome.mapAll (fun a => f (g a)) l := by
  induction l with
  | nil => rfl
  | cons a l ih => simp [Outcome.mapAll, ih]

variable (fo : FloatOps) (fb : F64Bytes fo) (b : Build)

/-- The first failing segment decides, unless one panics. -/
theorem assembleMesh_first_err {ctx : DecodeCtx} {l₁ l₂ : List EncodedSegment} {seg : EncodedSegment} {e : ImportError}
    (h₁ : ∀ s ∈ l₁, ∃ v, s.decode fo fb b ctx = .ok v) (hs : seg.decode fo fb b ctx = .err e)
    (h₂ : ∀ s ∈ l₂, s.decode fo fb b ctx ≠ .panic) :
    assembleMesh fo fb b ctx (l₁ ++ seg :: l₂) = .err e := by
  unfold assembleMesh
  rw [collect_of_no_panic, mapAll_map]
  · simp only [id]
    rw [mapAll_first_err h₁ hs]
    rfl
  · intro x hx
    obtain ⟨s, hmem, rfl⟩ := List.mem_map.mp hx
    rcases List.mem_append.mp hmem with h | h
    · obtain ⟨v, hv⟩ := h₁ s h; rw [hv]; simp
    rcases List.mem_cons.mp h with rfl | h
    · rw [hs]; simp
    · exact h₂ s h

/-- A segment that decodes to nothing can be left out. -/
theorem assembleMesh_skip {ctx : DecodeCtx} {l₁ l₂ : List EncodedSegment} {seg : EncodedSegment}
    (hs : seg.decode fo fb b ctx = .ok .nothing) :
    assembleMesh fo fb b ctx (l₁ ++ seg :: l₂) = assembleMesh fo fb b ctx (l₁ ++ l₂) := by
  unfold assembleMesh
  by_cases hp : .panic ∈ (l₁ ++ l₂).map (EncodedSegment.decode fo fb b ctx)
  · rw [collect_panic hp, collect_panic]
    simp only [List.map_append, List.map_cons, List.mem_append, List.mem_cons] at hp ⊢
    tauto
  · rw [collect_of_no_panic (l := (l₁ ++ l₂).map _) (fun x hx he => hp (he ▸ hx)), collect_of_no_panic]
    · simp only [List.map_append, List.map_cons, mapAll_append, Outcome.mapAll, hs, id, Outcome.bind_ok]
      cases Outcome.mapAll id (l₁.map (EncodedSegment.decode fo fb b ctx)) with
      | err e => rfl
      | panic => rfl
      | ok x =>
        cases Outcome.mapAll id (l₂.map (EncodedSegment.decode fo fb b ctx)) with
        | err e => rfl
        | panic => rfl
        | ok y => simp [DecodedSegment.apply]
    · intro x hx he
      subst he
      simp only [List.map_append, List.map_cons, List.mem_append, List.mem_cons, hs] at hp hx
      rcases hx with h | h | h
      · exact hp (Or.inl h)
      · simp at h
      · exact hp (Or.inr h)

/-- A framed file whose first bad segment fails with `e`. -/
theorem readTmf_first_err {minMinor : Nat} (hv : minMinor ≤ 2) {pre post : List RawMesh} {name : List UInt8}
    {s₁ s₂ : List RawSeg} {s : RawSeg} {e : ImportError}
    (hf : ∀ m ∈ pre ++ ⟨name, s₁ ++ s :: s₂⟩ :: post, RawMesh.Framed (layoutOf minMinor) m)
    (hc : (pre ++ ⟨name, s₁ ++ s :: s₂⟩ :: post).length < 2 ^ 32)
    (hpre : ∀ m ∈ pre, ∃ v, rawMesh fo fb b (layoutOf minMinor) m = .ok v)
    (h₁ : ∀ r ∈ s₁, ∃ v, (encodedOf r).decode fo fb b (ctxOf (layoutOf minMinor)).decode = .ok v)
    (hs : (encodedOf s).decode fo fb b (ctxOf (layoutOf minMinor)).decode = .err e)
    (h₂ : ∀ r ∈ s₂, (encodedOf r).decode fo fb b (ctxOf (layoutOf minMinor)).decode ≠ .panic)
    (junk : List UInt8) (sched : List Nat) :
    readTmf fo fb b ⟨fileBytes minMinor (pre ++ ⟨name, s₁ ++ s :: s₂⟩ :: post) ++ junk, sched, false⟩ = .err e := by
  rw [readTmf_file fo fb b hv hf hc]
  apply mapAll_first_err hpre
  unfold rawMesh
  dsimp only
  rw [List.map_append, List.map_cons, assembleMesh_first_err fo fb b _ hs]
  · rfl
  · intro x hx
    obtain ⟨r, hr, rfl⟩ := List.mem_map.mp hx
    exact h₂ r hr
  · intro x hx
    obtain ⟨r, hr, rfl⟩ := List.mem_map.mp hx
    exact h₁ r hr

/-- A file whose reading fails inside the segments of a mesh, with anything after it. -/
theorem readTmf_frame_err {minMinor : Nat} (hv : minMinor ≤ 2) {pre : List RawMesh} {name : List UInt8}
    {s₁ : List RawSeg} {n k : Nat} {tail : List UInt8} {e : ImportError}
    (hf : ∀ m ∈ pre, RawMesh.Framed (layoutOf minMinor) m) (hc : pre.length + (n + 1) < 2 ^ 32)
    (hpre : ∀ m ∈ pre, ∃ v, rawMesh fo fb b (layoutOf minMinor) m = .ok v)
    (hn : NameOk name) (hk : s₁.length + (k + 1) < 2 ^ 16)
    (h₁ : ∀ r ∈ s₁, r.Framed (layoutOf minMinor))
    (ht : (readSegment (ctxOf (layoutOf minMinor))).runSlice tail = .err e) (sched : List Nat) :
    readTmf fo fb b ⟨fileHead 0 minMinor (pre.length + (n + 1)) ++ pre.flatMap (RawMesh.bytes (layoutOf minMinor)) ++
      meshHead name (s₁.length + (k + 1)) ++ s₁.flatMap (RawSeg.bytes (layoutOf minMinor)) ++ tail, sched, false⟩ =
        .err e := by
  obtain ⟨vs, hvs⟩ := mapAll_exists hpre
  rw [readTmf_slice]
  simp only [List.append_assoc]
  rw [importTmf_partial fo fb b hv hf hc, hvs]
  simp only [Outcome.bind_ok, Prog.replicate]
  rw [Prog.runSlice_bind, importMesh_head fo fb b hn hk, readSegments_ok h₁]
  simp only [Prog.replicate]
  rw [Prog.runSlice_bind, ht]
  rfl

theorem mapAll_ok_mem {ε α β : Type} {f : α → Outcome ε β} {l : List α} {vs : List β}
    (h : Outcome.mapAll f l = .ok vs) : ∀ x ∈ l, ∃ v, f x = .ok v := by
  induction l generalizing vs with
  | nil => simp
  | cons a l ih =>
    rw [Outcome.mapAll, Outcome.bind_eq_ok] at h
    obtain ⟨v, hv, h⟩ := h
    rw [Outcome.bind_eq_ok] at h
    obtain ⟨vs', hvs, _⟩ := h
    intro x hx
    rcases List.mem_cons.mp hx with rfl | hx
    · exact ⟨v, hv⟩
    · exact ih hvs x hx

theorem assembleMesh_ok_mem {ctx : DecodeCtx} {segs : List EncodedSegment} {m : Mesh fo.F}
    (h : assembleMesh fo fb b ctx segs = .ok m) : ∀ s ∈ segs, ∃ v, s.decode fo fb b ctx = .ok v := by
  unfold assembleMesh at h
  by_cases hp : .panic ∈ segs.map (EncodedSegment.decode fo fb b ctx)
  · rw [collect_panic hp] at h; simp at h
  · rw [collect_of_no_panic (fun x hx he => hp (he ▸ hx)), Outcome.bind_eq_ok] at h
    obtain ⟨d, hd, _⟩ := h
    intro s hs
    exact mapAll_ok_mem hd _ (List.mem_map.mpr ⟨s, hs, rfl⟩)

theorem assembleMesh_no_panic_mem {ctx : DecodeCtx} {segs : List EncodedSegment}
    (h : assembleMesh fo fb b ctx segs ≠ .panic) : ∀ s ∈ segs, s.decode fo fb b ctx ≠ .panic := by
  intro s hs he
  apply h
  unfold assembleMesh
  rw [collect_panic (List.mem_map.mpr ⟨s, hs, he⟩)]
  rfl

/-- If a framed file loads, every mesh in it does. -/
theorem rawMesh_ok_of_loads {minMinor : Nat} (hv : minMinor ≤ 2) {meshes : List RawMesh}
    (hf : ∀ m ∈ meshes, RawMesh.Framed (layoutOf minMinor) m) (hc : meshes.length < 2 ^ 32) {sched : List Nat}
    {vs : List (Mesh fo.F × List UInt8)}
    (h : readTmf fo fb b ⟨fileBytes minMinor meshes, sched, false⟩ = .ok vs) :
    ∀ m ∈ meshes, ∃ v, rawMesh fo fb b (layoutOf minMinor) m = .ok v := by
  have := readTmf_file fo fb b hv hf hc [] sched
  rw [List.append_nil] at this
  rw [this] at h
  exact mapAll_ok_mem h

theorem decode_ok_of_rawMesh {L : Layout} {m : RawMesh} {v : Mesh fo.F × List UInt8}
    (h : rawMesh fo fb b L m = .ok v) :
    ∀ r ∈ m.segs, ∃ v, (encodedOf r).decode fo fb b (ctxOf L).decode = .ok v := by
  rw [rawMesh, Outcome.bind_eq_ok] at h
  obtain ⟨mesh, hm, _⟩ := h
  intro r hr
  exact assembleMesh_ok_mem fo fb b hm _ (List.mem_map.mpr ⟨r, hr, rfl⟩)

theorem decode_no_panic_of_file {minMinor : Nat} (hv : minMinor ≤ 2) {m : RawMesh}
    (hf : RawMesh.Framed (layoutOf minMinor) m) {sched : List Nat}
    (h : readTmf fo fb b ⟨fileBytes minMinor [m], sched, false⟩ ≠ .panic) :
    ∀ r ∈ m.segs, (encodedOf r).decode fo fb b (ctxOf (layoutOf minMinor)).decode ≠ .panic := by
  have := readTmf_file fo fb b hv (meshes := [m]) (by simpa using hf) (by simp) [] sched
  rw [List.append_nil] at this
  rw [this] at h
  intro r hr
  refine assembleMesh_no_panic_mem fo fb b (segs := m.segs.map encodedOf) ?_ _ (List.mem_map.mpr ⟨r, hr, rfl⟩)
  intro he
  apply h
  simp [Outcome.mapAll, rawMesh, he]

/-! ### Result slots -/

theorem joinAll_eq {α : Type} (results : List α) (order : List Nat) (h : ∀ i, i < results.length → i ∈ order) :
    joinAll results order = some results := by
  have key : ∀ (order : List Nat) (slots : List (Option α)), slots.length = results.length →
      (order.foldl (fun slots i => slots.set i results[i]?) slots).length = results.length ∧
      ∀ i, i < results.length → (i ∈ order ∨ slots[i]? = some results[i]?) →
        (order.foldl (fun slots i => slots.set i results[i]?) slots)[i]? = some results[i]? := by
    intro order
    induction order with
    | nil => intro slots hl; exact ⟨hl, fun i _ h => by simpa using h⟩
    | cons j order ih =>
      intro slots hl
      obtain ⟨h1, h2⟩ := ih (slots.set j results[j]?) (by simpa using hl)
      refine ⟨h1, fun i hi h => ?_⟩
      rw [List.foldl_cons]
      apply h2 i hi
      by_cases hij : j = i
      · right; subst hij; rw [List.getElem?_set_self (by omega)]
      · rcases h with h | h
        · rcases List.mem_cons.mp h with rfl | h
          · exact absurd rfl hij
          · exact Or.inl h
        · right; rw [List.getElem?_set_ne hij]; exact h
  obtain ⟨hl, hg⟩ := key order (List.replicate results.length none) (by simp)
  have hslots : order.foldl (fun slots i => slots.set i results[i]?) (List.replicate results.length none) =
      results.map some := by
    apply List.ext_getElem?
    intro i
    by_cases hi : i < results.length
    · rw [hg i hi (Or.inl (h i hi)), List.getElem?_map, List.getElem?_eq_getElem hi]; rfl
    · rw [List.getElem?_eq_none (by omega), List.getElem?_eq_none (by simp; omega)]
  unfold joinAll
  dsimp only
  rw [hslots, if_pos (by simp)]
  congr 1
  induction results with
  | nil => rfl
  | cons a l ih => simp [List.filterMap_map]

end Tmf
