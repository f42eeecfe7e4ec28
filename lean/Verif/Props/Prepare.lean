import Verif.Lemmas.Prepare
import Verif.Props.EndToEnd
/-
C75: preparing meshes before saving them.
-/

set_option exponentiation.threshold 2000

namespace Tmf.Props
open Spec Ieee

variable {lib : Libm} {fb : F64Bytes (ops lib)} {prec : PrecisionInfo (Val b32)} {k : Nat}

/-- Preparation succeeds and gives meshes that can be saved. -/
theorem prepared_saveable {jobs : List ((Mesh (Val b32) × List UInt8) × List Prep)} (h : Preparable k prec (jobs.map Prod.fst))
    (hf : ∀ j ∈ jobs, ∀ s ∈ j.2, s.Fair) :
    ∃ prepared, List.Forall₂ (fun j mn => (prepare j.2 j.1.1 = .ok mn.1 ∧ mn.2 = j.1.2) ∧ MeshLike (corners j.1.1) j.1.1 mn.1) jobs prepared ∧
      Saveable k prec prepared := by
  have hsize := h.size
  have key : ∀ js : List ((Mesh (Val b32) × List UInt8) × List Prep), (∀ j ∈ js, j ∈ jobs) → ∃ prepared : List (Mesh (Val b32) × List UInt8),
      List.Forall₂ (fun j mn => (prepare j.2 j.1.1 = .ok mn.1 ∧ mn.2 = j.1.2) ∧ MeshLike (corners j.1.1) j.1.1 mn.1) js prepared := by
    intro js
    induction js with
    | nil => intro _; exact ⟨[], .nil⟩
    | cons j js ih =>
      intro hj
      obtain ⟨l, hl⟩ := ih fun i hi => hj i (List.mem_cons_of_mem _ hi)
      have hm := hj j List.mem_cons_self
      have hp := h.mesh j.1 (List.mem_map_of_mem hm)
      have hone : preparedSize j.1 ≤ 2 ^ 31 := by
        have := List.single_le_sum (fun _ _ => Nat.zero_le _) _ (List.mem_map_of_mem (f := preparedSize) (List.mem_map_of_mem (f := Prod.fst) hm))
        omega
      obtain ⟨m', e, hlike⟩ := prepare_like (by dsimp only [preparedSize] at hone; omega) j.2 hp.input (hf j hm)
      exact ⟨(m', j.1.2) :: l, .cons ⟨⟨e, rfl⟩, hlike⟩ hl⟩
  obtain ⟨prepared, hl⟩ := key jobs fun _ h => h
  have hb : ∀ mn ∈ prepared, ∃ j ∈ jobs, mn.2 = j.1.2 ∧ MeshLike (corners j.1.1) j.1.1 mn.1 := by
    intro mn hmn
    obtain ⟨j, hj, hr⟩ := exists_of_forall₂ hl.flip mn hmn
    exact ⟨j, hj, hr.1.2, hr.2⟩
  refine ⟨prepared, hl, h.finite, h.vertex, h.normal, h.uv, h.tangent, ?_, ?_, ?_⟩
  · intro mn hmn
    obtain ⟨j, hj, e, -⟩ := hb mn hmn
    rw [e]
    exact h.names _ (List.mem_map_of_mem hj)
  · intro mn hmn
    obtain ⟨j, hj, -, hlike⟩ := hb mn hmn
    have hone : preparedSize j.1 ≤ 2 ^ 31 := by
      have := List.single_le_sum (fun _ _ => Nat.zero_le _) _ (List.mem_map_of_mem (f := preparedSize) (List.mem_map_of_mem (f := Prod.fst) hj))
      omega
    exact saveable_like (h.mesh _ (List.mem_map_of_mem hj)) hlike (name := j.1.2) hone
  · have := sum_le_of_forall₂ (f := meshSizeBound) (g := fun j : (Mesh (Val b32) × List UInt8) × List Prep => preparedSize j.1)
      (fun mn j hr => by
        obtain ⟨m', name⟩ := mn
        obtain ⟨⟨-, e⟩, hlike⟩ := hr
        cases e
        exact (hlike.size _).2) hl.flip
    rw [List.map_map] at hsize
    exact le_trans (Nat.add_le_add_left this 15) hsize

theorem forall₂_compose {α β γ : Type} {R : α → β → Prop} {S : β → γ → Prop} {T : α → γ → Prop} (h : ∀ a b c, R a b → S b c → T a c) :
    ∀ {l : List α} {l' : List β} {l'' : List γ}, List.Forall₂ R l l' → List.Forall₂ S l' l'' → List.Forall₂ T l l''
  | _, _, _, .nil, .nil => .nil
  | _, _, _, .cons h1 t1, .cons h2 t2 => .cons (h _ _ _ h1 h2) (forall₂_compose h t1 t2)

theorem forall₂_and_of {α β : Type} {R S : α → β → Prop} : ∀ {l : List α} {l' : List β}, List.Forall₂ R l l' → List.Forall₂ S l l' →
    List.Forall₂ (fun a b => R a b ∧ S a b) l l'
  | _, _, .nil, .nil => .nil
  | _, _, .cons h1 t1, .cons h2 t2 => .cons ⟨h1, h2⟩ (forall₂_and_of t1 t2)

theorem sameSize_pairs {α : Type} {a a' : Option (List α)} (h : a'.map List.length = a.map List.length) (d : List α) (hd : a = some d) :
    ∃ d', a' = some d' ∧ List.Forall₂ (fun _ _ => True) d d' := by
  subst hd
  cases a' with
  | none => cases h
  | some d' =>
    refine ⟨d', rfl, ?_⟩
    rw [List.forall₂_iff_get]
    exact ⟨(Option.some.inj h).symm, fun _ _ _ => trivial⟩

theorem forall₂_of_map_eq {α β γ : Type} {f : α → γ} {g : β → γ} : ∀ {l : List α} {l' : List β}, l'.map g = l.map f →
    List.Forall₂ (fun a b => g b = f a) l l'
  | [], [], _ => .nil
  | [], _ :: _, h => by cases h
  | _ :: _, [], h => by cases h
  | _ :: _, _ :: _, h => by
    rw [List.map_cons, List.map_cons, List.cons.injEq] at h
    exact .cons h.1 (forall₂_of_map_eq h.2)

/-- C75: meshes that are reordered and unified, in any order and any number of times, can be saved and loaded, by any
build and in pieces of any size. Nothing is lost: corner for corner there are vertices, normals, uv coordinates and
tangents where the original had them, with the handedness of the tangents, and the custom data comes back. -/
theorem C75_prepared (hlog : AccurateLog2 lib) (hmono : MonotoneLog2 lib) {jobs : List ((Mesh (Val b32) × List UInt8) × List Prep)}
    (h : Preparable 30 prec (jobs.map Prod.fst)) (hf : ∀ j ∈ jobs, ∀ s ∈ j.2, s.Fair) :
    ∃ prepared bytes out, List.Forall₂ (fun j mn => prepare j.2 j.1.1 = .ok mn.1 ∧ mn.2 = j.1.2) jobs prepared ∧
      (∀ b, tmfBytes (ops lib) fb b prec prepared = .ok bytes) ∧
      (∀ b' junk sched, readTmf (ops lib) fb b' ⟨bytes ++ junk, sched, false⟩ = .ok out) ∧
      List.Forall₂ (fun j mn => mn.2 = j.1.2 ∧
        CornersRelated (fun _ _ => True) j.1.1.vertices mn.1.vertices j.1.1.vertexTriangles mn.1.vertexTriangles ∧
        CornersRelated (fun _ _ => True) j.1.1.normals mn.1.normals j.1.1.normalTriangles mn.1.normalTriangles ∧
        CornersRelated (fun _ _ => True) j.1.1.uvs mn.1.uvs j.1.1.uvTriangles mn.1.uvTriangles ∧
        CornersRelated (fun t t' => t'.2 = if isSignNegative t.2 then (ops lib).negOne else (ops lib).one)
          j.1.1.tangents mn.1.tangents j.1.1.tangentTriangles mn.1.tangentTriangles ∧
        List.Forall₂ (fun c c' => c'.name = c.name ∧ SameCustom c.data c'.data) j.1.1.customData.reverse mn.1.customData) jobs out := by
  obtain ⟨prepared, hp, hs⟩ := prepared_saveable h hf
  obtain ⟨bytes, out, hb, -, hr, hc⟩ := C65_saved (fb := fb) hlog hmono hs
  refine ⟨prepared, bytes, out, hp.imp fun _ _ h => h.1, hb, hr, forall₂_compose ?_ hp hc⟩
  rintro j mn mn' ⟨⟨-, hn⟩, hl⟩ ⟨cn, ⟨i1, i2, i3, i4⟩, ⟨s1, s2, s3, s4⟩, ch, cc⟩
  refine ⟨cn.trans hn, hl.vertices.related i1 (sameSize_pairs s1), hl.normals.related i2 (sameSize_pairs s2),
    hl.uvs.related i3 (sameSize_pairs s3), hl.tangents.related i4 fun d hd => ?_, by rw [← hl.custom]; exact cc⟩
  rw [hd] at ch
  cases ht : mn'.1.tangents with
  | none => rw [ht] at ch; cases ch
  | some d' =>
    rw [ht] at ch
    exact ⟨d', rfl, forall₂_of_map_eq (Option.some.inj ch)⟩

theorem selected_map {α : Type} (f : α → α) (a : Option (List α)) (ia : Option (List Nat)) :
    selected (a.map (List.map f)) ia = (selected a ia).map (List.map (Option.map f)) := by
  cases a with
  | none => rfl
  | some d =>
    cases ia with
    | none => rfl
    | some t => simp [selected, lookups, Function.comp_def]

/-- C75: how the meshes are prepared makes no difference to the uv coordinates, normals, tangents and custom data that are
loaded: corner for corner they are the same. -/
theorem C75_same (hlog : AccurateLog2 lib) (hmono : MonotoneLog2 lib) {jobs jobs' : List ((Mesh (Val b32) × List UInt8) × List Prep)}
    (hj : jobs'.map Prod.fst = jobs.map Prod.fst) (h : Preparable 30 prec (jobs.map Prod.fst)) (hf : ∀ j ∈ jobs, ∀ s ∈ j.2, s.Fair)
    (hf' : ∀ j ∈ jobs', ∀ s ∈ j.2, s.Fair) {prepared prepared' out out' : List (Mesh (Val b32) × List UInt8)} {bytes bytes' : List UInt8}
    (hp : List.Forall₂ (fun j mn => prepare j.2 j.1.1 = .ok mn.1 ∧ mn.2 = j.1.2) jobs prepared)
    (hp' : List.Forall₂ (fun j mn => prepare j.2 j.1.1 = .ok mn.1 ∧ mn.2 = j.1.2) jobs' prepared') {b1 b2 b3 b4 : Build}
    (hb : tmfBytes (ops lib) fb b1 prec prepared = .ok bytes) (hb' : tmfBytes (ops lib) fb b2 prec prepared' = .ok bytes')
    {sched sched' : List Nat}
    (hr : readTmf (ops lib) fb b3 ⟨bytes, sched, false⟩ = .ok out) (hr' : readTmf (ops lib) fb b4 ⟨bytes', sched', false⟩ = .ok out') :
    List.Forall₂ (fun mn mn' => mn'.2 = mn.2 ∧ SameCorners mn.1 mn'.1) out out' := by
  have key : ∀ {jobs : List ((Mesh (Val b32) × List UInt8) × List Prep)}, Preparable 30 prec (jobs.map Prod.fst) →
      (∀ j ∈ jobs, ∀ s ∈ j.2, s.Fair) → ∀ {prepared out : List (Mesh (Val b32) × List UInt8)} {bytes : List UInt8} {b1 b3 : Build} {sched : List Nat},
      List.Forall₂ (fun j mn => prepare j.2 j.1.1 = .ok mn.1 ∧ mn.2 = j.1.2) jobs prepared →
      tmfBytes (ops lib) fb b1 prec prepared = .ok bytes → readTmf (ops lib) fb b3 ⟨bytes, sched, false⟩ = .ok out →
      List.Forall₂ (fun j mn => mn.2 = j.2 ∧
        selected mn.1.normals mn.1.normalTriangles =
          (selected j.1.normals j.1.normalTriangles).map (List.map (Option.map (quantNormal (ops lib) prec.normal))) ∧
        selected mn.1.uvs mn.1.uvTriangles = (selected j.1.uvs j.1.uvTriangles).map (List.map (Option.map (quantUv (ops lib) prec.uv))) ∧
        selected mn.1.tangents mn.1.tangentTriangles =
          (selected j.1.tangents j.1.tangentTriangles).map (List.map (Option.map (quantTangent (ops lib) prec.tangent))) ∧
        mn.1.customData = j.1.customData.reverse.map (CustomSeg.loaded (ops lib))) (jobs.map Prod.fst) out := by
    intro jobs h hf prepared out bytes b1 b3 sched hp hb hr
    obtain ⟨q, hq, hs⟩ := prepared_saveable h hf
    have : q = prepared := by
      refine forall₂_unique ?_ (hq.imp fun _ _ h => h.1) hp
      rintro j x y ⟨e1, n1⟩ ⟨e2, n2⟩
      rw [e1] at e2
      exact Prod.ext (Outcome.ok.inj e2) (n1.trans n2.symm)
    subst this
    obtain ⟨bytes', o, hb', -, hr', hl⟩ := saveable_loaded (fb := fb) hlog hmono (by decide) (le_refl 30) hs
    rw [hb'] at hb
    cases hb
    have hr' := hr' b3 [] sched
    rw [List.append_nil, hr] at hr'
    cases hr'
    rw [List.forall₂_map_left_iff]
    refine forall₂_compose ?_ hq hl
    rintro j mn mn' ⟨⟨-, hn⟩, hk⟩ ⟨hn', edge, -, hm, -⟩
    rw [hm]
    refine ⟨hn'.trans hn, ?_, ?_, ?_, ?_⟩
    · rw [← hk.normals.same]; exact selected_map _ _ _
    · rw [← hk.uvs.same]; exact selected_map _ _ _
    · rw [← hk.tangents.same]; exact selected_map _ _ _
    · rw [← hk.custom]; rfl
  have k1 := key h hf hp hb hr
  have k2 := key (hj ▸ h) hf' hp' hb' hr'
  rw [hj] at k2
  refine forall₂_compose ?_ k1.flip k2
  rintro x j y ⟨n, a1, a2, a3, a4⟩ ⟨n', c1, c2, c3, c4⟩
  exact ⟨n'.trans n.symm, c1.trans a1.symm, c2.trans a2.symm, c3.trans a3.symm, c4.trans a4.symm⟩

theorem meaningful_like {m m' : Mesh (Val b32)} {n : Nat} (h : MeshLike n m m') (hm : Meaningful prec m) : Meaningful prec m' := by
  have back : ∀ {α : Type} {a a' : Option (List α)} {ia ia' : Option (List Nat)}, SlotLike n a ia a' ia' → ∀ l, a' = some l →
      ∃ l', a = some l' ∧ ∀ x ∈ l, x ∈ l' := by
    intro α a a' ia ia' hs l hl
    cases a with
    | none => rw [(hs.absent rfl).1] at hl; cases hl
    | some d =>
      obtain ⟨d', e, hsub, -⟩ := hs.present d rfl
      rw [e] at hl
      cases hl
      exact ⟨d, rfl, hsub⟩
  refine ⟨fun l hl x hx => ?_, fun l hl x hx => ?_, fun l hl x hx => ?_⟩
  · obtain ⟨l', e, hs⟩ := back h.normals l hl; exact hm.normals l' e x (hs x hx)
  · obtain ⟨l', e, hs⟩ := back h.tangents l hl; exact hm.tangents l' e x (hs x hx)
  · obtain ⟨l', e, hs⟩ := back h.uvs l hl; exact hm.uvs l' e x (hs x hx)

/-- C75, accuracy: corner for corner, the uv coordinates, normals and tangents loaded are near those of the mesh before
it was prepared. The vertices are near those of the prepared mesh, whose corners are the original ones, except for the
last one of each run where it is outside the box (and with 25 bits or more, one at the top of the box): see `C65_accurate_partial`. -/
theorem C75_accurate_partial (hlib : AccurateLibm lib) (hlog : AccurateLog2 lib) (hmono : MonotoneLog2 lib) (hk1 : 1 ≤ k) (hk : k ≤ 30)
    {jobs : List ((Mesh (Val b32) × List UInt8) × List Prep)} (h : Preparable k prec (jobs.map Prod.fst)) (hf : ∀ j ∈ jobs, ∀ s ∈ j.2, s.Fair)
    (hv : 1 / 2 ^ 20 ≤ valueOf prec.vertex) (hn : 1 ≤ prec.normal) (hu : 1 ≤ prec.uv) (ht : 1 ≤ prec.tangent)
    (hm : ∀ j ∈ jobs, Meaningful prec j.1.1) :
    ∃ prepared bytes out, List.Forall₂ (fun j mn => (prepare j.2 j.1.1 = .ok mn.1 ∧ mn.2 = j.1.2) ∧
        selected mn.1.vertices mn.1.vertexTriangles = selected j.1.1.vertices j.1.1.vertexTriangles) jobs prepared ∧
      (∀ b, tmfBytes (ops lib) fb b prec prepared = .ok bytes) ∧
      (∀ b' junk sched, readTmf (ops lib) fb b' ⟨bytes ++ junk, sched, false⟩ = .ok out) ∧
      List.Forall₂ (fun mn mn' => mn'.1.vertexTriangles = mn.1.vertexTriangles ∧
        Faithful k (fun l runs => ∀ b, optVertices (ops lib) b l = .ok runs) prec mn.1 mn'.1) prepared out ∧
      List.Forall₂ (fun j mn => mn.2 = j.1.2 ∧
        CornersRelated (KeptNormal prec.normal) j.1.1.normals mn.1.normals j.1.1.normalTriangles mn.1.normalTriangles ∧
        CornersRelated (fun uv uv' => StepBelow prec.uv uv.1 uv'.1 ∧ StepBelow prec.uv uv.2 uv'.2)
          j.1.1.uvs mn.1.uvs j.1.1.uvTriangles mn.1.uvTriangles ∧
        CornersRelated (fun t t' => KeptNormal prec.tangent t.1 t'.1)
          j.1.1.tangents mn.1.tangents j.1.1.tangentTriangles mn.1.tangentTriangles ∧
        List.Forall₂ (fun c c' => c'.name = c.name ∧ CloseCustom c.data c'.data) j.1.1.customData.reverse mn.1.customData) jobs out := by
  obtain ⟨prepared, hp, hs⟩ := prepared_saveable h hf
  have hsens : Sensible k prec prepared := by
    refine ⟨hs, hv, hn, hu, ht, fun mn hmn => ?_⟩
    obtain ⟨j, hj, -, hl⟩ := exists_of_forall₂ hp.flip mn hmn
    exact meaningful_like hl (hm j hj)
  obtain ⟨bytes, out, hb, -, hr, hc⟩ := C65_accurate_partial (fb := fb) hlib hlog hmono hk1 hk hsens
  have hidx : List.Forall₂ (fun mn mn' => SameIndices mn.1 mn'.1) prepared out := by
    obtain ⟨bytes', o, hb', -, hr', hl⟩ := saveable_loaded (fb := fb) hlog hmono hk1 hk hs
    have e := hb' .checked
    rw [hb .checked] at e
    cases e
    have e := hr' .checked [] []
    rw [hr .checked [] []] at e
    cases e
    refine hl.imp ?_
    rintro mn mn' ⟨-, edge, -, hm, -⟩
    rw [hm]
    exact ⟨rfl, rfl, rfl, rfl⟩
  have hboth := forall₂_and_of hidx hc
  refine ⟨prepared, bytes, out, hp.imp fun _ _ h => ⟨h.1, h.2.vertices.same⟩, hb, hr, hboth.imp fun _ _ h => ⟨h.1.1, h.2.2⟩, forall₂_compose ?_ hp hboth⟩
  rintro j mn mn' ⟨⟨-, hn⟩, hl⟩ ⟨⟨i1, i2, i3, i4⟩, hn', hfa⟩
  exact ⟨hn'.trans hn, hl.normals.related i2 hfa.normals, hl.uvs.related i3 hfa.uvs, hl.tangents.related i4 hfa.tangents,
    by rw [← hl.custom]; exact hfa.custom⟩

section Example

/-- The triangle of `Props/FileAccuracy.lean` with indices for its normal, uv and tangent. -/
def wiredKit : Mesh (Val b32) :=
  { kit with normalTriangles := some [0, 0, 0], uvTriangles := some [0, 0, 0], tangentTriangles := some [0, 0, 0] }

theorem wired_corners : corners wiredKit = 3 := by decide +kernel

theorem wired_preparable : Preparable 24 kitPrec [(wiredKit, [65])] where
  finite := kit_sensible.saveable.finite
  vertex := kit_sensible.saveable.vertex
  normal := kit_sensible.saveable.normal
  uv := kit_sensible.saveable.uv
  tangent := kit_sensible.saveable.tangent
  names := by
    intro mn h
    rcases List.mem_singleton.mp h with rfl
    exact kit_sensible.saveable.names (kit, [65]) (List.mem_singleton.mpr rfl)
  mesh := by
    intro mn h
    rcases List.mem_singleton.mp h with rfl
    obtain ⟨h1, h2, -, -, -, h6, -⟩ := kit_sensible.saveable.mesh (kit, [65]) (List.mem_singleton.mpr rfl)
    have small : SmallIndices (some [0, 0, 0]) := by
      intro l hl
      cases hl
      intro i hi
      simp only [List.mem_cons, List.not_mem_nil, or_false] at hi
      omega
    refine ⟨?_, h1, h2, small, small, small, h6, ?_⟩
    · rw [wired_corners]
      constructor
      all_goals
        intro d t hd ht
        cases hd
        cases ht
        refine ⟨fun i hi => ?_, rfl⟩
        simp only [List.mem_cons, List.not_mem_nil, or_false] at hi
        rcases hi with rfl | rfl | rfl <;> exact ⟨by decide, by decide⟩
    · rw [preparedSegments, wired_corners]
      norm_num [preparedPieces, mostElements, wiredKit, kit, Mesh.empty, turned, show Nat.log2 3 = 1 by decide]
  size := by
    rw [List.map_singleton, List.sum_singleton, preparedSize, preparedSegments, wired_corners]
    norm_num [preparedPieces, mostElements, customLoad, customCount, wiredKit, kit, Mesh.empty, turned, show Nat.log2 3 = 1 by decide]

/-- Unifying gives the triangle three normals instead of one. -/
example : ((wiredKit.unifyIndexData id).bind fun m => .ok (m.normals.map List.length, m.normalTriangles) : Outcome Empty _) =
    .ok (some 3, some [0, 1, 2]) := by decide +kernel

/-- Reordered, unified and reordered again, or not prepared at all: the file loads, and the normal at each corner is within
the accuracy of the one of the original. -/
example (fb : F64Bytes (ops someLibm)) (steps : List Prep) (hs : steps = [.reorder, .unify List.reverse, .reorder] ∨ steps = []) :
    ∃ m bytes out, prepare steps wiredKit = .ok m ∧ (∀ b, tmfBytes (ops someLibm) fb b kitPrec [(m, [65])] = .ok bytes) ∧
      (∀ b' junk sched, readTmf (ops someLibm) fb b' ⟨bytes ++ junk, sched, false⟩ = .ok [(out, [65])]) ∧
      CornersRelated (KeptNormal 7) wiredKit.normals out.normals wiredKit.normalTriangles out.normalTriangles := by
  have hf : ∀ s ∈ steps, s.Fair := by
    rcases hs with rfl | rfl
    · intro s h
      simp only [List.mem_cons, List.not_mem_nil, or_false] at h
      rcases h with rfl | rfl | rfl
      exacts [trivial, fun c => List.reverse_perm c, trivial]
    · intro s h; cases h
  obtain ⟨prepared, bytes, out, hp, hb, hr, -, hc⟩ := C75_accurate_partial (fb := fb) (jobs := [((wiredKit, [65]), steps)])
    someLibm_accurate someLibm_log2 someLibm_monotone (by decide) (by decide) wired_preparable
    (by intro j hj; rcases List.mem_singleton.mp hj with rfl; exact hf) kit_sensible.vertex kit_sensible.normal kit_sensible.uv kit_sensible.tangent
    (by
      intro j hj
      rcases List.mem_singleton.mp hj with rfl
      obtain ⟨a, b, c⟩ := kit_sensible.meaningful (kit, [65]) (List.mem_singleton.mpr rfl)
      exact ⟨a, b, c⟩)
  obtain ⟨⟨m, name⟩, rfl, ⟨e, hn⟩, -⟩ := forall₂_one hp
  obtain ⟨⟨m', name'⟩, rfl, hn', hk, -⟩ := forall₂_one hc
  cases hn
  cases hn'
  exact ⟨m, bytes, m', e, hb, hr, hk⟩

end Example

end Tmf.Props
