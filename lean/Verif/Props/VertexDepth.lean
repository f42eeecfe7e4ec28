import Verif.Props.OptVertices
/-
C88: how deep the calls of `opt_vertices` nest.
-/

namespace Tmf.Props
open Spec
variable {fo : FloatOps} {b : Build}

/-- The calls of `opt_vertices` nest (at least) `d` deep: it calls itself on the two parts of an array. -/
inductive NestedVertices (fo : FloatOps) (b : Build) : List (Vec3 fo.F) → Nat → Prop
  | one (l : List (Vec3 fo.F)) : NestedVertices fo b l 1
  | first {l : List (Vec3 fo.F)} {i d : Nat} : findBestVertexSplit fo b l (fo.lit 1 2) = .ok (some i) →
      NestedVertices fo b (l.take i) d → NestedVertices fo b l (d + 1)
  | second {l : List (Vec3 fo.F)} {i d : Nat} : findBestVertexSplit fo b l (fo.lit 1 2) = .ok (some i) →
      NestedVertices fo b (l.drop i) d → NestedVertices fo b l (d + 1)

/-- The arithmetic on bit counts does not panic: release builds, or debug builds when the counts fit. -/
def CountsSafe (fo : FloatOps) (b : Build) (vs : List (Vec3 fo.F)) : Prop := b = .wrapping ∨ CountsFit fo vs

theorem CountsSafe.infix {vs l : List (Vec3 fo.F)} (h : CountsSafe fo b vs) (hl : l <:+: vs) : CountsSafe fo b l := by
  rcases h with h | h
  · exact Or.inl h
  · exact Or.inr ⟨fun k hk => h.total k (hk.trans hl), fun k p hk => h.mono k p (hk.trans hl)⟩

theorem CountsSafe.split (laws : OrderLaws fo) {vs : List (Vec3 fo.F)} (h : CountsSafe fo b vs) :
    ∃ o, findBestVertexSplit fo b vs (fo.lit 1 2) = .ok o ∧ ∀ i, o = some i → 0 < i ∧ i + 1 < vs.length := by
  cases b with
  | wrapping =>
    exact findBestVertexSplit_ok laws .wrapping vs _ (fun _ _ => bitCount_wrapping _ _) fun _ _ total n _ _ => subU8_wrapping total n
  | checked =>
    rcases h with h | h
    · cases h
    · refine findBestVertexSplit_ok laws .checked vs _ (fun p hp => h.total p hp.isInfix) ?_
      intro p hp total n ht hn
      exact ⟨total - n, by simp [subU8, h.mono vs p (List.infix_refl vs) hp total n ht hn]⟩

theorem CountsSafe.ok (laws : OrderLaws fo) {vs : List (Vec3 fo.F)} (h : CountsSafe fo b vs) : ∃ ps, optVertices fo b vs = .ok ps := by
  cases b with
  | wrapping => obtain ⟨ps, e, -⟩ := C09_release laws vs; exact ⟨ps, e⟩
  | checked =>
    rcases h with h | h
    · cases h
    · obtain ⟨ps, e, -⟩ := C09_debug_partial laws vs h; exact ⟨ps, e⟩

/-- `optVerticesFuel` is `opt_vertices` on a stack for so many calls: it fails when the calls nest deeper, and else gives the
result of `opt_vertices`. -/
theorem C88_stack (laws : OrderLaws fo) (n : Nat) : ∀ l : List (Vec3 fo.F), CountsSafe fo b l →
    (optVerticesFuel fo b n l = .panic ∧ NestedVertices fo b l (n + 1)) ∨
      (optVerticesFuel fo b n l = optVertices fo b l ∧ ∀ d, NestedVertices fo b l d → d ≤ n) := by
  have mono : ∀ (n : Nat) (l : List (Vec3 fo.F)) (ps : List (List (Vec3 fo.F))), optVerticesFuel fo b n l = .ok ps →
      ∀ m, n ≤ m → optVerticesFuel fo b m l = .ok ps := by
    intro n
    induction n with
    | zero => intro l ps h; cases h
    | succ n ih =>
      intro l ps h m hm
      obtain ⟨m, rfl⟩ : ∃ k, m = k + 1 := ⟨m - 1, by omega⟩
      rw [optVerticesFuel] at h ⊢
      obtain ⟨o, ho, h⟩ := Outcome.bind_eq_ok.mp h
      show (findBestVertexSplit fo b l (fo.lit 1 2)).bind _ = _
      rw [ho]
      cases o with
      | none => exact h
      | some i =>
        obtain ⟨p1, e1, h⟩ := Outcome.bind_eq_ok.mp h
        obtain ⟨p2, e2, h⟩ := Outcome.bind_eq_ok.mp h
        show (optVerticesFuel fo b m (l.take i)).bind _ = _
        rw [ih _ _ e1 m (by omega)]
        show (optVerticesFuel fo b m (l.drop i)).bind _ = _
        rw [ih _ _ e2 m (by omega)]
        exact h
  have eqv : ∀ (n : Nat) (l : List (Vec3 fo.F)) (ps : List (List (Vec3 fo.F))), CountsSafe fo b l → optVerticesFuel fo b n l = .ok ps →
      optVertices fo b l = .ok ps := by
    intro n l ps hl h
    obtain ⟨qs, e⟩ := hl.ok laws
    have h1 := mono _ _ _ h (max n (l.length + 1)) (le_max_left _ _)
    rw [mono _ _ _ e (max n (l.length + 1)) (le_max_right _ _)] at h1
    rw [e, h1]
  induction n with
  | zero => intro l _; exact Or.inl ⟨rfl, .one l⟩
  | succ n ih =>
    intro l hl
    obtain ⟨o, ho, hi⟩ := hl.split laws
    have e : optVerticesFuel fo b (n + 1) l = (findBestVertexSplit fo b l (fo.lit 1 2)).bind fun split => match split with
      | some i => (optVerticesFuel fo b n (l.take i)).bind fun r1 => (optVerticesFuel fo b n (l.drop i)).bind fun r2 => .ok (r1 ++ r2)
      | none => .ok [l] := rfl
    rw [ho] at e
    cases o with
    | none =>
      refine Or.inr ⟨?_, ?_⟩
      · rw [eqv _ _ _ hl e]; exact e
      · intro d hd
        cases hd with
        | one => omega
        | first h _ => rw [ho] at h; cases h
        | second h _ => rw [ho] at h; cases h
    | some i =>
      have h1 := hl.infix (List.take_prefix i l).isInfix
      have h2 := hl.infix (List.drop_suffix i l).isInfix
      obtain ⟨q1, k1⟩ := h1.ok laws
      obtain ⟨q2, k2⟩ := h2.ok laws
      change _ = (optVerticesFuel fo b n (l.take i)).bind fun r1 => (optVerticesFuel fo b n (l.drop i)).bind fun r2 => .ok (r1 ++ r2) at e
      rcases ih _ h1 with ⟨a1, c1⟩ | ⟨a1, c1⟩
      · rw [a1] at e
        exact Or.inl ⟨e, .first ho c1⟩
      · rw [a1, k1] at e
        change _ = (optVerticesFuel fo b n (l.drop i)).bind fun r2 => .ok (q1 ++ r2) at e
        rcases ih _ h2 with ⟨a2, c2⟩ | ⟨a2, c2⟩
        · rw [a2] at e
          exact Or.inl ⟨e, .second ho c2⟩
        · rw [a2, k2] at e
          refine Or.inr ⟨?_, ?_⟩
          · rw [eqv _ _ _ hl e]; exact e
          · intro d hd
            cases hd with
            | one => omega
            | first h hd => rw [ho] at h; cases h; exact Nat.succ_le_succ (c1 _ hd)
            | second h hd => rw [ho] at h; cases h; exact Nat.succ_le_succ (c2 _ hd)

/-- C88 (partial: grows with the array): the calls nest less deep than the array has vertices. -/
theorem C88_linear_partial (laws : OrderLaws fo) {l : List (Vec3 fo.F)} {d : Nat} (h : NestedVertices fo b l d)
    (hl : CountsSafe fo b l) : d = 1 ∨ d < l.length := by
  induction h with
  | one l => exact Or.inl rfl
  | @first l i d hs _ ih =>
    obtain ⟨o, e, hi⟩ := hl.split laws
    rw [hs] at e
    cases e
    have := hi i rfl
    have := ih (hl.infix (List.take_prefix i l).isInfix)
    rw [List.length_take] at this
    omega
  | @second l i d hs _ ih =>
    obtain ⟨o, e, hi⟩ := hl.split laws
    rw [hs] at e
    cases e
    have := hi i rfl
    have := ih (hl.infix (List.drop_suffix i l).isInfix)
    rw [List.length_drop] at this
    omega

/-- C88 (partial): a stack for as many calls as there are vertices is enough. -/
theorem C88_partial (laws : OrderLaws fo) {l : List (Vec3 fo.F)} (hl : CountsSafe fo b l) {n : Nat} (hn : l.length ≤ n) (h0 : 0 < n) :
    optVerticesFuel fo b n l = optVertices fo b l ∧ ∀ d, NestedVertices fo b l d → d ≤ n := by
  rcases C88_stack laws n l hl with ⟨-, h⟩ | h
  · have := C88_linear_partial laws h hl
    omega
  · exact h

/-! Vertices made of four numbers. -/

/-- 0, 0.5, 1 and 2^40. -/
def stair : Nat → Ieee.Val Ieee.b32
  | 0 => Ieee.lit 0 0
  | 1 => Ieee.lit 5 1
  | 2 => Ieee.ofNat 1
  | _ => Ieee.ofNat (2 ^ 40)

/-- A vertex given by the numbers of its coordinates. -/
def onStair (v : Vec3 Nat) : Vec3 (Ieee.Val Ieee.b32) := (stair v.1, stair v.2.1, stair v.2.2)

theorem stair_max : ∀ i < 4, ∀ j < 4, Ieee.max (stair i) (stair j) = stair (Nat.max i j) := by decide +kernel

theorem stair_min : ∀ j < 4, Ieee.min (Ieee.lit 0 0) (stair j) = Ieee.lit 0 0 := by decide +kernel

theorem stair_lt : ∀ i < 4, ∀ j < 4, Ieee.lt (stair i) (stair j) = decide (i < j) := by decide +kernel

theorem stair_pos : ∀ i < 4, Ieee.lt (Ieee.lit 0 0) (stair i) = decide (0 < i) := by decide +kernel

/-- The quotient whose logarithm gives the bit count of an axis. -/
def stairSteps (i : Nat) : Ieee.Val Ieee.b32 :=
  Ieee.div (Ieee.lit 1 0) (Ieee.div (Ieee.lit 1 2) (Ieee.sub (stair i) (Ieee.lit 0 0)))

/-- The bits of an axis. -/
def stairBits : Nat → Nat
  | 0 => 0
  | 1 => 6
  | 2 => 7
  | _ => 47

theorem stair_clear : ∀ i < 4, Ieee.clear (stairSteps i) = true ∧ Ieee.exactBits (stairSteps i) = stairBits i := by decide +kernel

/-- The numbers are below four. -/
def OnStair (v : Vec3 Nat) : Prop := v.1 < 4 ∧ v.2.1 < 4 ∧ v.2.2 < 4

/-- The larger numbers of two vertices. -/
def join (u v : Vec3 Nat) : Vec3 Nat := (Nat.max u.1 v.1, Nat.max u.2.1 v.2.1, Nat.max u.2.2 v.2.2)

theorem OnStair.join {u v : Vec3 Nat} (hu : OnStair u) (hv : OnStair v) : OnStair (join u v) :=
  ⟨max_lt hu.1 hv.1, max_lt hu.2.1 hv.2.1, max_lt hu.2.2 hv.2.2⟩

/-- The span from the origin to a vertex. -/
def stairSpan (v : Vec3 Nat) : Vec3 (Ieee.Val Ieee.b32) × Vec3 (Ieee.Val Ieee.b32) :=
  ((Ieee.lit 0 0, Ieee.lit 0 0, Ieee.lit 0 0), onStair v)

theorem expandSpan_stair (lib : Ieee.Libm) {u v : Vec3 Nat} (hu : OnStair u) (hv : OnStair v) :
    expandSpan (Ieee.ops lib) (stairSpan u) (onStair v) = stairSpan (join u v) := by
  show ((Ieee.min (Ieee.lit 0 0) (stair v.1), Ieee.min (Ieee.lit 0 0) (stair v.2.1), Ieee.min (Ieee.lit 0 0) (stair v.2.2)),
    (Ieee.max (stair u.1) (stair v.1), Ieee.max (stair u.2.1) (stair v.2.1), Ieee.max (stair u.2.2) (stair v.2.2))) = _
  rw [stair_min _ hv.1, stair_min _ hv.2.1, stair_min _ hv.2.2, stair_max _ hu.1 _ hv.1, stair_max _ hu.2.1 _ hv.2.1,
    stair_max _ hu.2.2 _ hv.2.2]
  rfl

/-- Strictly between the origin and a vertex. -/
def Under (u v : Vec3 Nat) : Prop := (0 < v.1 ∧ v.1 < u.1) ∧ (0 < v.2.1 ∧ v.2.1 < u.2.1) ∧ (0 < v.2.2 ∧ v.2.2 < u.2.2)

instance (u v : Vec3 Nat) : Decidable (Under u v) := by unfold Under; infer_instance

theorem insideSpan_stair (lib : Ieee.Libm) {u v : Vec3 Nat} (hu : OnStair u) (hv : OnStair v) :
    insideSpan (Ieee.ops lib) (stairSpan u) (onStair v) = decide (Under u v) := by
  show (Ieee.lt (Ieee.lit 0 0) (stair v.1) && Ieee.lt (stair v.1) (stair u.1) && Ieee.lt (Ieee.lit 0 0) (stair v.2.1)
    && Ieee.lt (stair v.2.1) (stair u.2.1) && Ieee.lt (Ieee.lit 0 0) (stair v.2.2) && Ieee.lt (stair v.2.2) (stair u.2.2)) = _
  rw [stair_pos _ hv.1, stair_pos _ hv.2.1, stair_pos _ hv.2.2, stair_lt _ hv.1 _ hu.1, stair_lt _ hv.2.1 _ hu.2.1,
    stair_lt _ hv.2.2 _ hu.2.2]
  rw [Bool.eq_iff_iff]
  simp only [Under, Bool.and_eq_true, decide_eq_true_eq, and_assoc]

/-- The bits of a vertex: those of the second axis count twice. -/
def stairVertexBits (v : Vec3 Nat) : Nat := stairBits v.1 + stairBits v.2.1 + stairBits v.2.1

theorem stairBits_le (i : Nat) : stairBits i ≤ 47 := by
  unfold stairBits
  split <;> omega

theorem stairBits_mono {i j : Nat} (h : i ≤ j) : stairBits i ≤ stairBits j := by
  rcases j with _ | _ | _ | j <;> rcases i with _ | _ | _ | i <;> simp [stairBits] <;> omega

theorem bitCount_stair (lib : Ieee.Libm) (hlog : AccurateLog2 lib) {u : Vec3 Nat} (hu : OnStair u) :
    rangeToVertexBitCount (Ieee.ops lib) b (stairSpan u) ((Ieee.ops lib).lit 1 2) = .ok (stairVertexBits u) := by
  have hb : ∀ i < 4, Ieee.bitsFor lib (stairSteps i) = stairBits i := by
    intro i hi
    rw [Ieee.bits_clear hlog (stair_clear i hi).1, (stair_clear i hi).2]
  have h1 := stairBits_le u.1
  have h2 := stairBits_le u.2.1
  show (addU8 b (Ieee.bitsFor lib (stairSteps u.1)) (Ieee.bitsFor lib (stairSteps u.2.1))).bind
    (fun s => addU8 b s (Ieee.bitsFor lib (stairSteps u.2.1))) = _
  rw [hb _ hu.1, hb _ hu.2.1, addU8.eq_def, if_pos (by omega)]
  show addU8 b _ _ = _
  rw [addU8.eq_def, if_pos (by omega)]
  rfl

/-- The largest numbers of an array, beginning with a vertex. -/
def topFrom (u : Vec3 Nat) (l : List (Vec3 Nat)) : Vec3 Nat := l.foldl join u

theorem topFrom_low {l : List (Vec3 Nat)} : ∀ {u : Vec3 Nat}, OnStair u → (∀ v ∈ l, OnStair v) → OnStair (topFrom u l) := by
  induction l with
  | nil => intro u hu _; exact hu
  | cons v l ih => intro u hu hl; exact ih (hu.join (hl v (by simp))) fun w hw => hl w (by simp [hw])

theorem foldl_stair (lib : Ieee.Libm) {l : List (Vec3 Nat)} : ∀ {u : Vec3 Nat}, OnStair u → (∀ v ∈ l, OnStair v) →
    (l.map onStair).foldl (expandSpan (Ieee.ops lib)) (stairSpan u) = stairSpan (topFrom u l) := by
  induction l with
  | nil => intro u hu _; rfl
  | cons v l ih =>
    intro u hu hl
    rw [List.map_cons, List.foldl_cons, expandSpan_stair lib hu (hl v (by simp))]
    exact ih (hu.join (hl v (by simp))) fun w hw => hl w (by simp [hw])

theorem spanOf_stair (lib : Ieee.Libm) {l : List (Vec3 Nat)} (hl : ∀ v ∈ l, OnStair v) :
    spanOf (Ieee.ops lib) (l.map onStair) = stairSpan (topFrom (0, 0, 0) l) :=
  foldl_stair lib (u := (0, 0, 0)) ⟨by decide, by decide, by decide⟩ hl

theorem topFrom_ge (l : List (Vec3 Nat)) : ∀ u : Vec3 Nat, u.1 ≤ (topFrom u l).1 ∧ u.2.1 ≤ (topFrom u l).2.1 := by
  induction l with
  | nil => intro u; exact ⟨le_rfl, le_rfl⟩
  | cons v l ih =>
    intro u
    have h := ih (join u v)
    exact ⟨le_trans (Nat.le_max_left _ _) h.1, le_trans (Nat.le_max_left _ _) h.2⟩

/-- The counts of such arrays fit. -/
theorem countsFit_stair (lib : Ieee.Libm) (hlog : AccurateLog2 lib) {l : List (Vec3 Nat)} (hl : ∀ v ∈ l, OnStair v) :
    CountsFit (Ieee.ops lib) (l.map onStair) := by
  have h0 : OnStair (0, 0, 0) := ⟨by decide, by decide, by decide⟩
  have hi : ∀ k, k <:+: l.map onStair → ∃ k' : List (Vec3 Nat), k = k'.map onStair ∧ ∀ v ∈ k', OnStair v := by
    rintro k ⟨s, t, e⟩
    obtain ⟨l1, l2, rfl, e1, e2⟩ := List.map_eq_append_iff.mp e.symm
    obtain ⟨l3, l4, rfl, e3, e4⟩ := List.map_eq_append_iff.mp e1
    exact ⟨l4, e4.symm, fun v hv => hl v (by simp [hv])⟩
  constructor
  · intro k hk
    obtain ⟨k', rfl, hk'⟩ := hi k hk
    rw [spanOf_stair lib hk']
    exact ⟨_, bitCount_stair lib hlog (topFrom_low h0 hk')⟩
  · intro k p hk hp n m hn hm
    obtain ⟨k', rfl, hk'⟩ := hi k hk
    obtain ⟨t, e⟩ := hp
    obtain ⟨l1, l2, rfl, rfl, e2⟩ := List.map_eq_append_iff.mp e.symm
    have hp' : ∀ v ∈ l1, OnStair v := fun v hv => hk' v (by simp [hv])
    rw [spanOf_stair lib hk', bitCount_stair lib hlog (topFrom_low h0 hk')] at hn
    rw [spanOf_stair lib hp', bitCount_stair lib hlog (topFrom_low h0 hp')] at hm
    cases hn; cases hm
    have := topFrom_ge l2 (topFrom (0, 0, 0) l1)
    rw [show topFrom (topFrom (0, 0, 0) l1) l2 = topFrom (0, 0, 0) (l1 ++ l2) by simp [topFrom]] at this
    have h1 := stairBits_mono this.1
    have h2 := stairBits_mono this.2
    unfold stairVertexBits
    omega

/-- Once the first two axes are as long as they get, no later vertex is a better place to cut. -/
theorem vertexScan_full (lib : Ieee.Libm) (hlog : AccurateLog2 lib) {l : List (Vec3 Nat)} (hl : ∀ v ∈ l, OnStair v) :
    ∀ {u : Vec3 Nat} {i : Nat} {s : Int} {j : Nat}, OnStair u → u.1 = 3 → u.2.1 = 3 → -65 ≤ s →
      vertexScan (Ieee.ops lib) b ((Ieee.ops lib).lit 1 2) 141 i (stairSpan u) 141 (l.map onStair) ⟨some s, j⟩ = .ok ⟨some s, j⟩ := by
  induction l with
  | nil => intros; rfl
  | cons v l ih =>
    intro u i s j hu h1 h2 hs
    have hv := hl v (by simp)
    have ih := @ih fun w hw => hl w (by simp [hw])
    rw [List.map_cons, vertexScan, insideSpan_stair lib hu hv]
    split
    · rw [subU8_self]
      simp only [Outcome.bind_ok]
      rw [show (⟨some s, j⟩ : Best).update i (((i * 0 : Nat) : Int) - 65) = ⟨some s, j⟩ by
        simp only [Best.update]; rw [if_neg (by simp; omega)]]
      exact ih hu h1 h2 hs
    · have hj := hu.join hv
      have e1 : (join u v).1 = 3 := by
        have h3 : u.1 ≤ (join u v).1 := Nat.le_max_left _ _
        have := hj.1
        omega
      have e2 : (join u v).2.1 = 3 := by
        have h3 : u.2.1 ≤ (join u v).2.1 := Nat.le_max_left _ _
        have := hj.2.1
        omega
      simp only
      rw [expandSpan_stair lib hu hv, bitCount_stair lib hlog hj, Outcome.bind_ok,
        show stairVertexBits (join u v) = 141 by rw [stairVertexBits, e1, e2]; rfl]
      exact ih hj e1 e2 hs

/-- Far along the first axis, or along the second. -/
def peak (first : Bool) : Vec3 Nat := if first then (3, 2, 2) else (2, 3, 2)

/-- `n + 2` times a vertex near the origin and one far away, along the two axes in turns. -/
def ridge : Bool → Nat → List (Vec3 Nat)
  | first, 0 => [(1, 1, 1), peak first, (1, 1, 1), peak (!first)]
  | first, n + 1 => (1, 1, 1) :: peak first :: ridge (!first) n

theorem ridge_low (n : Nat) : ∀ first, ∀ v ∈ ridge first n, OnStair v := by
  have h : OnStair (1, 1, 1) := ⟨by decide, by decide, by decide⟩
  have hp : ∀ first, OnStair (peak first) := by
    intro first
    cases first <;> exact ⟨by decide, by decide, by decide⟩
  induction n with
  | zero =>
    intro first v hv
    simp only [ridge, List.mem_cons, List.not_mem_nil, or_false] at hv
    rcases hv with rfl | rfl | rfl | rfl
    · exact h
    · exact hp _
    · exact h
    · exact hp _
  | succ n ih =>
    intro first v hv
    simp only [ridge, List.mem_cons] at hv
    rcases hv with rfl | rfl | hv
    · exact h
    · exact hp _
    · exact ih _ v hv

theorem ridge_length (n : Nat) : ∀ first, (ridge first n).length = 2 * n + 4 := by
  induction n with
  | zero => intro first; rfl
  | succ n ih => intro first; simp only [ridge, List.length_cons, ih]; omega

theorem ridge_next (first : Bool) (n : Nat) : ∃ l, ridge first n = (1, 1, 1) :: peak first :: (1, 1, 1) :: peak (!first) :: l := by
  cases n with
  | zero => exact ⟨[], rfl⟩
  | succ n =>
    cases n with
    | zero => exact ⟨_, rfl⟩
    | succ n => exact ⟨_, rfl⟩

/-- It is cut after the first two vertices. -/
theorem ridge_cut (lib : Ieee.Libm) (hlog : AccurateLog2 lib) (first : Bool) (n : Nat) :
    findBestVertexSplit (Ieee.ops lib) b ((ridge first n).map onStair) ((Ieee.ops lib).lit 1 2) = .ok (some 2) := by
  obtain ⟨l, e⟩ := ridge_next first n
  have hl := ridge_low n first
  rw [e] at hl ⊢
  have h0 : OnStair (0, 0, 0) := ⟨by decide, by decide, by decide⟩
  have hn : OnStair (1, 1, 1) := ⟨by decide, by decide, by decide⟩
  have hp : ∀ first, OnStair (peak first) := by
    intro first
    cases first <;> exact ⟨by decide, by decide, by decide⟩
  have hr : ∀ v ∈ l, OnStair v := fun v hv => hl v (by simp [hv])
  -- the whole
  have ht := topFrom_low h0 hl
  have htop : (topFrom (0, 0, 0) ((1, 1, 1) :: peak first :: (1, 1, 1) :: peak (!first) :: l)).1 = 3 ∧
      (topFrom (0, 0, 0) ((1, 1, 1) :: peak first :: (1, 1, 1) :: peak (!first) :: l)).2.1 = 3 := by
    have h := topFrom_ge l (3, 3, 2)
    have e : topFrom (0, 0, 0) ((1, 1, 1) :: peak first :: (1, 1, 1) :: peak (!first) :: l) = topFrom (3, 3, 2) l := by
      cases first <;> rfl
    rw [e] at ht ⊢
    have := ht.1
    have := ht.2.1
    simp only at h
    omega
  have htotal : stairVertexBits (topFrom (0, 0, 0) ((1, 1, 1) :: peak first :: (1, 1, 1) :: peak (!first) :: l)) = 141 := by
    rw [stairVertexBits, htop.1, htop.2]; rfl
  -- the scan
  have hscan : ∃ s : Int, 0 < s ∧ vertexScan (Ieee.ops lib) b ((Ieee.ops lib).lit 1 2) 141 0 (stairSpan (0, 0, 0)) 0
      (((1, 1, 1) :: peak first :: (1, 1, 1) :: peak (!first) :: l).map onStair) ⟨none, 0⟩ = .ok ⟨some s, 2⟩ := by
    have step : ∀ {u v : Vec3 Nat} {i bits : Nat} {best : Best} {k : List (Vec3 (Ieee.Val Ieee.b32))}, OnStair u → OnStair v → ¬ Under u v →
        vertexScan (Ieee.ops lib) b ((Ieee.ops lib).lit 1 2) 141 i (stairSpan u) bits (onStair v :: k) best =
          vertexScan (Ieee.ops lib) b ((Ieee.ops lib).lit 1 2) 141 (i + 1) (stairSpan (join u v)) (stairVertexBits (join u v)) k best := by
      intro u v i bits best k hu hv hn
      rw [vertexScan, insideSpan_stair lib hu hv, decide_eq_false hn, if_neg (by decide)]
      simp only
      rw [expandSpan_stair lib hu hv, bitCount_stair lib hlog (hu.join hv), Outcome.bind_ok]
    have score : ∀ {u v : Vec3 Nat} {i bits : Nat} {best : Best} {k : List (Vec3 (Ieee.Val Ieee.b32))}, OnStair u → OnStair v → Under u v →
        bits ≤ 141 →
        vertexScan (Ieee.ops lib) b ((Ieee.ops lib).lit 1 2) 141 i (stairSpan u) bits (onStair v :: k) best =
          vertexScan (Ieee.ops lib) b ((Ieee.ops lib).lit 1 2) 141 (i + 1) (stairSpan u) bits k
            (best.update i (((i * (141 - bits) : Nat) : Int) - 65)) := by
      intro u v i bits best k hu hv hn hb
      rw [vertexScan, insideSpan_stair lib hu hv, decide_eq_true hn, if_pos rfl, subU8.eq_def, if_pos hb]
      rfl
    cases first with
    | true =>
      refine ⟨95, by decide, ?_⟩
      simp only [List.map_cons]
      rw [step h0 hn (by decide), step (h0.join hn) (hp true) (by decide),
        score ((h0.join hn).join (hp true)) hn (by decide) (by decide),
        step ((h0.join hn).join (hp true)) (show OnStair (peak !true) from hp false) (by decide)]
      exact vertexScan_full lib hlog hr (((h0.join hn).join (hp true)).join (hp false)) rfl rfl (by decide)
    | false =>
      refine ⟨15, by decide, ?_⟩
      simp only [List.map_cons]
      rw [step h0 hn (by decide), step (h0.join hn) (hp false) (by decide),
        score ((h0.join hn).join (hp false)) hn (by decide) (by decide),
        step ((h0.join hn).join (hp false)) (show OnStair (peak !false) from hp true) (by decide)]
      exact vertexScan_full lib hlog hr (((h0.join hn).join (hp false)).join (hp true)) rfl rfl (by decide)
  obtain ⟨s, hs, hscan⟩ := hscan
  unfold findBestVertexSplit
  have hspan := foldl_stair lib h0 hl
  change List.foldl _ (zeroSpan (Ieee.ops lib)) _ = _ at hspan
  simp only
  rw [hspan, bitCount_stair lib hlog ht, Outcome.bind_ok, htotal]
  change (vertexScan (Ieee.ops lib) b ((Ieee.ops lib).lit 1 2) 141 0 (stairSpan (0, 0, 0)) 0 _ _).bind _ = _
  rw [hscan]
  show (match (⟨some s, 2⟩ : Best).split with
    | some i => if i < _ then _ else _
    | none => _) = _
  rw [show (⟨some s, 2⟩ : Best).split = some 2 by simp [Best.split, hs]]
  simp

theorem ridge_nested (lib : Ieee.Libm) (hlog : AccurateLog2 lib) (n : Nat) :
    ∀ first, NestedVertices (Ieee.ops lib) b ((ridge first n).map onStair) (n + 2) := by
  induction n with
  | zero => intro first; exact .second (ridge_cut lib hlog first 0) (.one _)
  | succ n ih => intro first; exact .second (ridge_cut lib hlog first _) (ih _)

/-- C88 is false: no stack is large enough for all vertex arrays. Where vertices far along the first axis and far along the second take
turns, two vertices are cut off at a time, and each of these cuts is one more nested call: it takes a stack for 2 + n calls to save
2 * n + 4 vertices. -/
theorem C88_violated (lib : Ieee.Libm) (hlog : AccurateLog2 lib) (n : Nat) : ∃ vs : List (Vec3 (Ieee.Val Ieee.b32)),
    vs.length = 2 * n + 4 ∧ (∀ v ∈ vs, ∀ x ∈ [v.1, v.2.1, v.2.2], Ieee.isFinite x = true ∧ 0 ≤ valueOf x ∧ valueOf x ≤ 2 ^ 40) ∧
    NestedVertices (Ieee.ops lib) b vs (n + 2) ∧ optVerticesFuel (Ieee.ops lib) b (n + 1) vs = .panic ∧
    ∃ ps, optVertices (Ieee.ops lib) b vs = .ok ps := by
  have hl := ridge_low n true
  have hc : CountsSafe (Ieee.ops lib) b ((ridge true n).map onStair) := Or.inr (countsFit_stair lib hlog hl)
  have laws := Ieee.orderLaws lib
  refine ⟨(ridge true n).map onStair, by simp [ridge_length], ?_, ridge_nested lib hlog n true, ?_, hc.ok laws⟩
  · have hs : ∀ i < 4, Ieee.isFinite (stair i) = true ∧ 0 ≤ valueOf (stair i) ∧ valueOf (stair i) ≤ 2 ^ 40 := by decide +kernel
    intro v hv x hx
    obtain ⟨u, hu, rfl⟩ := List.mem_map.mp hv
    have hu := hl u hu
    simp only [List.mem_cons, List.not_mem_nil, or_false] at hx
    rcases hx with rfl | rfl | rfl
    · exact hs _ hu.1
    · exact hs _ hu.2.1
    · exact hs _ hu.2.2
  · rcases C88_stack laws (n + 1) _ hc with ⟨h, -⟩ | ⟨-, h⟩
    · exact h
    · have := h _ (ridge_nested lib hlog n true)
      omega

/-- The hypotheses can be met: an accurate logarithm, and eight vertices with four nested calls. -/
example : ∃ lib : Ieee.Libm, AccurateLog2 lib ∧ CountsSafe (Ieee.ops lib) .checked ((ridge true 2).map onStair) ∧
    NestedVertices (Ieee.ops lib) .checked ((ridge true 2).map onStair) 4 ∧ ((ridge true 2).map onStair).length = 8 ∧
    optVerticesFuel (Ieee.ops lib) .checked 3 ((ridge true 2).map onStair) = .panic := by
  refine ⟨Ieee.someLibm, Ieee.someLibm_log2, Or.inr (countsFit_stair _ Ieee.someLibm_log2 (ridge_low 2 true)), ridge_nested _ Ieee.someLibm_log2 2 true, rfl, ?_⟩
  rcases C88_stack (Ieee.orderLaws Ieee.someLibm) 3 _ (Or.inr (countsFit_stair _ Ieee.someLibm_log2 (ridge_low 2 true))) with ⟨h, -⟩ | ⟨-, h⟩
  · exact h
  · have := h _ (ridge_nested (b := .checked) _ Ieee.someLibm_log2 2 true)
    omega

end Tmf.Props
