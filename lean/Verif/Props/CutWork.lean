import Verif.Props.Depth
import Verif.Props.VertexDepth
/-
C89: how many elements are looked at while arrays are cut.
-/

namespace Tmf.Props
open Spec
variable {b : Build} {α : Type}

/-- The number of elements in the arrays of all calls of a function that cuts arrays: itself and its calls for the two parts. Each
call reads its array a fixed number of times (src/tmf_exporter.rs:227-279 four times at most, 308-364 twice). -/
def cutWork (split : List α → Option Nat) : Nat → List α → Nat
  | 0, _ => 0
  | n + 1, l => l.length + match split l with
    | some i => cutWork split n (l.take i) + cutWork split n (l.drop i)
    | none => 0

/-- Where an array is cut, if it is. -/
def foundSplit {ε : Type} (o : Outcome ε (Option Nat)) : Option Nat :=
  match o with
  | .ok i => i
  | _ => none

/-- The elements `opt_tris` looks at, src/tmf_exporter.rs:227-279. -/
def trisWork (b : Build) (l : List Nat) : Nat := cutWork (fun l => foundSplit (trisSplit b l)) (l.length + 1) l

/-- The elements `opt_vertices` looks at, src/tmf_exporter.rs:308-364. -/
def verticesWork (fo : FloatOps) (b : Build) (l : List (Vec3 fo.F)) : Nat :=
  cutWork (fun l => foundSplit (findBestVertexSplit fo b l (fo.lit 1 2))) (l.length + 1) l

theorem foundSplit_some {ε : Type} {o : Outcome ε (Option Nat)} {i : Nat} : foundSplit o = some i ↔ o = .ok (some i) := by
  cases o <;> simp [foundSplit]

theorem cutWork_some {split : List α → Option Nat} {l : List α} {i : Nat} (h : split l = some i) (n : Nat) :
    l.length + cutWork split n (l.drop i) ≤ cutWork split (n + 1) l := by
  rw [cutWork, h]
  exact Nat.add_le_add_left (Nat.le_add_left _ _) _

/-- At most the depth times the length. -/
theorem cutWork_le {split : List α → Option Nat} {nested : List α → Nat → Prop}
    (h1 : ∀ l, nested l 1)
    (h2 : ∀ {l i d}, split l = some i → nested (l.take i) d → nested l (d + 1))
    (h3 : ∀ {l i d}, split l = some i → nested (l.drop i) d → nested l (d + 1)) :
    ∀ (n D : Nat) (l : List α), (∀ d, nested l d → d ≤ D) → cutWork split n l ≤ D * l.length := by
  intro n
  induction n with
  | zero => intro D l _; exact Nat.zero_le _
  | succ n ih =>
    intro D l hD
    obtain ⟨D, rfl⟩ : ∃ k, D = k + 1 := ⟨D - 1, by have := hD 1 (h1 l); omega⟩
    rw [cutWork]
    cases hs : split l with
    | none => simp only; rw [Nat.succ_mul]; omega
    | some i =>
      have e1 := ih D (l.take i) fun d hd => Nat.le_of_succ_le_succ (hD _ (h2 hs hd))
      have e2 := ih D (l.drop i) fun d hd => Nat.le_of_succ_le_succ (hD _ (h3 hs hd))
      have e3 : (l.take i).length + (l.drop i).length = l.length := by
        rw [← List.length_append, List.take_append_drop]
      have e4 : D * (l.take i).length + D * (l.drop i).length = D * l.length := by rw [← Nat.mul_add, e3]
      simp only
      rw [Nat.succ_mul]
      omega

/-- C89 (partial: not proportional to the length): for index arrays at most the square of the length, times 32/89, and the length. -/
theorem C89_tris_partial {l : List Nat} (hl : ∀ i ∈ l, i < 2 ^ 32) : trisWork b l ≤ (32 * l.length / 89 + 1) * l.length := by
  refine cutWork_le (nested := Nested b) (fun l => .one l) (fun h => .first (foundSplit_some.mp h)) (fun h => .second (foundSplit_some.mp h))
    _ _ _ ?_
  intro d hd
  have := C85_linear_partial hl hd
  omega

/-- C89 (partial): for vertex arrays at most the square of the length. -/
theorem C89_vertices_partial {fo : FloatOps} (laws : OrderLaws fo) {l : List (Vec3 fo.F)} (hl : CountsSafe fo b l) :
    verticesWork fo b l ≤ l.length * l.length := by
  by_cases h0 : l = []
  · subst h0
    obtain ⟨o, e, ho⟩ := hl.split laws
    have : foundSplit (findBestVertexSplit fo b [] (fo.lit 1 2)) = none := by
      cases h : foundSplit (findBestVertexSplit fo b [] (fo.lit 1 2)) with
      | none => rfl
      | some i =>
        have h1 := foundSplit_some.mp h
        rw [e] at h1
        cases h1
        have := ho i rfl
        simp at this
    simp [verticesWork, cutWork, this]
  · have hpos := List.length_pos_iff.mpr h0
    refine cutWork_le (nested := NestedVertices fo b) (fun l => .one l) (fun h => .first (foundSplit_some.mp h))
      (fun h => .second (foundSplit_some.mp h)) _ _ _ ?_
    intro d hd
    have := C88_linear_partial laws hd hl
    omega

theorem zigzag_work (n : Nat) : ∀ (up : Bool) (k : Nat), n < k → 9 * n * n ≤
    2 * cutWork (fun l => foundSplit (trisSplit b l)) k (zigzag up n) := by
  induction n with
  | zero => intro up k hk; simp
  | succ n ih =>
    intro up k hk
    obtain ⟨k, rfl⟩ : ∃ j, k = j + 1 := ⟨k - 1, by omega⟩
    have h := ih (!up) k (by omega)
    have hs : foundSplit (trisSplit b (zigzag up (n + 1))) = some 9 := foundSplit_some.mpr (zigzag_cut up _)
    have hd : (zigzag up (n + 1)).drop 9 = zigzag (!up) n := by
      rw [zigzag_succ, List.drop_append_of_le_length (by cases up <;> decide)]
      rw [show (if up then rise else fall).drop 9 = [] by cases up <;> rfl]
      rfl
    have h1 := cutWork_some (split := fun l => foundSplit (trisSplit b l)) hs k
    rw [hd, zigzag_length] at h1
    have e : 9 * (n + 1) * (n + 1) = 9 * n * n + 18 * n + 9 := by ring
    omega

theorem ridge_work (lib : Ieee.Libm) (hlog : AccurateLog2 lib) (n : Nat) : ∀ (first : Bool) (k : Nat), n < k → n * n ≤
    cutWork (fun l => foundSplit (findBestVertexSplit (Ieee.ops lib) b l ((Ieee.ops lib).lit 1 2))) k ((ridge first n).map onStair) := by
  induction n with
  | zero => intro first k hk; simp
  | succ n ih =>
    intro first k hk
    obtain ⟨k, rfl⟩ : ∃ j, k = j + 1 := ⟨k - 1, by omega⟩
    have h := ih (!first) k (by omega)
    have hs : foundSplit (findBestVertexSplit (Ieee.ops lib) b ((ridge first (n + 1)).map onStair) ((Ieee.ops lib).lit 1 2)) = some 2 :=
      foundSplit_some.mpr (ridge_cut lib hlog first _)
    have hd : ((ridge first (n + 1)).map onStair).drop 2 = (ridge (!first) n).map onStair := rfl
    have h1 := cutWork_some (split := fun l => foundSplit (findBestVertexSplit (Ieee.ops lib) b l ((Ieee.ops lib).lit 1 2))) hs k
    rw [hd, List.length_map, ridge_length] at h1
    have e : (n + 1) * (n + 1) = n * n + 2 * n + 1 := by ring
    omega

/-- C89 is false for index arrays: for every number `c` there is an array of which more than `c` times as many elements are looked at
as it has. -/
theorem C89_tris_violated (c : Nat) : ∃ l : List Nat, (∀ i ∈ l, i < 2 ^ 20) ∧ c * l.length < trisWork b l := by
  have hm := fun i hi => lt_of_le_of_lt (zigzag_mem true (72 * c + 1) i hi) (show 2 ^ 19 < 2 ^ 20 by decide)
  refine ⟨zigzag true (72 * c + 1), hm, ?_⟩
  have h := zigzag_work (b := b) (72 * c + 1) true ((zigzag true (72 * c + 1)).length + 1) (by rw [zigzag_length]; omega)
  rw [trisWork]
  generalize cutWork _ _ _ = w at h
  rw [zigzag_length]
  nlinarith

/-- C89 is false for vertex arrays. -/
theorem C89_vertices_violated (lib : Ieee.Libm) (hlog : AccurateLog2 lib) (c : Nat) : ∃ l : List (Vec3 (Ieee.Val Ieee.b32)),
    CountsFit (Ieee.ops lib) l ∧ c * l.length < verticesWork (Ieee.ops lib) b l := by
  refine ⟨(ridge true (6 * c + 1)).map onStair, countsFit_stair lib hlog (ridge_low _ true), ?_⟩
  have h := ridge_work (b := b) lib hlog (6 * c + 1) true (((ridge true (6 * c + 1)).map onStair).length + 1)
    (by rw [List.length_map, ridge_length]; omega)
  rw [verticesWork]
  generalize cutWork _ _ _ = w at h ⊢
  rw [List.length_map, ridge_length]
  nlinarith

/-- The work on 45 indices: 45 + 9 + 36 + 9 + 27 + 9 + 18 + 9 + 9. -/
example : (∀ i ∈ zigzag true 2, i < 2 ^ 32) ∧ trisWork .checked (zigzag true 2) = 171 := by
  exact ⟨fun i hi => lt_of_le_of_lt (zigzag_mem true 2 i hi) (by decide), by decide +kernel⟩

/-- An accurate logarithm, and vertices as required. -/
example : AccurateLog2 Ieee.someLibm ∧ CountsSafe (Ieee.ops Ieee.someLibm) .checked ((ridge true 2).map onStair) ∧
    4 ≤ verticesWork (Ieee.ops Ieee.someLibm) .checked ((ridge true 2).map onStair) :=
  ⟨Ieee.someLibm_log2, Or.inr (countsFit_stair _ Ieee.someLibm_log2 (ridge_low 2 true)),
    ridge_work _ Ieee.someLibm_log2 2 true _ (by rw [List.length_map, ridge_length]; omega)⟩

end Tmf.Props
