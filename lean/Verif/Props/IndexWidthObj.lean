import Verif.Lemmas.IndexWidthObj
import Verif.Props.Unify
/-
C73: the features `long_indices` and `short_indices` in reordering, pruning, unifying and .obj files.
-/

namespace Tmf.Props

open Tmf Tmf.Spec

variable {fo : FloatOps} {F : Type}

/-- C73: with 32 bits all functions are those of the default build. -/
theorem C73_default (m : Mesh F) (order : Combos → Combos) (ft : FloatText fo) (face : PushFace fo.F) (b : Build) (text : List UInt8)
    (meshes : List (Mesh fo.F × List UInt8)) : m.reorderDataIn 32 = m.reorderData ∧ m.unifyIndexDataIn 32 order = m.unifyIndexData order ∧
      readFromObjIn 32 ft face b text = readFromObj ft face b text ∧ writeObjIn 32 ft b meshes = writeObj ft b meshes :=
  ⟨reorderIn_default m, unifyIn_default order m, readObjLoopIn_default ft face b _ _, writeObjIn_default ft b meshes⟩

/-- C73: reordering does the same with all types that hold the indices of the mesh. -/
theorem C73_reorder {j k : Nat} {m : Mesh F} (hj : ArraysIn j m) (hk : ArraysIn k m) : m.reorderDataIn j = m.reorderDataIn k := by
  unfold Mesh.reorderDataIn
  simp only
  rw [reorderPairIn_eq hj.vertex hk.vertex, reorderPairIn_eq hj.normal hk.normal, reorderPairIn_eq hj.uv hk.uv]

/-- C73: pruning with any type succeeds, and the indices select the same elements as before, even if the type cannot
hold the length of the array. -/
theorem C73_prune {α : Type} (k : Nat) (b : Build) (data : List α) (indices : List Nat) :
    ∃ data' indices', fastPruneIn k b data indices = .ok (data', indices') ∧ lookups data' indices' = lookups data indices := by
  obtain ⟨d, i, h, -, hl⟩ := fastPruneIn_ok k b data indices
  exact ⟨d, i, h, hl⟩

/-- C73: types that hold the length of the array prune alike. -/
theorem C73_prune_same {α : Type} {j k : Nat} (b : Build) {data : List α} (hj : data.length < 2 ^ j) (hk : data.length < 2 ^ k)
    (indices : List Nat) : fastPruneIn j b data indices = fastPruneIn k b data indices :=
  fastPruneIn_eq b hj hk indices

/-- C73 fails in pruning: with an array whose length is the number of values of the type, nothing is removed, although all
indices are large. -/
theorem C73_prune_violated {α : Type} {k j : Nat} (hk : 0 < k) (hj : k < j) (b : Build) {data : List α} (h : data.length = 2 ^ k) :
    fastPruneIn k b data [2 ^ k - 1, 2 ^ k - 1, 2 ^ k - 1] = .ok (data, [2 ^ k - 1, 2 ^ k - 1, 2 ^ k - 1]) ∧
      fastPruneIn j b data [2 ^ k - 1, 2 ^ k - 1, 2 ^ k - 1] = .ok (data.drop (2 ^ k - 1), [0, 0, 0]) := by
  have h1 : 1 < 2 ^ k := Nat.one_lt_two_pow (by omega)
  have h2 : 2 ^ k < 2 ^ j := Nat.pow_lt_pow_right (by decide) hj
  obtain ⟨x, hx⟩ : ∃ x, 2 ^ k = x + 1 := ⟨2 ^ k - 1, by omega⟩
  rw [hx] at h h1 h2
  have h0 : x ≠ 0 := by omega
  unfold fastPruneIn
  rw [hx, h, Nat.mod_self, Nat.mod_eq_of_lt h2, Nat.add_sub_cancel]
  constructor
  · simp [pruneMin, h0, Outcome.mapAll, subUIntIn]
  · simp [pruneMin, h0, Outcome.mapAll, subUIntIn]

/-- C73: unifying with a wider and a narrower type ends in the same way, with the same mesh but for the upper bits of the
indices, which the narrower type loses. -/
theorem C73_unify {j k : Nat} (h : j ≤ k) (order : Combos → Combos) {m : Mesh F} (hm : ArraysIn j m) :
    Both (fun x y => y = cutIndices j x) (m.unifyIndexDataIn k order) (m.unifyIndexDataIn j order) :=
  unifyIn_cut h order hm

/-- C73: types with as many values as there are corners unify alike. -/
theorem C73_unify_same {j k : Nat} (order : Combos → Combos) {m : Mesh F}
    (hv : ∀ t, m.vertexTriangles = some t → t.length ≤ 2 ^ j ∧ t.length ≤ 2 ^ k)
    (hn : ∀ t, m.normalTriangles = some t → t.length ≤ 2 ^ j ∧ t.length ≤ 2 ^ k)
    (hu : ∀ t, m.uvTriangles = some t → t.length ≤ 2 ^ j ∧ t.length ≤ 2 ^ k) : m.unifyIndexDataIn j order = m.unifyIndexDataIn k order :=
  unifyIn_eq order hv hn hu

/-- C73 fails in unifying, for every mesh with more different corners than the type has values: the call succeeds without
any error, and some corner gets other data than it had. -/
theorem C73_unify_violated {k : Nat} (hk : k ≤ 32) {m : Mesh F} {n : Nat} (hm : UnifyInput m n) (ha : ArraysIn k m) (hn : n ≤ 2 ^ 32)
    (hlt : 2 ^ k < n) (hd : ∀ p < n, ∀ q < n, cornerAt m p = cornerAt m q → p = q) {order : Combos → Combos} (ho : IterOrder order) :
    ∃ m', m.unifyIndexDataIn k order = .ok m' ∧ ∃ p < n, cornerAt m' p ≠ cornerAt m p := by
  obtain ⟨x, hx, -, -, -, -, ⟨t, h1, h2, h3, h4⟩, -⟩ := C31_unify_partial m n hm hn
  have := C73_unify hk order ha
  rw [unifyIn_default, hx order ho] at this
  generalize m.unifyIndexDataIn k order = o at this
  cases this with
  | ok h =>
    subst h
    exact ⟨_, rfl, corners_confused hm hlt hd (t := cut k t) cut_lt (indexedBy_cut k h1) (indexedBy_cut k h2) (indexedBy_cut k h3)
      (indexedBy_cut k h4)⟩

/-- C73: types that hold all numbers in the faces of a text read it alike: both refuse it with the same error, or both accept it,
with the same names, and with indices that select the same vertices, normals and uvs. -/
theorem C73_import {j k : Nat} (ft : FloatText fo) (face : PushFace fo.F) (b : Build) {text : List UInt8} (hj : NumbersIn j text)
    (hk : NumbersIn k text) : Both (List.Forall₂ SameSelection) (readFromObjIn j ft face b text) (readFromObjIn k ft face b text) :=
  readObjLoopIn_both ft face b (P := fun _ _ => True) (fun oi _ _ => buildIn_selection j k b oi) (fun _ _ _ _ _ _ => trivial) _ _ trivial
    (numbersIn_values hj hk)

/-- C73: if there are also fewer vertices, normals and uvs than the types have values, the meshes are the same. -/
theorem C73_import_same {j k : Nat} (ft : FloatText fo) {face : PushFace fo.F} (hf : AddsIndices face) (b : Build) {text : List UInt8}
    (hj : NumbersIn j text) (hk : NumbersIn k text) (lj : LinesIn j text) (lk : LinesIn k text) :
    readFromObjIn j ft face b text = readFromObjIn k ft face b text :=
  readObjIn_eq ft hf b hj hk lj lk

/-- Both ways of pushing faces are meant. -/
theorem C73_faces (acos : fo.F → fo.F) : AddsIndices (Importer.pushFace (F := fo.F)) ∧ AddsIndices (Importer.pushFaceTri fo acos) :=
  ⟨pushFace_adds, pushFaceTri_adds acos⟩

/-- C73 fails in reading: a number the type cannot hold is read as 1. -/
theorem C73_import_violated (k : Nat) (ft : FloatText fo) (face : PushFace fo.F) (b : Build) (pre post : List UInt8)
    (hpre : pre = [] ∨ ∃ p, pre = p ++ [10]) (ws : List (List UInt8)) (hw : ∀ w ∈ ws, AsciiWord w) :
    readFromObjIn k ft face b (pre ++ faceLine ws ++ 10 :: post) = readFromObjIn k ft face b (pre ++ faceLine (ws.map (orOneIn k)) ++ 10 :: post) := by
  refine readFromObjIn_values k ft face b hpre hw ?_ ?_
  · intro w h
    obtain ⟨w, hw', rfl⟩ := List.mem_map.mp h
    exact orOneIn_ascii (hw w hw')
  · rw [List.map_map]
    exact List.map_congr_left fun w _ => (parseIndexIn_orOne k w).symm

/-- C73: types that can number all elements of the meshes, and one more, write the same text. -/
theorem C73_export {j k : Nat} (ft : FloatText fo) (b : Build) {meshes : List (Mesh fo.F × List UInt8)}
    (hi : ∀ mn ∈ meshes, IndicesInside mn.1) (hj : FitsIn j meshes) (hk : FitsIn k meshes) : writeObjIn j ft b meshes = writeObjIn k ft b meshes := by
  unfold writeObjIn
  rw [writeObjLoopIn_eq ft b meshes (1, 1, 1) hi]
  rintro e (rfl | rfl)
  · exact ⟨hj.vertices, hj.uvs, hj.normals⟩
  · exact ⟨hk.vertices, hk.uvs, hk.normals⟩

/-- A mesh of vertices and triangles alone. -/
def onlyVertices (vs : List (Vec3 F)) (t : List Nat) : Mesh F :=
  { (Mesh.empty : Mesh F) with vertices := some vs, vertexTriangles := some t }

theorem onlyVertices_loop (k : Nat) (ft : FloatText fo) (b : Build) (vs : List (Vec3 fo.F)) (t : List Nat) (name : List UInt8)
    {text : List UInt8} (h : facesTextIn k b t none none (1, 1, 1) (List.range t.length) = .ok text) :
    writeObjIn k ft b [(onlyVertices vs t, name)] =
      (addUIntIn k b 1 (vs.length % 2 ^ k) >>= fun _ => addUIntIn k b 1 (0 % 2 ^ k) >>= fun _ => addUIntIn k b 1 (0 % 2 ^ k) >>= fun _ =>
        .ok (ascii "s 1\n" ++ (meshText ft (onlyVertices vs t) name ++ text))) := by
  have hs : saveObjIn k ft b (onlyVertices vs t) (1, 1, 1) name =
      .ok (meshText ft (onlyVertices vs t) name ++ text, vs.length % 2 ^ k, 0 % 2 ^ k, 0 % 2 ^ k) := by
    unfold saveObjIn
    show (if lengthFits none t.length && lengthFits none t.length then
      (facesTextIn k b t none none (1, 1, 1) (List.range t.length) >>= _) else _) = _
    rw [h]
    rfl
  rw [writeObjIn, writeObjLoopIn, hs]
  simp only [Outcome.bind_ok, writeObjLoopIn]
  cases addUIntIn k b 1 (vs.length % 2 ^ k) with
  | err e => rfl
  | panic => rfl
  | ok x =>
    cases addUIntIn k b 1 (0 % 2 ^ k) with
    | err e => rfl
    | panic => rfl
    | ok y => simp

/-- C73 fails in writing: a mesh with one vertex less than the type has values, all of which have a number the type can hold, makes the
checked build panic, since the number of the first vertex of a next mesh is computed. Builds with a wider type write it. -/
theorem C73_export_violated {j k : Nat} (hk : 0 < k) (hj : k < j) (ft : FloatText fo) {vs : List (Vec3 fo.F)} (h : vs.length = 2 ^ k - 1) {t : List Nat}
    (ht : ∀ i ∈ t, i < vs.length) (name : List UInt8) :
    writeObjIn k ft .checked [(onlyVertices vs t, name)] = .panic ∧
      ∃ text, writeObjIn j ft .checked [(onlyVertices vs t, name)] = .ok text ∧ writeObjIn k ft .wrapping [(onlyVertices vs t, name)] = .ok text := by
  have h1 : 1 < 2 ^ k := Nat.one_lt_two_pow (by omega)
  have h2 : 2 ^ k < 2 ^ j := Nat.pow_lt_pow_right (by decide) hj
  have hr : ∀ i ∈ List.range t.length, i < t.length := fun i hi => List.mem_range.mp hi
  have e0 : ∀ k, 1 < 2 ^ k → ∀ b, addUIntIn k b 1 (0 % 2 ^ k) = .ok 1 := by
    intro k hk b
    rw [Nat.zero_mod]
    exact addUIntIn_ok b (by omega)
  obtain ⟨text, hx⟩ := facesTextIn_ok (v := t) (o := (1, 1, 1)) _ hr
  have hb : ∀ i ∈ t, i + 1 < 2 ^ k := fun i hi => by have := ht i hi; omega
  have hb' : ∀ i ∈ t, i + 1 < 2 ^ j := fun i hi => by have := hb i hi; omega
  refine ⟨?_, ascii "s 1\n" ++ (meshText ft (onlyVertices vs t) name ++ text), ?_, ?_⟩
  · rw [onlyVertices_loop k ft .checked vs t name (hx k _ hb), h, Nat.mod_eq_of_lt (by omega), addUIntIn.eq_def, if_neg (by omega)]
    rfl
  · rw [onlyVertices_loop j ft .checked vs t name (hx j _ hb'), h, Nat.mod_eq_of_lt (by omega), addUIntIn_ok .checked (by omega),
      e0 j (by omega)]
    rfl
  · rw [onlyVertices_loop k ft .wrapping vs t name (hx k _ hb), h, Nat.mod_eq_of_lt (by omega), addUIntIn.eq_def, if_neg (by omega), e0 k h1]
    rfl

/-- C73 fails in writing: in a build without overflow checks the last of as many vertices as the type has values gets the number 0, which no
vertex has. The checked build panics. -/
theorem C73_export_zero_violated {k : Nat} (hk : 1 < k) (ft : FloatText fo) {vs : List (Vec3 fo.F)} (h : vs.length = 2 ^ k) (name : List UInt8) :
    writeObjIn k ft .wrapping [(onlyVertices vs [2 ^ k - 1, 0, 1], name)] =
        .ok (ascii "s 1\n" ++ (meshText ft (onlyVertices vs [2 ^ k - 1, 0, 1]) name ++ ascii "f 0 1 2\n")) ∧
      writeObjIn k ft .checked [(onlyVertices vs [2 ^ k - 1, 0, 1], name)] = .panic := by
  have h2 : 2 < 2 ^ k := by
    calc 2 < 2 ^ 2 := by decide
      _ ≤ 2 ^ k := Nat.pow_le_pow_right (by decide) hk
  have e0 : addUIntIn k .wrapping (2 ^ k - 1) 1 = .ok 0 := by
    rw [addUIntIn.eq_def, if_neg (by omega), Nat.sub_add_cancel (by omega), Nat.mod_self]
  have e1 : addUIntIn k .wrapping 0 1 = .ok 1 := addUIntIn_ok _ (by omega)
  have e2 : addUIntIn k .wrapping 1 1 = .ok 2 := addUIntIn_ok _ (by omega)
  have e3 : addUIntIn k .wrapping 1 0 = .ok 1 := addUIntIn_ok _ (by omega)
  constructor
  · rw [onlyVertices_loop k ft .wrapping vs _ name (text := ascii "f 0 1 2\n"), h, Nat.mod_self, Nat.zero_mod, e3]
    · rfl
    · show facesTextIn k .wrapping [2 ^ k - 1, 0, 1] none none (1, 1, 1) [0, 1, 2] = _
      simp only [facesTextIn, indexAt, List.getElem?_cons_zero, List.getElem?_cons_succ, Outcome.bind_ok, e0, e1, e2, uvTextIn, normalTextIn]
      decide
  · have hp : facesTextIn k .checked [2 ^ k - 1, 0, 1] none none (1, 1, 1) [0, 1, 2] = .panic := by
      rw [facesTextIn, indexAt, List.getElem?_cons_zero]
      simp only [Outcome.bind_ok]
      rw [addUIntIn.eq_def, if_neg (by omega)]
      rfl
    have hs : saveObjIn k ft .checked (onlyVertices vs [2 ^ k - 1, 0, 1]) (1, 1, 1) name = .panic := by
      unfold saveObjIn
      show (facesTextIn k .checked [2 ^ k - 1, 0, 1] none none (1, 1, 1) [0, 1, 2] >>= _) = _
      rw [hp]
      rfl
    rw [writeObjIn, writeObjLoopIn, hs]
    rfl

/-! ### Examples -/

/-- A mesh with two vertices used out of four, for all types with at least two bits. -/
example {k : Nat} (hk : 2 ≤ k) (a b c d : Vec3 F) : (onlyVertices [a, b, c, d] [3, 1, 3]).reorderDataIn k = .ok (onlyVertices [d, b] [0, 1, 0]) := by
  have h4 : 4 ≤ 2 ^ k := by
    calc 4 = 2 ^ 2 := rfl
      _ ≤ 2 ^ k := Nat.pow_le_pow_right (by decide) hk
  have hin : ∀ j, 4 ≤ 2 ^ j → ArraysIn j (onlyVertices [a, b, c, d] [3, 1, 3]) := by
    intro j hj
    refine ⟨?_, by rintro l ⟨⟩, by rintro l ⟨⟩, by rintro l ⟨⟩⟩
    rintro l ⟨rfl⟩ i hi
    simp at hi
    omega
  rw [C73_reorder (hin k h4) (hin 32 (by decide)), reorderIn_default]
  rfl

/-- All vertices but the last are dropped with 17 bits, none with 16. -/
example (b : Build) (x : F) : fastPruneIn 16 b (List.replicate (2 ^ 16) x) [65535, 65535, 65535] = .ok (List.replicate (2 ^ 16) x, [65535, 65535, 65535]) :=
  (C73_prune_violated (k := 16) (j := 17) (by decide) (by decide) b List.length_replicate).1

/-- Three corners for one bit: what the third corner refers to is lost. -/
def threeCorners : Mesh Nat :=
  { (Mesh.empty : Mesh Nat) with
    vertices := some [(1, 1, 1), (2, 2, 2)], vertexTriangles := some [0, 1, 1]
    normals := some [(7, 7, 7), (8, 8, 8)], normalTriangles := some [0, 0, 1] }

example {order : Combos → Combos} (ho : IterOrder order) :
    ∃ m', threeCorners.unifyIndexDataIn 1 order = .ok m' ∧ ∃ p < 3, cornerAt m' p ≠ cornerAt threeCorners p := by
  refine C73_unify_violated (by decide) (n := 3) ⟨?_, ?_, (by intro d t h; cases h), (by intro d t h; cases h)⟩
    ⟨?_, ?_, (by rintro l ⟨⟩), (by rintro l ⟨⟩)⟩ (by decide) (by decide) ?_ ho
  · intro d t h h'; cases h; cases h'; exact ⟨by unfold InRange; decide, rfl⟩
  · intro d t h h'; cases h; cases h'; exact ⟨by unfold InRange; decide, rfl⟩
  · rintro l ⟨rfl⟩; decide
  · rintro l ⟨rfl⟩; decide
  · intro p hp q hq
    have hp : p = 0 ∨ p = 1 ∨ p = 2 := by omega
    have hq : q = 0 ∨ q = 1 ∨ q = 2 := by omega
    rcases hp with rfl | rfl | rfl <;> rcases hq with rfl | rfl | rfl <;>
      first | exact fun _ => rfl | (intro h; simp [cornerAt, threeCorners, selected, lookups] at h)

/-- Its result. -/
example : threeCorners.unifyIndexDataIn 1 id = .ok { threeCorners with
    vertices := some [(1, 1, 1), (2, 2, 2), (2, 2, 2)], vertexTriangles := some [0, 1, 0]
    normals := some [(7, 7, 7), (7, 7, 7), (8, 8, 8)], normalTriangles := some [0, 1, 0] } := by decide

/-- With two bits it is as by default. -/
example (order : Combos → Combos) : threeCorners.unifyIndexDataIn 2 order = threeCorners.unifyIndexData order := by
  rw [C73_unify_same (j := 2) (k := 32) order (by rintro t ⟨rfl⟩; decide) (by rintro t ⟨rfl⟩; decide) (by rintro t ⟨⟩), unifyIn_default]

theorem sixText_words {w : List UInt8} (h : FaceWord (ascii "f 3 1 1 2 1 1 1 1 1\n") w) : w ∈ [ascii "3", ascii "1", ascii "2"] := by
  obtain ⟨line, hl, ws, hs, hw⟩ := h
  have e : textLines (ascii "f 3 1 1 2 1 1 1 1 1\n") = [ascii "f 3 1 1 2 1 1 1 1 1"] := by decide +kernel
  rw [e] at hl
  rcases List.mem_singleton.mp hl with rfl
  have e : splitBytes isObjSep (ascii "f 3 1 1 2 1 1 1 1 1") = ascii "f" :: [ascii "3", ascii "1", ascii "1", ascii "2", ascii "1",
    ascii "1", ascii "1", ascii "1", ascii "1"] := by decide +kernel
  rw [e] at hs
  cases hs
  simp only [List.mem_cons, List.not_mem_nil, or_false] at hw ⊢
  tauto

/-- A text all types with two bits or more read alike. -/
example {j k : Nat} (hj : 2 ≤ j) (hk : 2 ≤ k) (ft : FloatText fo) (b : Build) :
    readFromObjIn j ft Importer.pushFace b (ascii "f 3 1 1 2 1 1 1 1 1\n") = readFromObjIn k ft Importer.pushFace b (ascii "f 3 1 1 2 1 1 1 1 1\n") := by
  have h4 : ∀ k, 2 ≤ k → 4 ≤ 2 ^ k := fun k hk => by
    calc 4 = 2 ^ 2 := rfl
      _ ≤ 2 ^ k := Nat.pow_le_pow_right (by decide) hk
  have hn : ∀ k, 2 ≤ k → NumbersIn k (ascii "f 3 1 1 2 1 1 1 1 1\n") := by
    intro k hk w n hw hn
    have h4 := h4 k hk
    have h3 : n ≤ 3 := by
      have hw := sixText_words hw
      simp only [List.mem_cons, List.not_mem_nil, or_false] at hw
      rcases hw with rfl | rfl | rfl
      · exact (numeral_unique (n' := 3) hn ⟨[51], by decide, .inl (by decide), by decide, rfl⟩).le
      · exact (numeral_unique (n' := 1) hn ⟨[49], by decide, .inl (by decide), by decide, rfl⟩).le.trans (by decide)
      · exact (numeral_unique (n' := 2) hn ⟨[50], by decide, .inl (by decide), by decide, rfl⟩).le.trans (by decide)
    omega
  have hl : ∀ k, 2 ≤ k → LinesIn k (ascii "f 3 1 1 2 1 1 1 1 1\n") := by
    intro k hk
    have h4 := h4 k hk
    have e1 : linesWith (ascii "v") (ascii "f 3 1 1 2 1 1 1 1 1\n") = 0 := by decide +kernel
    have e2 : linesWith (ascii "vn") (ascii "f 3 1 1 2 1 1 1 1 1\n") = 0 := by decide +kernel
    have e3 : linesWith (ascii "vt") (ascii "f 3 1 1 2 1 1 1 1 1\n") = 0 := by decide +kernel
    exact ⟨by omega, by omega, by omega⟩
  exact C73_import_same ft pushFace_adds b (hn j hj) (hn k hk) (hl j hj) (hl k hk)

/-- C73 fails in reading, for example: number 65536, which names the last vertex an index of 16 bits can refer to, becomes the first
with `short_indices`, and no error is reported. -/
theorem C73_import_short_violated (ft : FloatText fo) (b : Build) : ∃ m m',
    readFromObjIn 16 ft Importer.pushFace b (ascii "f 65536 1 1 2 1 1 3 1 1\n") = .ok [(m, [])] ∧ m.vertexTriangles = some [0, 1, 2] ∧
      readFromObj ft Importer.pushFace b (ascii "f 65536 1 1 2 1 1 3 1 1\n") = .ok [(m', [])] ∧ m'.vertexTriangles = some [65535, 1, 2] := by
  have e : textLines (ascii "f 65536 1 1 2 1 1 3 1 1\n") = [faceLine [ascii "65536", ascii "1", ascii "1", ascii "2", ascii "1",
    ascii "1", ascii "3", ascii "1", ascii "1"]] := by decide +kernel
  have h1 : parseIndexIn 16 (ascii "1") = 1 := by decide +kernel
  have h6 : parseIndexIn 16 (ascii "65536") = 1 := by decide +kernel
  have g1 : parseIndex (ascii "1") = 1 := by decide +kernel
  have g6 : parseIndex (ascii "65536") = 65536 := by decide +kernel
  have hw : ∀ w ∈ [ascii "65536", ascii "1", ascii "1", ascii "2", ascii "1", ascii "1", ascii "3", ascii "1", ascii "1"], AsciiWord w := by
    unfold AsciiWord; decide
  refine ⟨{ (Mesh.empty : Mesh fo.F) with vertices := some [], normals := some [], uvs := some [], vertexTriangles := some [0, 1, 2]
                                          normalTriangles := some [0, 0, 0], uvTriangles := some [0, 0, 0] },
    { (Mesh.empty : Mesh fo.F) with vertices := some [], normals := some [], uvs := some [], vertexTriangles := some [65535, 1, 2]
                                    normalTriangles := some [0, 0, 0], uvTriangles := some [0, 0, 0] }, ?_, rfl, ?_, rfl⟩
  · rw [readFromObjIn, e, readObjLoopIn, parseLineIn_faceLine 16 ft _ b hw, loadFaceIn]
    simp only [List.length_cons, List.length_nil, loadFaceLoopIn, loadIndicesIn_words, h1, h6]
    rfl
  · rw [readFromObj, e, readObjLoop, parseLine_faceLine ft _ b hw, loadFace]
    simp only [List.length_cons, List.length_nil, loadFaceLoop, loadIndices_words, g1, g6]
    rfl

/-- Vertices all types with at least three bits can number. -/
example {k : Nat} (hk : 3 ≤ k) (ft : FloatText fo) (b : Build) (x y z : Vec3 fo.F) (name : List UInt8) :
    writeObjIn k ft b [(onlyVertices [x, y, z] [0, 2, 1], name)] = writeObj ft b [(onlyVertices [x, y, z] [0, 2, 1], name)] := by
  have h8 : 8 ≤ 2 ^ k := by
    calc 8 = 2 ^ 3 := rfl
      _ ≤ 2 ^ k := Nat.pow_le_pow_right (by decide) hk
  have hf : ∀ k, 8 ≤ 2 ^ k → FitsIn k [(onlyVertices [x, y, z] [0, 2, 1], name)] := fun k hk =>
    ⟨show 1 + (3 + 0) < 2 ^ k by omega, show 1 + (0 + 0) < 2 ^ k by omega, show 1 + (0 + 0) < 2 ^ k by omega⟩
  rw [← writeObjIn_default]
  refine C73_export ft b ?_ (hf k h8) (hf 32 (by decide))
  intro mn h
  rcases List.mem_singleton.mp h with rfl
  refine ⟨?_, (by rintro t ⟨⟩), (by rintro t ⟨⟩)⟩
  rintro t ⟨rfl⟩
  show ∀ i ∈ [0, 2, 1], i < 3
  decide

/-- 65535 vertices with `short_indices`. -/
example (ft : FloatText fo) (x : Vec3 fo.F) (name : List UInt8) :
    writeObjIn 16 ft .checked [(onlyVertices (List.replicate 65535 x) [65534, 0, 1], name)] = .panic :=
  (C73_export_violated (k := 16) (j := 32) (by decide) (by decide) ft List.length_replicate (t := [65534, 0, 1])
    (by rw [List.length_replicate]; decide) name).1

example (ft : FloatText fo) (x : Vec3 fo.F) (name : List UInt8) :
    writeObjIn 16 ft .checked [(onlyVertices (List.replicate 65536 x) [65535, 0, 1], name)] = .panic :=
  (C73_export_zero_violated (k := 16) (by decide) ft List.length_replicate name).2

end Tmf.Props
