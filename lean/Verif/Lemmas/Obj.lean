import Verif.Spec.Obj
import Verif.Props.Reorder
import Verif.Lemmas.Utf8
/-
Lemmas on writing and reading .obj text.
-/

namespace Tmf
open Spec

variable {fo : FloatOps}

/-! ### Writing -/

theorem addU32_ok (b : Build) {x y : Nat} (h : x + y < 2 ^ 32) : addU32 b x y = .ok (x + y) := by
  rw [addU32.eq_def, if_pos h]

/-- Corner `i` as it is written. -/
def wcorner (v : List Nat) (u n : Option (List Nat)) (o : Nat × Nat × Nat) (i : Nat) : ObjCorner :=
  ⟨v.getD i 0 + o.1, u.map (fun l => l.getD i 0 + o.2.1), n.map (fun l => l.getD i 0 + o.2.2)⟩

theorem indexAt_ok {l : List Nat} {i : Nat} (h : i < l.length) : indexAt l i = .ok (l.getD i 0) := by
  rw [indexAt, List.getElem?_eq_getElem h]
  simp [List.getD, h]

theorem facesText_step (b : Build) (v : List Nat) (u n : Option (List Nat)) (o : Nat × Nat × Nat) (i : Nat)
    (rest : List Nat) (t : List UInt8) (hi : i < v.length)
    (hv : v.getD i 0 + o.1 < 2 ^ 32)
    (hu : ∀ l, u = some l → i < l.length ∧ l.getD i 0 + o.2.1 < 2 ^ 32)
    (hn : ∀ l, n = some l → i < l.length ∧ l.getD i 0 + o.2.2 < 2 ^ 32)
    (ht : facesText b v u n o rest = .ok t) :
    facesText b v u n o (i :: rest) = .ok ((if i % 3 = 0 then ascii "f " else []) ++ (wcorner v u n o i).render ++
      (if i % 3 = 2 then [10] else [32]) ++ t) := by
  rw [facesText, indexAt_ok hi]
  simp only [bind, Outcome.bind]
  rw [addU32_ok b hv]
  simp only
  have e1 : uvText b u n o.2.1 i = .ok (match u with
      | some l => 47 :: decimal (l.getD i 0 + o.2.1)
      | none => if n.isSome then [47] else []) := by
    cases u with
    | none => rfl
    | some l =>
      obtain ⟨h1, h2⟩ := hu l rfl
      simp only [uvText, bind, Outcome.bind]
      rw [indexAt_ok h1]
      simp only
      rw [addU32_ok b h2]
  have e2 : normalText b n o.2.2 i = .ok (match n with
      | some l => 47 :: decimal (l.getD i 0 + o.2.2)
      | none => []) := by
    cases n with
    | none => rfl
    | some l =>
      obtain ⟨h1, h2⟩ := hn l rfl
      simp only [normalText, bind, Outcome.bind]
      rw [indexAt_ok h1]
      simp only
      rw [addU32_ok b h2]
  rw [e1, e2, ht]
  cases u <;> cases n <;> simp [wcorner, ObjCorner.render]

/-- The face lines of a mesh. -/
def wfaces {F : Type} (v : List Nat) (u n : Option (List Nat)) (o : Nat × Nat × Nat) (ts : List Nat) : List (ObjLine F) :=
  ts.map fun t => .face (wcorner v u n o (3 * t)) (wcorner v u n o (3 * t + 1)) (wcorner v u n o (3 * t + 2))

theorem facesText_ok (ft : FloatText fo) (b : Build) (v : List Nat) (u n : Option (List Nat)) (o : Nat × Nat × Nat)
    (hv : ∀ i < v.length, v.getD i 0 + o.1 < 2 ^ 32)
    (hu : ∀ l, u = some l → l.length = v.length ∧ ∀ i < v.length, l.getD i 0 + o.2.1 < 2 ^ 32)
    (hn : ∀ l, n = some l → l.length = v.length ∧ ∀ i < v.length, l.getD i 0 + o.2.2 < 2 ^ 32) :
    ∀ (k s : Nat), 3 * (s + k) ≤ v.length →
      facesText b v u n o (List.range' (3 * s) (3 * k)) = .ok (objText ft (wfaces v u n o (List.range' s k)))
  | 0, s, _ => rfl
  | k + 1, s, h => by
    have ih := facesText_ok ft b v u n o hv hu hn k (s + 1) (by omega)
    have e : List.range' (3 * s) (3 * (k + 1)) =
        3 * s :: (3 * s + 1) :: (3 * s + 2) :: List.range' (3 * (s + 1)) (3 * k) := by
      rw [show 3 * (k + 1) = 3 * k + 1 + 1 + 1 by ring, List.range'_succ, List.range'_succ, List.range'_succ]
      rfl
    rw [e, List.range'_succ]
    have step := fun i rest t (hi : i < v.length) => facesText_step b v u n o i rest t hi (hv i hi)
      (fun l hl => ⟨by rw [(hu l hl).1]; exact hi, (hu l hl).2 i hi⟩)
      (fun l hl => ⟨by rw [(hn l hl).1]; exact hi, (hn l hl).2 i hi⟩)
    rw [step _ _ _ (by omega) (step _ _ _ (by omega) (step _ _ _ (by omega) ih))]
    have m0 : 3 * s % 3 = 0 := by omega
    have m1 : (3 * s + 1) % 3 = 1 := by omega
    have m2 : (3 * s + 2) % 3 = 2 := by omega
    rw [m0, m1, m2]
    simp [wfaces, objText, ObjLine.render]

/-- The lines of a mesh before its faces. -/
def wdata {F : Type} (m : Mesh F) (name : List UInt8) : List (ObjLine F) :=
  .object name :: ((m.vertices.getD []).map .vertex ++ ((m.normals.getD []).map .normal ++ (m.uvs.getD []).map .uv))

theorem meshText_eq (ft : FloatText fo) (m : Mesh fo.F) (name : List UInt8) :
    meshText ft m name = objText ft (wdata m name) := by
  simp only [meshText, wdata, objText, List.flatMap_cons, List.flatMap_append, List.flatMap_map]
  have e1 : ∀ x, vec3Line ft (ascii "v") x = ObjLine.render ft (.vertex x) ++ [10] := fun x => by
    simp [vec3Line, ObjLine.render, ascii]
  have e2 : ∀ x, vec3Line ft (ascii "vn") x = ObjLine.render ft (.normal x) ++ [10] := fun x => by
    simp [vec3Line, ObjLine.render, ascii]
  have e3 : ∀ x, vec2Line ft x = ObjLine.render ft (.uv x) ++ [10] := fun x => by
    simp [vec2Line, ObjLine.render, ascii]
  rw [funext e1, funext e2, funext e3]
  simp [ObjLine.render]

/-- The lines of a mesh. -/
def wmesh {F : Type} (m : Mesh F) (name : List UInt8) (o : Nat × Nat × Nat) : List (ObjLine F) :=
  wdata m name ++ wfaces (m.vertexTriangles.getD []) m.uvTriangles m.normalTriangles o
    (List.range ((m.vertexTriangles.getD []).length / 3))

theorem getD_lt {l : List Nat} {n i : Nat} (h : InRange n l) (hi : i < l.length) : l.getD i 0 < n := by
  have : l.getD i 0 = l[i] := by simp [List.getD, hi]
  rw [this]
  exact (h _ (List.getElem_mem hi)).1

theorem objText_append (ft : FloatText fo) (a b : List (ObjLine fo.F)) : objText ft (a ++ b) = objText ft a ++ objText ft b := by
  simp [objText]

theorem saveObj_ok (ft : FloatText fo) (b : Build) (m : Mesh fo.F) (name : List UInt8) (o : Nat × Nat × Nat)
    (hm : HasFaces m) (h0 : o.1 + (m.vertices.getD []).length < 2 ^ 32)
    (h1 : o.2.1 + (m.uvs.getD []).length < 2 ^ 32) (h2 : o.2.2 + (m.normals.getD []).length < 2 ^ 32) :
    saveObj ft b m o name = .ok (objText ft (wmesh m name o), (m.vertices.getD []).length, (m.uvs.getD []).length,
      (m.normals.getD []).length) := by
  obtain ⟨v, hv, h3, hr⟩ := hm.vertices
  have hn := hm.normals
  have hu := hm.uvs
  unfold saveObj wmesh
  simp only [hv, Option.getD_some] at hn hu ⊢
  have l1 : lengthFits m.normalTriangles v.length = true := by
    cases ht : m.normalTriangles with
    | none => rfl
    | some t => simp [lengthFits, (hn t ht).1]
  have l2 : lengthFits m.uvTriangles v.length = true := by
    cases ht : m.uvTriangles with
    | none => rfl
    | some t => simp [lengthFits, (hu t ht).1]
  rw [l1, l2]
  have key := facesText_ok ft b v m.uvTriangles m.normalTriangles o
    (fun i hi => by have := getD_lt hr hi; omega)
    (fun l hl => ⟨(hu l hl).1, fun i hi => by have := getD_lt (hu l hl).2 (by rw [(hu l hl).1]; exact hi); omega⟩)
    (fun l hl => ⟨(hn l hl).1, fun i hi => by have := getD_lt (hn l hl).2 (by rw [(hn l hl).1]; exact hi); omega⟩)
    (v.length / 3) 0 (by omega)
  rw [Nat.mul_zero, Nat.mul_div_cancel' h3, ← List.range_eq_range', ← List.range_eq_range'] at key
  simp only [Bool.and_self, if_true, bind, Outcome.bind, key, meshText_eq, objText_append]
  rw [Nat.mod_eq_of_lt (by omega), Nat.mod_eq_of_lt (by omega), Nat.mod_eq_of_lt (by omega)]

/-- The offsets after a mesh. -/
def nextOffset {F : Type} (m : Mesh F) (o : Nat × Nat × Nat) : Nat × Nat × Nat :=
  (o.1 + (m.vertices.getD []).length, o.2.1 + (m.uvs.getD []).length, o.2.2 + (m.normals.getD []).length)

/-- The lines of several meshes. -/
def wmeshes {F : Type} : List (Mesh F × List UInt8) → Nat × Nat × Nat → List (ObjLine F)
  | [], _ => []
  | (m, name) :: rest, o => wmesh m name o ++ wmeshes rest (nextOffset m o)

theorem writeObjLoop_ok (ft : FloatText fo) (b : Build) : ∀ (meshes : List (Mesh fo.F × List UInt8)) (o : Nat × Nat × Nat),
    (∀ m ∈ meshes, HasFaces m.1) →
    o.1 + (meshes.map fun m => (m.1.vertices.getD []).length).sum < 2 ^ 32 →
    o.2.1 + (meshes.map fun m => (m.1.uvs.getD []).length).sum < 2 ^ 32 →
    o.2.2 + (meshes.map fun m => (m.1.normals.getD []).length).sum < 2 ^ 32 →
    writeObjLoop ft b meshes o = .ok (objText ft (wmeshes meshes o))
  | [], _, _, _, _, _ => rfl
  | (m, name) :: rest, o, hm, h0, h1, h2 => by
    simp only [List.map_cons, List.sum_cons] at h0 h1 h2
    have ih := writeObjLoop_ok ft b rest (nextOffset m o) (fun x hx => hm x (List.mem_cons_of_mem _ hx))
      (by simp only [nextOffset]; omega) (by simp only [nextOffset]; omega) (by simp only [nextOffset]; omega)
    rw [writeObjLoop, saveObj_ok ft b m name o (hm _ List.mem_cons_self) (by omega) (by omega) (by omega)]
    simp only [bind, Outcome.bind]
    rw [addU32_ok b (by omega), addU32_ok b (by omega), addU32_ok b (by omega)]
    simp only
    rw [show (o.1 + (m.vertices.getD []).length, o.2.1 + (m.uvs.getD []).length, o.2.2 + (m.normals.getD []).length)
      = nextOffset m o from rfl, ih]
    simp only [wmeshes, objText_append]

theorem writeObj_ok (ft : FloatText fo) (b : Build) (meshes : List (Mesh fo.F × List UInt8))
    (hm : ∀ m ∈ meshes, HasFaces m.1) (hf : FitsU32 meshes) :
    writeObj ft b meshes = .ok (objText ft (.smooth :: wmeshes meshes (1, 1, 1))) := by
  unfold writeObj
  rw [writeObjLoop_ok ft b meshes (1, 1, 1) hm hf.vertices hf.uvs hf.normals]
  simp only [bind, Outcome.bind, objText, List.flatMap_cons, ObjLine.render]
  congr 2

/-! ### The scene -/

theorem foldl_vertices {F : Type} : ∀ (l : List (Vec3 F)) (s : Scene F),
    (l.map ObjLine.vertex).foldl Scene.step s = { s with vertices := s.vertices ++ l }
  | [], s => by simp
  | x :: l, s => by simp [foldl_vertices l, Scene.step]

theorem foldl_normals {F : Type} : ∀ (l : List (Vec3 F)) (s : Scene F),
    (l.map ObjLine.normal).foldl Scene.step s = { s with normals := s.normals ++ l }
  | [], s => by simp
  | x :: l, s => by simp [foldl_normals l, Scene.step]

theorem foldl_uvs {F : Type} : ∀ (l : List (Vec2 F)) (s : Scene F),
    (l.map ObjLine.uv).foldl Scene.step s = { s with uvs := s.uvs ++ l }
  | [], s => by simp
  | x :: l, s => by simp [foldl_uvs l, Scene.step]

theorem addFace_append {F : Type} (face : List (CornerData F)) (name : List UInt8) (faces : List (List (CornerData F))) :
    ∀ objs, addFace face (objs ++ [(name, faces)]) = objs ++ [(name, faces ++ [face])]
  | [] => rfl
  | [o] => rfl
  | o :: o' :: objs => by
    have := addFace_append face name faces (o' :: objs)
    simp only [List.cons_append] at this ⊢
    rw [addFace, this]
    intros; simp_all

theorem foldl_faces {F : Type} (v : List Nat) (u n : Option (List Nat)) (o : Nat × Nat × Nat)
    (objs : List (List UInt8 × List (List (CornerData F)))) (name : List UInt8) (f : Nat → CornerData F) :
    ∀ (ts : List Nat) (faces : List (List (CornerData F))) (s : Scene F), s.objects = objs ++ [(name, faces)] →
      (∀ t ∈ ts, ∀ j < 3, s.corner (wcorner v u n o (3 * t + j)) = f (3 * t + j)) →
      (wfaces v u n o ts).foldl Scene.step s = { s with
        objects := objs ++ [(name, faces ++ ts.map fun t => [f (3 * t), f (3 * t + 1), f (3 * t + 2)])] }
  | [], faces, s, hs, _ => by simp [wfaces, ← hs]
  | t :: ts, faces, s, hs, hf => by
    have h := hf t List.mem_cons_self
    have h0 := h 0 (by omega)
    rw [Nat.add_zero] at h0
    rw [wfaces, List.map_cons, List.foldl_cons, Scene.step, h0, h 1 (by omega), h 2 (by omega), hs, addFace_append]
    refine (foldl_faces v u n o objs name f ts _ _ rfl ?_).trans ?_
    · intro t' ht' j hj
      exact hf t' (List.mem_cons_of_mem _ ht') j hj
    · simp

theorem numbered_shift {α : Type} (pre own : List α) (i : Nat) :
    numbered (pre ++ own) (i + (pre.length + 1)) = own[i]? := by
  rw [numbered, if_neg (by omega), show i + (pre.length + 1) - 1 = pre.length + i by omega,
    List.getElem?_append_right (by omega), Nat.add_sub_cancel_left]

theorem getD_getElem? {l : List Nat} {i : Nat} (h : i < l.length) : l[i]? = some (l.getD i 0) := by
  simp [List.getD, h]

theorem foldl_mesh {F : Type} (m : Mesh F) (name : List UInt8) (hm : HasFaces m) (s : Scene F) :
    (wmesh m name (s.vertices.length + 1, s.uvs.length + 1, s.normals.length + 1)).foldl Scene.step s =
      ⟨s.vertices ++ m.vertices.getD [], s.normals ++ m.normals.getD [], s.uvs ++ m.uvs.getD [],
        s.objects ++ [(name, meshFaces m)]⟩ := by
  obtain ⟨v, hv, h3, hr⟩ := hm.vertices
  have hn := hm.normals
  have hu := hm.uvs
  simp only [hv, Option.getD_some] at hn hu
  simp only [wmesh, wdata, List.foldl_append, List.foldl_cons, foldl_vertices, foldl_normals, foldl_uvs, Scene.step]
  rw [foldl_faces _ _ _ _ s.objects name (meshCorner m) _ [] _ rfl]
  · simp [meshFaces]
  · intro t ht j hj
    rw [hv, Option.getD_some, List.mem_range] at ht
    have hi : 3 * t + j < v.length := by omega
    generalize 3 * t + j = i at hi
    simp only [Scene.corner, meshCorner, wcorner, hv, Option.getD_some]
    have e0 := numbered_shift s.vertices (m.vertices.getD []) (v.getD i 0)
    rw [e0, getD_getElem? hi, Option.bind_some]
    have e1 : ∀ {α : Type} (pre own : List α) (a : Option (List Nat)),
        (∀ l, a = some l → l.length = v.length ∧ InRange own.length l) →
        (a.map fun l => l.getD i 0 + (pre.length + 1)).map (numbered (pre ++ own)) =
          a.map fun l => (l[i]?).bind fun k => own[k]? := by
      intro α pre own a ha
      cases a with
      | none => rfl
      | some l =>
        obtain ⟨g1, g2⟩ := ha l rfl
        have hi' : i < l.length := by omega
        simp only [Option.map_some]
        rw [numbered_shift pre own, getD_getElem? hi', Option.bind_some]
    rw [e1 _ _ _ hn, e1 _ _ _ hu]

theorem foldl_meshes {F : Type} : ∀ (meshes : List (Mesh F × List UInt8)) (s : Scene F), (∀ m ∈ meshes, HasFaces m.1) →
    ((wmeshes meshes (s.vertices.length + 1, s.uvs.length + 1, s.normals.length + 1)).foldl Scene.step s).objects =
      s.objects ++ meshes.map fun m => (m.2, meshFaces m.1)
  | [], s, _ => by simp [wmeshes]
  | (m, name) :: rest, s, hm => by
    rw [wmeshes, List.foldl_append, foldl_mesh m name (hm _ List.mem_cons_self)]
    have ih := foldl_meshes rest ⟨s.vertices ++ m.vertices.getD [], s.normals ++ m.normals.getD [], s.uvs ++ m.uvs.getD [],
        s.objects ++ [(name, meshFaces m)]⟩ (fun x hx => hm x (List.mem_cons_of_mem _ hx))
    have e : nextOffset m (s.vertices.length + 1, s.uvs.length + 1, s.normals.length + 1) =
        ((s.vertices ++ m.vertices.getD []).length + 1, (s.uvs ++ m.uvs.getD []).length + 1,
          (s.normals ++ m.normals.getD []).length + 1) := by
      simp only [nextOffset, List.length_append]
      refine Prod.ext (by dsimp only; omega) (Prod.ext (by dsimp only; omega) (by dsimp only; omega))
    rw [e]
    refine ih.trans ?_
    simp

theorem scene_meshes {F : Type} (meshes : List (Mesh F × List UInt8)) (hm : ∀ m ∈ meshes, HasFaces m.1) :
    (scene (.smooth :: wmeshes meshes (1, 1, 1))).objects = meshes.map fun m => (m.2, meshFaces m.1) := by
  have := foldl_meshes meshes ⟨[], [], [], []⟩ hm
  simpa [scene, Scene.step] using this

end Tmf
