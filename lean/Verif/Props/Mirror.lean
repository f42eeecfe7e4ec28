import Verif.Spec.Mirror
import Verif.Props.VertexDrift
/-
C107: a mirror image comes back as the mirror image of what comes back. True of normals and tangents, to the
bit, for every library. False of vertices: coordinates are cut off towards the lower end of the box
(`C107_vertices_violated`).
-/

set_option exponentiation.threshold 2000

namespace Tmf.Props
open Spec Ieee

variable {lib : Libm}

theorem abs_turn (s : Bool) (x : Val b32) : Ieee.abs (turnIf s x) = Ieee.abs x := by
  cases s <;> cases x <;> rfl

/-- Below zero or not: changed for numbers on one side of zero. -/
theorem lt_turn (s : Bool) (x : Val b32) : lt (turnIf s x) (lit 0 0) = Bool.xor (s && aside x) (lt x (lit 0 0)) := by
  have z : (lit 0 0 : Val b32) = vZero := by decide +kernel
  rw [z, vZero]
  cases s with
  | false => simp [turnIf]
  | true =>
    cases x with
    | nan => rfl
    | inf t => cases t <;> rfl
    | fin t n h =>
      show lt (.fin (!t) n h) _ = Bool.xor (true && (n != 0)) (lt (.fin t n h) _)
      simp only [lt, signed]
      rcases Nat.eq_zero_or_pos n with rfl | hn
      · cases t <;> rfl
      · have h0 : (n != 0) = true := by simp; omega
        rw [h0]
        have a : (0 : Int) < (n : Int) := by omega
        have c : ¬ (n : Int) < 0 := by omega
        cases t <;> simp [hn, c]

theorem turn_withSign (a s : Bool) (x : Val b32) : withSign (ops lib) (Bool.xor a s) x = turnIf a (withSign (ops lib) s x) := by
  have nn : ∀ y : Val b32, neg (neg y) = y := fun y => by cases y <;> simp [neg]
  cases a <;> cases s
  · rfl
  · rfl
  · rfl
  · show x = neg (neg x)
    rw [nn]

theorem turn_one (a s : Bool) : (if Bool.xor a s then (ops lib).negOne else (ops lib).one) =
    turnIf a (if s then (ops lib).negOne else (ops lib).one) := by
  cases a <;> cases s
  · rfl
  · rfl
  · rfl
  · show (ops lib).one = neg (neg (lit 1 0))
    show (lit 1 0 : Val b32) = neg (neg (lit 1 0))
    cases (lit 1 0 : Val b32) <;> simp [neg]

theorem ops_zeroOf : (ops lib).zero = lit 0 0 := rfl

theorem quantNormal_mirror (p : Nat) (f : Mirror) (n : Vec3 (Val b32)) :
    quantNormal (ops lib) p (f.apply n) = (f.seen n).apply (quantNormal (ops lib) p n) := by
  obtain ⟨f1, f2, f3⟩ := f
  obtain ⟨x, y, z⟩ := n
  have e : storedNormal (ops lib) p (Mirror.apply (f1, f2, f3) (x, y, z)) =
      { storedNormal (ops lib) p (x, y, z) with
        sx := Bool.xor (f1 && aside x) (lt x (lit 0 0))
        sy := Bool.xor (f2 && aside y) (lt y (lit 0 0))
        sz := Bool.xor (f3 && aside z) (lt z (lit 0 0)) } := by
    simp only [storedNormal, normalCode, Mirror.apply, ops_zeroOf, abs_turn, lt_turn]
  rw [quantNormal, e, quantNormal]
  simp only [normalFromEncoding]
  by_cases hp : p = 0
  · simp only [hp, if_true]
    rw [turn_one, turn_one, turn_one]
    rfl
  · simp only [hp, if_false]
    rw [turn_withSign, turn_withSign, turn_withSign]
    rfl

theorem quantTangent_mirror (p : Nat) (f : Mirror) (s : Bool) (t : Tangent (Val b32)) :
    quantTangent (ops lib) p (f.tangent s t) = (f.seen t.1).tangent (s && !isNaN t.2) (quantTangent (ops lib) p t) := by
  obtain ⟨n, h⟩ := t
  have e : isSignNegative (turnIf s h) = Bool.xor (s && !isNaN h) (isSignNegative h) := by
    cases s <;> cases h <;> simp [turnIf, neg, isNaN, isSignNegative]
  rw [quantTangent, Mirror.tangent, Mirror.tangent, quantTangent]
  dsimp only
  rw [quantNormal_mirror, e, htFromBool, turn_one]
  rfl

/-! ### Files -/

/-- C107 for normals and tangents: what comes back is given by one rule for all files with given settings, and
the rule turns mirror images into mirror images. A component that is zero or NaN has no side and comes back
the same, whichever its sign; a handedness that is NaN has no sign. -/
theorem C107_partial (prec : PrecisionInfo (Val b32)) :
    ∃ (fn : Vec3 (Val b32) → Vec3 (Val b32)) (ft : Tangent (Val b32) → Tangent (Val b32)),
      (∀ (f : Mirror) n, fn (f.apply n) = (f.seen n).apply (fn n)) ∧
      (∀ (f : Mirror) s t, ft (f.tangent s t) = (f.seen t.1).tangent (s && !isNaN t.2) (ft t)) ∧
      ∀ (fb : F64Bytes (ops lib)) (b b' : Build) (meshes : List (Mesh (Val b32) × List UInt8)) (bytes : List UInt8),
        tmfBytes (ops lib) fb b prec meshes = .ok bytes → LimitsLow (ops lib) fb b prec meshes → bytes.length ≤ 2 ^ 31 →
        ∀ junk sched, ∃ out, readTmf (ops lib) fb b' ⟨bytes ++ junk, sched, false⟩ = .ok out ∧
          List.Forall₂ (fun mn mn' => mn'.1.normals = mn.1.normals.map (List.map fn) ∧
            mn'.1.tangents = mn.1.tangents.map (List.map ft)) meshes out := by
  refine ⟨quantNormal (ops lib) prec.normal, quantTangent (ops lib) prec.tangent, quantNormal_mirror _, quantTangent_mirror _,
    fun fb b b' meshes bytes h hl hb junk sched => ?_⟩
  obtain ⟨out, e, hf⟩ := readTmf_low (b' := b') h hl hb junk sched
  refine ⟨out, e, forall₂_imp hf ?_⟩
  rintro mn _ mn' ⟨_, edge, _, hm, _⟩
  rw [hm]
  exact ⟨rfl, rfl⟩

/-- Two files, each of one mesh; the normals of the second are the mirror images of those of the first, none
of which lies on a turned plane. They come back as mirror images. -/
theorem C107_normals_partial {fb : F64Bytes (ops lib)} {b₁ b₂ b' : Build} {prec : PrecisionInfo (Val b32)}
    {m₁ m₂ : Mesh (Val b32) × List UInt8} {x₁ x₂ : List UInt8} {l : List (Vec3 (Val b32))} (f : Mirror)
    (h₁ : tmfBytes (ops lib) fb b₁ prec [m₁] = .ok x₁) (l₁ : LimitsLow (ops lib) fb b₁ prec [m₁]) (s₁ : x₁.length ≤ 2 ^ 31)
    (h₂ : tmfBytes (ops lib) fb b₂ prec [m₂] = .ok x₂) (l₂ : LimitsLow (ops lib) fb b₂ prec [m₂]) (s₂ : x₂.length ≤ 2 ^ 31)
    (n₁ : m₁.1.normals = some l) (n₂ : m₂.1.normals = some (l.map f.apply)) (hs : ∀ n ∈ l, f.seen n = f)
    (junk : List UInt8) (sched : List Nat) :
    ∃ r₁ r₂ l', readTmf (ops lib) fb b' ⟨x₁ ++ junk, sched, false⟩ = .ok [r₁] ∧
      readTmf (ops lib) fb b' ⟨x₂ ++ junk, sched, false⟩ = .ok [r₂] ∧
      r₁.1.normals = some l' ∧ r₂.1.normals = some (l'.map f.apply) ∧ l'.length = l.length := by
  obtain ⟨fn, ft, hfn, -, hfile⟩ := C107_partial (lib := lib) prec
  obtain ⟨o₁, e₁, hf₁⟩ := hfile fb b₁ b' [m₁] x₁ h₁ l₁ s₁ junk sched
  obtain ⟨o₂, e₂, hf₂⟩ := hfile fb b₂ b' [m₂] x₂ h₂ l₂ s₂ junk sched
  obtain ⟨r₁, rfl, q₁, -⟩ := forall₂_one hf₁
  obtain ⟨r₂, rfl, q₂, -⟩ := forall₂_one hf₂
  refine ⟨r₁, r₂, l.map fn, e₁, e₂, by rw [q₁, n₁]; rfl, ?_, List.length_map fn⟩
  rw [q₂, n₂]
  show some ((l.map f.apply).map fn) = _
  rw [List.map_map, List.map_map]
  congr 1
  refine List.map_congr_left fun n hn => ?_
  show fn (f.apply n) = f.apply (fn n)
  rw [hfn, hs n hn]

/-! ### Vertices -/

/-- Three points on a line and their mirror images. -/
def rod : List (Vec3 (Val b32)) := [(vZero, vZero, vZero), (vOne, vOne, vZero), (vHalf, vHalf, vZero)]

/-- A mesh of points. -/
def cloud (l : List (Vec3 (Val b32))) : Mesh (Val b32) := { Mesh.empty with vertices := some l }

theorem cloud_saveable {l : List (Vec3 (Val b32))} (h3 : l.length = 3) (hw : ∀ v ∈ l, VecWithin 10 v) :
    Saveable 30 creepPrec [(cloud l, [65])] where
  finite := tenth_exact.1
  vertex := show valueOf (lit 1 1 : Val b32) ≤ _ by rw [tenth_exact.2]; norm_num
  normal := show 7 ≤ 30 by decide
  uv := show 14 ≤ 30 by decide
  tangent := show 7 ≤ 30 by decide
  names := by
    intro mn h
    rcases List.mem_singleton.mp h with rfl
    exact ⟨show 1 < 2 ^ 16 by decide, ⟨['A'], rfl⟩⟩
  mesh := by
    intro mn h
    rcases List.mem_singleton.mp h with rfl
    refine ⟨?_, ?_, ?_, ?_, ?_, ?_, ?_⟩
    · intro l' hl
      cases hl
      refine ⟨10, 1 / 10, (fun h => by rw [h] at h3; cases h3), by norm_num, hw, by norm_num, le_refl _, ?_, ?_, ?_, ?_⟩
      · intro t ht; cases ht
      · intro t ht; cases ht
      · intro t ht; cases ht
      · rw [show creepPrec.vertex = lit 1 1 from rfl, tenth_exact.2]; norm_num
    · intro l hl; cases hl
    · intro l hl; cases hl
    · intro l hl; cases hl
    · intro l hl; cases hl
    · intro c hc; cases hc
    · norm_num [segmentBound, mostPieces, indexPieces, onePiece, cloud, Mesh.empty, h3]
  size := by
    norm_num [meshSizeBound, segmentBound, mostPieces, indexPieces, onePiece, elements, elementCount, customLoad, customCount, cloud, Mesh.empty, h3]

/-- What comes back of points in a plane with the default settings. -/
theorem cloud_loaded (hlog : AccurateLog2 lib) (hmono : MonotoneLog2 lib) (fb : F64Bytes (ops lib)) {l : List (Vec3 (Val b32))}
    (h3 : l.length = 3) (hw : ∀ v ∈ l, VecWithin 10 v) (hz : ∀ v ∈ l, v.2.2 = vZero) :
    ∃ bytes m', (∀ b, tmfBytes (ops lib) fb b creepPrec [(cloud l, [65])] = .ok bytes) ∧
      (∀ b' junk sched, readTmf (ops lib) fb b' ⟨bytes ++ junk, sched, false⟩ = .ok [(m', [65])]) ∧
      m'.vertices = some (quantVertices (ops lib) (lit 1 1) (lit 1 1) l) := by
  obtain ⟨bytes, out, hb, -, hr, hf⟩ := saveable_loaded (fb := fb) hlog hmono (by decide) (le_refl 30) (cloud_saveable h3 hw)
  obtain ⟨⟨m', name⟩, rfl, hn, edge, he, hm, hcut⟩ := forall₂_one hf
  dsimp only at hn hm
  subst hn
  have he' : calcShortestEdge (ops lib) none (some l) = .ok edge := he
  have he'' : calcShortestEdge (ops lib) none (some l) = .ok (lit 1 1 : Val b32) := rfl
  rw [he''] at he'
  cases he'
  obtain ⟨qs, hq, -⟩ := hcut l rfl
  cases flat_cut hz hq
  refine ⟨bytes, m', hb, hr, ?_⟩
  rw [hm]
  show some (loadedVertices (ops lib) .checked (lit 1 1) (lit 1 1) l) = _
  rw [loadedVertices, hq]
  dsimp only
  rw [List.flatMap_cons, List.flatMap_nil, List.append_nil]

theorem rod_within : ∀ v ∈ rod, VecWithin 10 v := by
  intro v hv
  simp only [rod, List.mem_cons, List.not_mem_nil, or_false] at hv
  rcases hv with rfl | rfl | rfl <;> refine ⟨⟨rfl, rfl, rfl⟩, ?_⟩ <;>
    simp only [valueOf_vZero, valueOf_vOne, valueOf_vHalf'] <;> norm_num

/-- Across the first axis. -/
def across : Mirror := (true, false, false)

theorem across_within {B : ℚ} {v : Vec3 (Val b32)} (h : VecWithin B v) : VecWithin B (across.apply v) := by
  obtain ⟨x, y, z⟩ := v
  obtain ⟨⟨hx, hy, hz⟩, bx, by', bz⟩ := h
  refine ⟨⟨?_, hy, hz⟩, ?_, by', bz⟩
  · exact (neg_value x).1.trans hx
  · show |valueOf (neg x)| ≤ B
    rw [(neg_value x).2, abs_neg]
    exact bx

/-- The box of the rod and the box of its image. -/
theorem rod_box : boxOf (vZero, vZero, vZero) [(vOne, vOne, vZero), (vHalf, vHalf, vZero)] = ⟨vZero, vOne, vZero, vOne, vZero, vZero⟩ := by
  decide +kernel

theorem rod_box_image : boxOf (neg vZero, vZero, vZero) [(neg vOne, vOne, vZero), (neg vHalf, vHalf, vZero)] =
    ⟨neg vOne, vOne, vZero, vOne, vZero, vZero⟩ := by decide +kernel

theorem rod_bits (hlog : AccurateLog2 lib) : vertexBits lib ⟨vZero, vOne, vZero, vOne, vZero, vZero⟩ (lit 1 1) (lit 1 1) = (7, 7, 7) := by
  rw [vertexBits, bits_clear hlog] <;> decide +kernel

theorem rod_bits_image (hlog : AccurateLog2 lib) :
    vertexBits lib ⟨neg vOne, vOne, vZero, vOne, vZero, vZero⟩ (lit 1 1) (lit 1 1) = (8, 7, 7) := by
  rw [vertexBits, bits_clear hlog, bits_clear hlog] <;> decide +kernel

theorem rod_middle : lt (coordQ 7 vZero vOne vHalf) vHalf = true ∧ isFinite (coordQ 7 vZero vOne vHalf) = true := by decide +kernel

theorem rod_middle_image : lt (coordQ 8 (neg vOne) vOne (neg vHalf)) (neg vHalf) = true ∧
    isFinite (coordQ 8 (neg vOne) vOne (neg vHalf)) = true := by decide +kernel

/-- C107 is false for vertices: with the default settings both the middle of this rod and the middle of its
mirror image come back lower than they were, in every build. (The box of the image reaches from -1 to 1 on
the first axis, whose upper end the code takes from the second coordinates.) -/
theorem C107_vertices_violated (hlog : AccurateLog2 lib) (hmono : MonotoneLog2 lib) (fb : F64Bytes (ops lib)) :
    ∃ (f : Mirror) (m₁ m₂ m₁' m₂' : Mesh (Val b32)) (x₁ x₂ : List UInt8) (l l₁ l₂ : List (Vec3 (Val b32))) (v v₁ v₂ : Vec3 (Val b32)),
      Saveable 30 (PrecisionInfo.default (ops lib)) [(m₁, [65])] ∧ Saveable 30 (PrecisionInfo.default (ops lib)) [(m₂, [65])] ∧
      (∀ b, tmfBytes (ops lib) fb b (PrecisionInfo.default (ops lib)) [(m₁, [65])] = .ok x₁) ∧
      (∀ b, tmfBytes (ops lib) fb b (PrecisionInfo.default (ops lib)) [(m₂, [65])] = .ok x₂) ∧
      (∀ b' junk sched, readTmf (ops lib) fb b' ⟨x₁ ++ junk, sched, false⟩ = .ok [(m₁', [65])]) ∧
      (∀ b' junk sched, readTmf (ops lib) fb b' ⟨x₂ ++ junk, sched, false⟩ = .ok [(m₂', [65])]) ∧
      m₁.vertices = some l ∧ m₂.vertices = some (l.map f.apply) ∧ m₁'.vertices = some l₁ ∧ m₂'.vertices = some l₂ ∧
      l[2]? = some v ∧ l₁[2]? = some v₁ ∧ l₂[2]? = some v₂ ∧
      valueOf v₁.1 < valueOf v.1 ∧ valueOf v₂.1 < valueOf (f.apply v).1 ∧ f.apply v₁ ≠ v₂ := by
  rw [C91_bits hlog]
  have hz : ∀ v ∈ rod, v.2.2 = vZero := by
    intro v hv
    simp only [rod, List.mem_cons, List.not_mem_nil, or_false] at hv
    rcases hv with rfl | rfl | rfl <;> rfl
  have hw' : ∀ v ∈ rod.map across.apply, VecWithin 10 v := by
    intro v hv
    obtain ⟨w, hw, rfl⟩ := List.mem_map.mp hv
    exact across_within (rod_within w hw)
  have hz' : ∀ v ∈ rod.map across.apply, v.2.2 = vZero := by
    intro v hv
    obtain ⟨w, hw, rfl⟩ := List.mem_map.mp hv
    exact hz w hw
  obtain ⟨x₁, m₁', h₁, r₁, v₁⟩ := cloud_loaded hlog hmono fb (l := rod) rfl rod_within hz
  obtain ⟨x₂, m₂', h₂, r₂, v₂⟩ := cloud_loaded hlog hmono fb (l := rod.map across.apply) rfl hw' hz'
  have q₁ : quantVertices (ops lib) (lit 1 1) (lit 1 1) rod =
      rod.map fun v => (coordQ 7 vZero vOne v.1, coordQ 7 vZero vOne v.2.1, coordQ 7 vZero vZero v.2.2) := by
    rw [rod, quantVertices, vertexBox_ops, rod_box]
    dsimp only
    rw [precs_ops lib, rod_bits hlog]
    exact List.map_congr_left fun v _ => quantVertex_ops lib _ _ v
  have e : rod.map across.apply = [(neg vZero, vZero, vZero), (neg vOne, vOne, vZero), (neg vHalf, vHalf, vZero)] := rfl
  have q₂ : quantVertices (ops lib) (lit 1 1) (lit 1 1) (rod.map across.apply) = (rod.map across.apply).map fun v =>
      (coordQ 8 (neg vOne) vOne v.1, coordQ 7 vZero vOne v.2.1, coordQ 7 vZero vZero v.2.2) := by
    rw [e, quantVertices, vertexBox_ops, rod_box_image]
    dsimp only
    rw [precs_ops lib, rod_bits_image hlog]
    exact List.map_congr_left fun v _ => quantVertex_ops lib _ _ v
  rw [q₁] at v₁
  rw [q₂] at v₂
  have a₁ := (lt_value rod_middle.2 (show isFinite vHalf = true from rfl)).mp rod_middle.1
  have a₂ := (lt_value rod_middle_image.2 (show isFinite (neg vHalf) = true from rfl)).mp rod_middle_image.1
  refine ⟨across, cloud rod, cloud (rod.map across.apply), m₁', m₂', x₁, x₂, rod, _, _, (vHalf, vHalf, vZero),
    (coordQ 7 vZero vOne vHalf, coordQ 7 vZero vOne vHalf, coordQ 7 vZero vZero vZero),
    (coordQ 8 (neg vOne) vOne (neg vHalf), coordQ 7 vZero vOne vHalf, coordQ 7 vZero vZero vZero),
    cloud_saveable rfl rod_within, cloud_saveable rfl hw', h₁, h₂, r₁, r₂, rfl, rfl, v₁, v₂, rfl, ?_, ?_, a₁, a₂, ?_⟩
  · simp only [rod, List.map_cons, List.getElem?_cons_succ, List.getElem?_cons_zero]
  · rw [e]
    simp only [List.map_cons, List.getElem?_cons_succ, List.getElem?_cons_zero]
  · intro h
    have h' : neg (coordQ 7 vZero vOne vHalf) = coordQ 8 (neg vOne) vOne (neg vHalf) := congrArg Prod.fst h
    rw [← h', (neg_value _).2, (neg_value _).2] at a₂
    linarith

/-! ### Examples -/

/-- Two normals and two tangents. -/
def winged : Mesh (Val b32) :=
  { Mesh.empty with
    normals := some [(vHalf, neg vHalf, vZero), (vOne, vZero, vZero)]
    tangents := some [((neg vHalf, vHalf, vZero), vOne), ((vOne, vZero, vHalf), neg vOne)] }

/-- The same across the first axis. -/
def wingedImage : Mesh (Val b32) :=
  { Mesh.empty with
    normals := some [(neg vHalf, neg vHalf, vZero), (neg vOne, vZero, vZero)]
    tangents := some [((vHalf, vHalf, vZero), neg vOne), ((neg vOne, vZero, vHalf), vOne)] }

/-- They meet the hypotheses of `C107_normals_partial`. -/
example : winged.normals = some [(vHalf, neg vHalf, vZero), (vOne, vZero, vZero)] ∧
    wingedImage.normals = some ([(vHalf, neg vHalf, vZero), (vOne, vZero, vZero)].map across.apply) ∧
    (∀ n ∈ [(vHalf, neg vHalf, vZero), (vOne, vZero, vZero)], across.seen n = across) :=
  ⟨rfl, rfl, by
    intro n hn
    simp only [List.mem_cons, List.not_mem_nil, or_false] at hn
    rcases hn with rfl | rfl <;> decide +kernel⟩

/-- A zero has no side: its sign is lost. -/
example (p : Nat) : quantNormal (ops lib) p (neg vZero, vOne, vZero) = quantNormal (ops lib) p (vZero, vOne, vZero) :=
  (quantNormal_mirror p across (vZero, vOne, vZero)).trans rfl

end Tmf.Props
