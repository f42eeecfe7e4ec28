import Verif.Spec.Layout
import Verif.Lemmas.BitOps
import Verif.Lemmas.Bytes
/-
The bytes of a segment leave no doubt about what it holds, and the bytes of a file none about its
segments.
-/

namespace Tmf
open Spec

theorem leBytes_inj {k m n : Nat} (hm : m < 256 ^ k) (hn : n < 256 ^ k) (h : leBytes k m = leBytes k n) : m = n := by
  rw [← leNat_leBytes_of_lt hm, h, leNat_leBytes_of_lt hn]

/-- A number in `k` bytes and what follows it. -/
theorem leBytes_append_inj {k m n : Nat} {r s : List UInt8} (hm : m < 256 ^ k) (hn : n < 256 ^ k)
    (h : leBytes k m ++ r = leBytes k n ++ s) : m = n ∧ r = s := by
  obtain ⟨h1, h2⟩ := List.append_inj h (by simp)
  exact ⟨leBytes_inj hm hn h1, h2⟩

theorem pow64 {n : Nat} (h : n < 2 ^ 64) : n < 256 ^ 8 := lt_of_lt_of_le h (by decide)
theorem pow8 {n : Nat} (h : n < 256) : n < 256 ^ 1 := lt_of_lt_of_le h (by decide)

theorem fields_eq {l l' : List (Nat × Nat)} (h1 : l.map Prod.fst = l'.map Prod.fst) (h2 : l.map Prod.snd = l'.map Prod.snd) :
    l = l' := by
  induction l generalizing l' with
  | nil =>
    cases l' with
    | nil => rfl
    | cons b l' => cases h1
  | cons a l ih =>
    cases l' with
    | nil => cases h1
    | cons b l' =>
      rw [List.map_cons, List.map_cons, List.cons.injEq] at h1 h2
      rw [ih h1.2 h2.2, Prod.ext h1.1 h2.1]

theorem packed_fields {payload : List UInt8} {l l' : List (Nat × Nat)} (hw : l.map Prod.fst = l'.map Prod.fst)
    (hl : ∀ p ∈ l, p.2 < 2 ^ p.1) (hl' : ∀ p ∈ l', p.2 < 2 ^ p.1) (h : PackedAs payload l) (h' : PackedAs payload l') : l = l' := by
  obtain ⟨k, _, e⟩ := h
  obtain ⟨k', _, e'⟩ := h'
  have h1 := takeFields_fieldBits l hl (List.replicate k false)
  have h2 := takeFields_fieldBits l' hl' (List.replicate k' false)
  rw [← e, hw] at h1
  rw [← e', h1] at h2
  exact fields_eq hw (Option.some.inj h2)

theorem flatMap_widths {α : Type} {g : α → List (Nat × Nat)} {ws : List Nat} (hw : ∀ a, (g a).map Prod.fst = ws) (l : List α) :
    (l.flatMap g).map Prod.fst = (List.replicate l.length ws).flatten := by
  induction l with
  | nil => rfl
  | cons a l ih =>
    rw [List.flatMap_cons, List.map_append, hw, ih, List.length_cons, List.replicate_succ, List.flatten_cons]

theorem flatMap_inj {α : Type} {g : α → List (Nat × Nat)} {k : Nat} (hk : ∀ a, (g a).length = k) {l l' : List α}
    (hi : ∀ a ∈ l, ∀ a' ∈ l', g a = g a' → a = a') (hl : l.length = l'.length) (h : l.flatMap g = l'.flatMap g) : l = l' := by
  induction l generalizing l' with
  | nil => cases l' with
    | nil => rfl
    | cons b l' => cases hl
  | cons a l ih =>
    cases l' with
    | nil => cases hl
    | cons b l' =>
      rw [List.flatMap_cons, List.flatMap_cons] at h
      obtain ⟨h1, h2⟩ := List.append_inj h (by rw [hk, hk])
      rw [hi a List.mem_cons_self b List.mem_cons_self h1,
        ih (fun x hx y hy => hi x (List.mem_cons_of_mem _ hx) y (List.mem_cons_of_mem _ hy)) (by simpa using hl) h2]

/-- Elements packed one after another, each into fields of the same widths. -/
theorem packed_inj {α : Type} {g : α → List (Nat × Nat)} {ws : List Nat} (hw : ∀ a, (g a).map Prod.fst = ws)
    {payload : List UInt8} {l l' : List α} (hi : ∀ a ∈ l, ∀ a' ∈ l', g a = g a' → a = a') (hl : l.length = l'.length)
    (hv : ∀ a ∈ l, ∀ p ∈ g a, p.2 < 2 ^ p.1) (hv' : ∀ a ∈ l', ∀ p ∈ g a, p.2 < 2 ^ p.1)
    (h : PackedAs payload (l.flatMap g)) (h' : PackedAs payload (l'.flatMap g)) : l = l' := by
  refine flatMap_inj (k := ws.length) (fun a => by rw [← hw a, List.length_map]) hi hl ?_
  refine packed_fields (by rw [flatMap_widths hw, flatMap_widths hw, hl]) ?_ ?_ h h'
  · intro p hp
    obtain ⟨a, ha, hp⟩ := List.mem_flatMap.mp hp
    exact hv a ha p hp
  · intro p hp
    obtain ⟨a, ha, hp⟩ := List.mem_flatMap.mp hp
    exact hv' a ha p hp

theorem map_eq_flatMap' {α β : Type} (f : α → β) (l : List α) : l.map f = l.flatMap fun a => [f a] := by
  induction l with
  | nil => rfl
  | cons a l ih => rw [List.map_cons, List.flatMap_cons, ih]; rfl

theorem indexData_inj {d d' : List UInt8} {l l' : List Nat} (h : IndexData d l) (h' : IndexData d' l') (e : d = d') : l = l' := by
  obtain ⟨w, m, p, _, hw, hm, hl, hi, hp⟩ := h
  obtain ⟨w', m', p', _, hw', hm', hl', hi', hp'⟩ := h'
  simp only [List.append_assoc] at e
  obtain ⟨rfl, e_1⟩ := leBytes_append_inj (pow8 hw) (pow8 hw') e
  obtain ⟨hlen, e_2⟩ := leBytes_append_inj (pow64 hl) (pow64 hl') e_1
  obtain ⟨rfl, rfl⟩ := leBytes_append_inj (pow64 hm) (pow64 hm') e_2
  rw [map_eq_flatMap'] at hp hp'
  refine packed_inj (g := fun i => [(w, i - m)]) (ws := [w]) (fun _ => rfl) ?_ hlen ?_ ?_ hp hp'
  · intro a ha a' ha' h
    have h1 := (hi a ha).1
    have h2 := (hi' a' ha').1
    simp only [List.cons.injEq, Prod.mk.injEq, true_and, and_true] at h
    omega
  · intro a ha p hp
    rw [List.mem_singleton] at hp
    subst hp
    exact (hi a ha).2
  · intro a ha p hp
    rw [List.mem_singleton] at hp
    subst hp
    exact (hi' a ha).2

theorem NormalBits.fields_inj {w : Nat} {a a' : NormalBits} (h : a.fields w = a'.fields w) : a = a' := by
  have hb : ∀ x y : Bool, x.toNat = y.toNat → x = y := by decide
  obtain ⟨a1, a2, a3, a4, a5⟩ := a
  obtain ⟨b1, b2, b3, b4, b5⟩ := a'
  simp only [NormalBits.fields, List.cons.injEq, Prod.mk.injEq, true_and, and_true] at h
  obtain ⟨h1, h2, h3, rfl, rfl⟩ := h
  rw [hb _ _ h1, hb _ _ h2, hb _ _ h3]

theorem NormalBits.fields_small {w : Nat} {a : NormalBits} (h : a.angle < 2 ^ w ∧ a.height < 2 ^ w) :
    ∀ p ∈ a.fields w, p.2 < 2 ^ p.1 := by
  have hb : ∀ x : Bool, x.toNat < 2 ^ 1 := by decide
  intro p hp
  simp only [NormalBits.fields, List.mem_cons, List.not_mem_nil, or_false] at hp
  rcases hp with rfl | rfl | rfl | rfl | rfl
  exacts [hb _, hb _, hb _, h.1, h.2]

theorem customLies_inj {k k' : Nat} {d d' : List UInt8} {c c' : CustomContent} (h : CustomLies k d c) (h' : CustomLies k' d' c')
    (ek : k = k') (e : d = d') : c = c' := by
  cases h with
  | index _ l h =>
    cases h' with
    | index _ l' h' => rw [indexData_inj h h' e]
    | _ => cases ek
  | integer _ l h =>
    cases h' with
    | integer _ l' h' => rw [indexData_inj h h' e]
    | _ => cases ek
  | float lo hi p w codes hlo hhi hw hl hc hp =>
    cases h' with
    | float lo' hi' p' w' codes' hlo' hhi' hw' hl' hc' hp' =>
      simp only [List.append_assoc] at e
      obtain ⟨hlen, e_1⟩ := leBytes_append_inj (pow64 hl) (pow64 hl') e
      obtain ⟨rfl, e_2⟩ := List.append_inj e_1 (by rw [hlo, hlo'])
      obtain ⟨rfl, e_3⟩ := List.append_inj e_2 (by rw [hhi, hhi'])
      obtain ⟨rfl, rfl⟩ := leBytes_append_inj (pow8 hw) (pow8 hw') e_3
      rw [map_eq_flatMap'] at hp hp'
      rw [packed_inj (g := fun c => [(w, c)]) (ws := [w]) (fun _ => rfl) (fun a _ a' _ h => by simpa using h) hlen
        (fun a ha p hp => by rw [List.mem_singleton] at hp; subst hp; exact hc a ha)
        (fun a ha p hp => by rw [List.mem_singleton] at hp; subst hp; exact hc' a ha) hp hp']
    | _ => cases ek
  | color p w codes hw hl hc hp =>
    cases h' with
    | color p' w' codes' hw' hl' hc' hp' =>
      simp only [List.append_assoc] at e
      obtain ⟨hlen, e_1⟩ := leBytes_append_inj (pow64 hl) (pow64 hl') e
      obtain ⟨rfl, rfl⟩ := leBytes_append_inj (pow8 hw) (pow8 hw') e_1
      rw [packed_inj (ws := [w, w, w, w]) (fun _ => rfl) (fun a _ a' _ h => ?_) hlen (fun a ha p hp => ?_)
        (fun a ha p hp => ?_) hp hp']
      · obtain ⟨a1, a2, a3, a4⟩ := a
        obtain ⟨b1, b2, b3, b4⟩ := a'
        simpa using h
      · simp only [List.mem_cons, List.not_mem_nil, or_false] at hp
        rcases hp with rfl | rfl | rfl | rfl
        exacts [(hc a ha).1, (hc a ha).2.1, (hc a ha).2.2.1, (hc a ha).2.2.2]
      · simp only [List.mem_cons, List.not_mem_nil, or_false] at hp
        rcases hp with rfl | rfl | rfl | rfl
        exacts [(hc' a ha).1, (hc' a ha).2.1, (hc' a ha).2.2.1, (hc' a ha).2.2.2]
    | _ => cases ek

theorem customLies_kind {k : Nat} {d : List UInt8} {c : CustomContent} (h : CustomLies k d c) :
    k = 15 ∨ k = 24 ∨ k = 16 ∨ k = 23 := by cases h <;> decide

/-- The bytes of a segment determine what it holds. -/
theorem lies_inj {s s' : RawSeg} {c c' : Content} (h : Lies s c) (h' : Lies s' c') (es : s = s') : c = c' := by
  cases h with
  | vertices box wx wy wz codes p hb hx hy hz hl hc hp =>
    cases h' with
    | vertices box' wx' wy' wz' codes' p' hb' hx' hy' hz' hl' hc' hp' =>
      obtain ⟨-, -, e⟩ := RawSeg.mk.inj es
      simp only [List.append_assoc, BoxBytes.bytes] at e
      obtain ⟨hlen, e_1⟩ := leBytes_append_inj (pow64 hl) (pow64 hl') e
      obtain ⟨b1, b2, b3, b4, b5, b6⟩ := box
      obtain ⟨c1, c2, c3, c4, c5, c6⟩ := box'
      obtain ⟨k1, k2, k3, k4, k5, k6⟩ := hb
      obtain ⟨j1, j2, j3, j4, j5, j6⟩ := hb'
      dsimp only at *
      obtain ⟨rfl, e_2⟩ := List.append_inj e_1 (by rw [k1, j1])
      obtain ⟨rfl, e_3⟩ := List.append_inj e_2 (by rw [k2, j2])
      obtain ⟨rfl, e_4⟩ := List.append_inj e_3 (by rw [k3, j3])
      obtain ⟨rfl, e_5⟩ := List.append_inj e_4 (by rw [k4, j4])
      obtain ⟨rfl, e_6⟩ := List.append_inj e_5 (by rw [k5, j5])
      obtain ⟨rfl, e_7⟩ := List.append_inj e_6 (by rw [k6, j6])
      obtain ⟨rfl, e_8⟩ := leBytes_append_inj (pow8 hx) (pow8 hx') e_7
      obtain ⟨rfl, e_9⟩ := leBytes_append_inj (pow8 hy) (pow8 hy') e_8
      obtain ⟨rfl, rfl⟩ := leBytes_append_inj (pow8 hz) (pow8 hz') e_9
      rw [packed_inj (ws := [wx, wy, wz]) (fun _ => rfl) (fun a _ a' _ h => ?_) hlen (fun a ha p hp => ?_)
        (fun a ha p hp => ?_) hp hp']
      · obtain ⟨a1, a2, a3⟩ := a
        obtain ⟨b1, b2, b3⟩ := a'
        simpa using h
      · simp only [List.mem_cons, List.not_mem_nil, or_false] at hp
        rcases hp with rfl | rfl | rfl
        exacts [(hc a ha).1, (hc a ha).2.1, (hc a ha).2.2]
      · simp only [List.mem_cons, List.not_mem_nil, or_false] at hp
        rcases hp with rfl | rfl | rfl
        exacts [(hc' a ha).1, (hc' a ha).2.1, (hc' a ha).2.2]
    | custom _ _ _ _ _ hk => obtain ⟨e, -, -⟩ := RawSeg.mk.inj es; have := customLies_kind hk; omega
    | _ => cases es
  | normals w codes p hw hl hc hp =>
    cases h' with
    | normals w' codes' p' hw' hl' hc' hp' =>
      obtain ⟨-, -, e⟩ := RawSeg.mk.inj es
      simp only [List.append_assoc] at e
      obtain ⟨hlen, e_1⟩ := leBytes_append_inj (pow64 hl) (pow64 hl') e
      obtain ⟨rfl, rfl⟩ := leBytes_append_inj (pow8 hw) (pow8 hw') e_1
      rw [packed_inj (g := NormalBits.fields w) (ws := [1, 1, 1, w, w]) (fun _ => rfl) (fun a _ a' _ h => NormalBits.fields_inj h) hlen
        (fun a ha => NormalBits.fields_small (hc a ha)) (fun a ha => NormalBits.fields_small (hc' a ha)) hp hp']
    | custom _ _ _ _ _ hk => obtain ⟨e, -, -⟩ := RawSeg.mk.inj es; have := customLies_kind hk; omega
    | _ => cases es
  | uvs w codes p hw hl hc hp =>
    cases h' with
    | uvs w' codes' p' hw' hl' hc' hp' =>
      obtain ⟨-, -, e⟩ := RawSeg.mk.inj es
      simp only [List.append_assoc] at e
      obtain ⟨rfl, e_1⟩ := leBytes_append_inj (pow8 hw) (pow8 hw') e
      obtain ⟨hlen, rfl⟩ := leBytes_append_inj (pow64 hl) (pow64 hl') e_1
      rw [packed_inj (ws := [w, w]) (fun _ => rfl) (fun a _ a' _ h => ?_) hlen (fun a ha p hp => ?_)
        (fun a ha p hp => ?_) hp hp']
      · obtain ⟨a1, a2⟩ := a
        obtain ⟨b1, b2⟩ := a'
        simpa using h
      · simp only [List.mem_cons, List.not_mem_nil, or_false] at hp
        rcases hp with rfl | rfl
        exacts [(hc a ha).1, (hc a ha).2]
      · simp only [List.mem_cons, List.not_mem_nil, or_false] at hp
        rcases hp with rfl | rfl
        exacts [(hc' a ha).1, (hc' a ha).2]
    | custom _ _ _ _ _ hk => obtain ⟨e, -, -⟩ := RawSeg.mk.inj es; have := customLies_kind hk; omega
    | _ => cases es
  | tangents w codes p hw hl hc hp =>
    cases h' with
    | tangents w' codes' p' hw' hl' hc' hp' =>
      obtain ⟨-, -, e⟩ := RawSeg.mk.inj es
      simp only [List.append_assoc] at e
      obtain ⟨hlen, e_1⟩ := leBytes_append_inj (pow64 hl) (pow64 hl') e
      obtain ⟨rfl, rfl⟩ := leBytes_append_inj (pow8 hw) (pow8 hw') e_1
      have hb : ∀ x y : Bool, x.toNat = y.toNat → x = y := by decide
      have hb1 : ∀ x : Bool, x.toNat < 2 ^ 1 := by decide
      rw [packed_inj (ws := [1, 1, 1, 1, w, w]) (fun _ => rfl) (fun a _ a' _ h => ?_) hlen (fun a ha p hp => ?_)
        (fun a ha p hp => ?_) hp hp']
      · rw [List.cons.injEq, Prod.mk.injEq] at h
        exact Prod.ext (hb _ _ h.1.2) (NormalBits.fields_inj h.2)
      · rw [List.mem_cons] at hp
        rcases hp with rfl | hp
        exacts [hb1 _, NormalBits.fields_small (hc a ha) p hp]
      · rw [List.mem_cons] at hp
        rcases hp with rfl | hp
        exacts [hb1 _, NormalBits.fields_small (hc' a ha) p hp]
    | custom _ _ _ _ _ hk => obtain ⟨e, -, -⟩ := RawSeg.mk.inj es; have := customLies_kind hk; omega
    | _ => cases es
  | vertexIndices d l h =>
    cases h' with
    | vertexIndices d' l' h' => rw [indexData_inj h h' (RawSeg.mk.inj es).2.2]
    | custom _ _ _ _ _ hk => obtain ⟨e, -, -⟩ := RawSeg.mk.inj es; have := customLies_kind hk; omega
    | _ => cases es
  | normalIndices d l h =>
    cases h' with
    | normalIndices d' l' h' => rw [indexData_inj h h' (RawSeg.mk.inj es).2.2]
    | custom _ _ _ _ _ hk => obtain ⟨e, -, -⟩ := RawSeg.mk.inj es; have := customLies_kind hk; omega
    | _ => cases es
  | uvIndices d l h =>
    cases h' with
    | uvIndices d' l' h' => rw [indexData_inj h h' (RawSeg.mk.inj es).2.2]
    | custom _ _ _ _ _ hk => obtain ⟨e, -, -⟩ := RawSeg.mk.inj es; have := customLies_kind hk; omega
    | _ => cases es
  | tangentIndices d l h =>
    cases h' with
    | tangentIndices d' l' h' => rw [indexData_inj h h' (RawSeg.mk.inj es).2.2]
    | custom _ _ _ _ _ hk => obtain ⟨e, -, -⟩ := RawSeg.mk.inj es; have := customLies_kind hk; omega
    | _ => cases es
  | sharedIndices m d l hm h =>
    cases h' with
    | sharedIndices m' d' l' hm' h' =>
      obtain ⟨rfl, e⟩ := leBytes_append_inj (pow8 hm) (pow8 hm') (RawSeg.mk.inj es).2.2
      rw [indexData_inj h h' e]
    | custom _ _ _ _ _ hk => obtain ⟨e, -, -⟩ := RawSeg.mk.inj es; have := customLies_kind hk; omega
    | _ => cases es
  | custom k name d c hn h =>
    have hk := customLies_kind h
    cases h' with
    | custom k' name' d' c' hn' h' =>
      obtain ⟨ek, -, e⟩ := RawSeg.mk.inj es
      simp only [List.append_assoc] at e
      obtain ⟨hlen, e_1⟩ := leBytes_append_inj (pow8 hn) (pow8 hn') e
      obtain ⟨rfl, e_2⟩ := List.append_inj e_1 hlen
      rw [customLies_inj h h' ek e_2]
    | _ => exact absurd (RawSeg.mk.inj es).1 (by omega)

theorem rawSeg_inj {s s' : RawSeg} (hs : s.Framed .new) (hs' : s'.Framed .new) {r r' : List UInt8}
    (h : s.bytes .new ++ r = s'.bytes .new ++ r') : s = s' ∧ r = r' := by
  obtain ⟨k, c, d⟩ := s
  obtain ⟨k', c', d'⟩ := s'
  obtain ⟨h1, h2, h3⟩ := hs
  obtain ⟨h1', h2', h3'⟩ := hs'
  dsimp only at *
  simp only [RawSeg.bytes, segHead, List.append_assoc] at h
  obtain ⟨rfl, h_1⟩ := leBytes_append_inj (pow8 h1) (pow8 h1') h
  obtain ⟨hl, h_2⟩ := leBytes_append_inj (lt_of_le_of_lt h3 (by decide)) (lt_of_le_of_lt h3' (by decide)) h_1
  obtain ⟨rfl, h_3⟩ := leBytes_append_inj (pow8 (by omega)) (pow8 (by omega)) h_2
  obtain ⟨rfl, h_4⟩ := List.append_inj h_3 hl
  exact ⟨rfl, h_4⟩

theorem rawSegs_inj {l l' : List RawSeg} (hl : ∀ s ∈ l, s.Framed .new) (hl' : ∀ s ∈ l', s.Framed .new)
    (hn : l.length = l'.length) {r r' : List UInt8}
    (h : l.flatMap (RawSeg.bytes .new) ++ r = l'.flatMap (RawSeg.bytes .new) ++ r') : l = l' ∧ r = r' := by
  induction l generalizing l' with
  | nil => cases l' with
    | nil => exact ⟨rfl, h⟩
    | cons b l' => cases hn
  | cons a l ih =>
    cases l' with
    | nil => cases hn
    | cons b l' =>
      rw [List.flatMap_cons, List.flatMap_cons, List.append_assoc, List.append_assoc] at h
      obtain ⟨rfl, h_1⟩ := rawSeg_inj (hl a List.mem_cons_self) (hl' b List.mem_cons_self) h
      obtain ⟨rfl, h_2⟩ := ih (fun s hs => hl s (List.mem_cons_of_mem _ hs)) (fun s hs => hl' s (List.mem_cons_of_mem _ hs))
        (by simpa using hn) h_1
      exact ⟨rfl, h_2⟩

theorem rawMeshes_inj {l l' : List RawMesh} (hl : ∀ s ∈ l, s.Framed .new) (hl' : ∀ s ∈ l', s.Framed .new)
    (hn : l.length = l'.length) {r r' : List UInt8}
    (h : l.flatMap (RawMesh.bytes .new) ++ r = l'.flatMap (RawMesh.bytes .new) ++ r') : l = l' ∧ r = r' := by
  induction l generalizing l' with
  | nil => cases l' with
    | nil => exact ⟨rfl, h⟩
    | cons b l' => cases hn
  | cons a l ih =>
    cases l' with
    | nil => cases hn
    | cons b l' =>
      rw [List.flatMap_cons, List.flatMap_cons] at h
      obtain ⟨n, s⟩ := a
      obtain ⟨n', s'⟩ := b
      obtain ⟨f1, f2, f3⟩ := hl _ List.mem_cons_self
      obtain ⟨g1, g2, g3⟩ := hl' _ List.mem_cons_self
      simp only [RawMesh.bytes, meshHead, List.append_assoc] at h f1 f2 f3 g1 g2 g3
      obtain ⟨e1, h_1⟩ := leBytes_append_inj (lt_of_lt_of_le f1.len (by decide)) (lt_of_lt_of_le g1.len (by decide)) h
      obtain ⟨rfl, h_2⟩ := List.append_inj h_1 e1
      obtain ⟨e2, h_3⟩ := leBytes_append_inj (lt_of_lt_of_le f2 (by decide)) (lt_of_lt_of_le g2 (by decide)) h_2
      obtain ⟨rfl, h_4⟩ := rawSegs_inj f3 g3 e2 h_3
      obtain ⟨rfl, h_5⟩ := ih (fun s hs => hl s (List.mem_cons_of_mem _ hs)) (fun s hs => hl' s (List.mem_cons_of_mem _ hs))
        (by simpa using hn) h_4
      exact ⟨rfl, h_5⟩

theorem fileBytes_inj {l l' : List RawMesh} (hl : ∀ s ∈ l, s.Framed .new) (hl' : ∀ s ∈ l', s.Framed .new)
    (hn : l.length < 2 ^ 32) (hn' : l'.length < 2 ^ 32) (h : fileBytes 2 l = fileBytes 2 l') : l = l' := by
  simp only [fileBytes, fileHead, layoutOf, List.append_assoc] at h
  have h := List.append_cancel_left h
  have h := List.append_cancel_left h
  have h := List.append_cancel_left h
  have h := List.append_cancel_left h
  have h := List.append_cancel_left h
  obtain ⟨e, h2⟩ := leBytes_append_inj (lt_of_lt_of_le hn (by decide)) (lt_of_lt_of_le hn' (by decide)) h
  refine (rawMeshes_inj hl hl' e (r := []) (r' := []) ?_).1
  simpa using h2

end Tmf
