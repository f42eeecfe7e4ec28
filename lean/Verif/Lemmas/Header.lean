import Verif.Lemmas.Parse
import Verif.Lemmas.Assemble
/-
The file header, and concurrent against sequential assembly.
-/

namespace Tmf
open Spec

theorem readHeader_cases (l : List UInt8) : readHeader.runSlice l =
    if l.length < 3 then .err eof
    else if l.take 3 ≠ [84, 77, 70] then .err .notTMFFile
    else if l.length < 11 then .err eof
    else if leNat ((l.drop 7).take 2) > 0 ∨ leNat ((l.drop 9).take 2) > 2 then .err .newerVersionRequired
    else .ok (ctxOf (layoutOf (leNat ((l.drop 9).take 2))), l.drop 11) := by
  unfold readHeader
  rw [Prog.runSlice_bind, Prog.readBytes, Prog.runSlice_readExact]
  by_cases h3 : l.length < 3
  · rw [if_neg (by omega), if_pos h3]; rfl
  rw [if_pos (by omega), if_neg h3]
  simp only [Prog.runSlice_ret, Outcome.bind_ok]
  by_cases hm : l.take 3 = [84, 77, 70]
  swap
  · rw [if_pos (show List.take 3 l ≠ magic from hm), if_pos hm]; rfl
  rw [if_neg (by rw [hm]; decide), if_neg (by simpa using hm)]
  by_cases h11 : l.length < 11
  · rw [if_pos h11]
    have : ((do
        let _ ← Prog.readU16
        let _ ← Prog.readU16
        let minMajor ← Prog.readU16
        let minMinor ← Prog.readU16
        if minMajor > 0 ∨ minMajor = 0 ∧ minMinor > 2 then Prog.fail ImportError.newerVersionRequired
          else pure (ImportCtx.ofMinMinor minMinor)) : Prog ImportCtx).runSlice (l.drop 3) = .err eof := by
      simp only [Prog.readU16, Prog.readExact_bind, Prog.ret_bind, Prog.runSlice_readExact, List.length_drop]
      by_cases a : 2 ≤ l.length - 3
      · rw [if_pos a]
        by_cases a2 : 2 ≤ l.length - 3 - 2
        · rw [if_pos a2]
          by_cases a3 : 2 ≤ l.length - 3 - 2 - 2
          · rw [if_pos a3, if_neg (by omega)]
          · rw [if_neg a3]
        · rw [if_neg a2]
      · rw [if_neg a]
    exact this
  · rw [if_neg h11]
    simp only [Prog.readU16, Prog.readExact_bind, Prog.ret_bind, Prog.runSlice_readExact, List.length_drop]
    rw [if_pos (by omega), if_pos (by omega), if_pos (by omega), if_pos (by omega)]
    simp only [List.drop_drop, Nat.reduceAdd]
    by_cases hv : leNat ((l.drop 7).take 2) > 0 ∨ leNat ((l.drop 9).take 2) > 2
    · rw [if_pos hv, if_pos (by omega)]; rfl
    · rw [if_neg hv, if_neg (by omega), ← ofMinMinor_eq]; rfl

variable (fo : FloatOps) (fb : F64Bytes fo) (b : Build)

theorem readTmf_notTMF_iff (bytes : List UInt8) (sched : List Nat) :
    readTmf fo fb b ⟨bytes, sched, false⟩ = .err .notTMFFile ↔ 3 ≤ bytes.length ∧ bytes.take 3 ≠ [84, 77, 70] := by
  rw [readTmf_slice, importTmf, Prog.runSlice_bind, readHeader_cases]
  by_cases h3 : bytes.length < 3
  · rw [if_pos h3]; constructor
    · intro h; simp [eof] at h
    · intro h; omega
  rw [if_neg h3]
  by_cases hm : bytes.take 3 = [84, 77, 70]
  swap
  · rw [if_pos hm]; exact ⟨fun _ => ⟨by omega, hm⟩, fun _ => rfl⟩
  rw [if_neg (by simpa using hm)]
  refine ⟨fun h => ?_, fun h => absurd hm h.2⟩
  exfalso
  split at h
  · simp [eof] at h
  split at h
  · simp at h
  simp only [Outcome.bind_ok] at h
  have := sat_importBody fo fb b (ctxOf (layoutOf (leNat ((bytes.drop 9).take 2)))) (bytes.drop 11)
  cases hb : ((do
      let n ← Prog.readU32
      Prog.replicate n (importMesh fo fb b (ctxOf (layoutOf (leNat ((bytes.drop 9).take 2)))))) :
      Prog (List (Mesh fo.F × List UInt8))).runSlice (bytes.drop 11) with
  | ok v => rw [hb] at h; simp at h
  | panic => rw [hb] at h; simp at h
  | err e =>
    rw [hb] at h this
    simp only [Outcome.bind_err, Outcome.err.injEq] at h
    subst h
    exact this

theorem readTmf_newer_iff (bytes : List UInt8) (sched : List Nat) :
    readTmf fo fb b ⟨bytes, sched, false⟩ = .err .newerVersionRequired ↔
      ∃ (ver : List UInt8) (minMajor minMinor : Nat) (rest : List UInt8), ver.length = 4 ∧ minMajor < 2 ^ 16 ∧
        minMinor < 2 ^ 16 ∧ (minMajor > 0 ∨ minMinor > 2) ∧
        bytes = [84, 77, 70] ++ ver ++ leBytes 2 minMajor ++ leBytes 2 minMinor ++ rest := by
  rw [readTmf_slice, importTmf, Prog.runSlice_bind]
  constructor
  · intro h
    rw [readHeader_cases] at h
    split at h
    · simp [eof] at h
    split at h
    · simp at h
    next hm =>
    split at h
    · simp [eof] at h
    next h11 =>
    split at h
    · next hv =>
      have l2 : ∀ k, k + 2 ≤ bytes.length → ((bytes.drop k).take 2).length = 2 := by
        intro k hk; rw [List.length_take, List.length_drop]; omega
      have b1 := leNat_lt ((bytes.drop 7).take 2)
      have b2 := leNat_lt ((bytes.drop 9).take 2)
      have e1 := leBytes_leNat ((bytes.drop 7).take 2)
      have e2 := leBytes_leNat ((bytes.drop 9).take 2)
      rw [l2 7 (by omega)] at b1 e1
      rw [l2 9 (by omega)] at b2 e2
      refine ⟨(bytes.drop 3).take 4, _, _, bytes.drop 11, ?_, b1, b2, hv, ?_⟩
      · rw [List.length_take, List.length_drop]; omega
      · rw [e1, e2]
        have hm : bytes.take 3 = [84, 77, 70] := Classical.byContradiction hm
        rw [← hm]
        simp only [List.append_assoc]
        have step : ∀ k n, (bytes.drop k).take n ++ bytes.drop (k + n) = bytes.drop k := by
          intro k n; rw [← List.drop_drop, List.take_append_drop]
        rw [step 9 2, step 7 2, step 3 4, List.take_append_drop]
    · exfalso
      simp only [Outcome.bind_ok] at h
      have := sat_importBody fo fb b (ctxOf (layoutOf (leNat ((bytes.drop 9).take 2)))) (bytes.drop 11)
      cases hb : ((do
          let n ← Prog.readU32
          Prog.replicate n (importMesh fo fb b (ctxOf (layoutOf (leNat ((bytes.drop 9).take 2)))))) :
          Prog (List (Mesh fo.F × List UInt8))).runSlice (bytes.drop 11) with
      | ok v => rw [hb] at h; simp at h
      | panic => rw [hb] at h; simp at h
      | err e =>
        rw [hb] at h this
        simp only [Outcome.bind_err, Outcome.err.injEq] at h
        subst h
        exact this
  · rintro ⟨ver, minMajor, minMinor, rest, h1, h2, h3, h4, rfl⟩
    have e : ver = ver.take 2 ++ ver.drop 2 := by simp
    rw [e, ← List.append_assoc,
      readHeader_eq h2 h3 _ _ (by rw [List.length_take]; omega) (by rw [List.length_drop]; omega), if_pos h4]
    rfl

theorem collect_inOrder {ε σ δ μ : Type} (decode : σ → Outcome ε δ) (apply : μ → δ → μ) (segs : List σ)
    (h : ∀ s ∈ segs, decode s ≠ .panic) (m : μ) :
    (collect (segs.map decode) >>= fun ds => .ok (ds.foldl apply m)) = inOrder decode apply m segs := by
  rw [collect_of_no_panic, mapAll_map]
  · simp only [id]
    induction segs generalizing m with
    | nil => rfl
    | cons s segs ih =>
      have ih' := ih (fun x hx => h x (List.mem_cons_of_mem _ hx))
      unfold inOrder
      rw [Outcome.mapAll]
      cases hd : decode s with
      | err e => rfl
      | panic => rfl
      | ok d =>
        simp only [Outcome.bind_ok]
        rw [← ih']
        cases Outcome.mapAll (fun a => decode a) segs <;> rfl
  · intro x hx
    obtain ⟨s, hs, rfl⟩ := List.mem_map.mp hx
    exact h s hs

end Tmf
