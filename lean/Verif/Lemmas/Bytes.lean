import Verif.Lemmas.BitOps
/-
Little-endian integers and slice programs.
-/

namespace Tmf

@[simp] theorem length_leBytes (k n : Nat) : (leBytes k n).length = k := by
  induction k generalizing n with
  | zero => rfl
  | succ k ih => simp [leBytes, ih]

theorem leNat_leBytes (k n : Nat) : leNat (leBytes k n) = n % 256 ^ k := by
  induction k generalizing n with
  | zero => simp [leBytes, leNat, Nat.mod_one]
  | succ k ih =>
    rw [leBytes, leNat, ih, Nat.pow_succ, Nat.mul_comm (256 ^ k), Nat.mod_mul]
    congr 1

theorem leNat_leBytes_of_lt {k n : Nat} (h : n < 256 ^ k) : leNat (leBytes k n) = n := by
  rw [leNat_leBytes, Nat.mod_eq_of_lt h]

theorem leNat_lt (l : List UInt8) : leNat l < 256 ^ l.length := by
  induction l with
  | nil => simp [leNat]
  | cons b l ih =>
    rw [leNat, List.length_cons, Nat.pow_succ]
    have := b.toNat_lt
    omega

theorem leBytes_leNat (l : List UInt8) : leBytes l.length (leNat l) = l := by
  induction l with
  | nil => rfl
  | cons b l ih =>
    have hb : b.toNat < 256 := b.toNat_lt
    rw [List.length_cons, leNat, leBytes]
    congr 1
    · apply UInt8.toNat_inj.mp
      simp only [UInt8.toNat_ofNat']
      omega
    · rw [show (b.toNat + 256 * leNat l) / 256 = leNat l by omega, ih]

namespace Prog

@[simp] theorem pure_eq {α : Type} (a : α) : (pure a : Prog α) = ret a := rfl
@[simp] theorem ret_bind {α β : Type} (a : α) (f : α → Prog β) : (ret a >>= f) = f a := rfl
@[simp] theorem fail_bind {α β : Type} (e : ImportError) (f : α → Prog β) :
    ((fail e : Prog α) >>= f) = fail e := rfl
@[simp] theorem panic_bind {α β : Type} (f : α → Prog β) : ((panic : Prog α) >>= f) = panic := rfl
@[simp] theorem readExact_bind {α β : Type} (n : Nat) (k : List UInt8 → Prog α) (f : α → Prog β) :
    (readExact n k >>= f) = readExact n (fun bs => k bs >>= f) := rfl

theorem bind_assoc' {α β γ : Type} (p : Prog α) (f : α → Prog β) (g : β → Prog γ) :
    (p >>= f) >>= g = p >>= fun a => f a >>= g := by
  induction p with
  | ret a => rfl
  | fail e => rfl
  | panic => rfl
  | readExact n k ih => simp only [readExact_bind]; congr; funext bs; exact ih bs

@[simp] theorem runSlice_ret {α : Type} (a : α) (l : List UInt8) : (ret a).runSlice l = .ok (a, l) := rfl
@[simp] theorem runSlice_fail {α : Type} (e : ImportError) (l : List UInt8) :
    (fail e : Prog α).runSlice l = .err e := rfl
@[simp] theorem runSlice_panic {α : Type} (l : List UInt8) : (panic : Prog α).runSlice l = .panic := rfl

theorem runSlice_readExact {α : Type} (n : Nat) (k : List UInt8 → Prog α) (l : List UInt8) :
    (readExact n k).runSlice l = if n ≤ l.length then (k (l.take n)).runSlice (l.drop n) else .err eof := rfl

/-- Sequencing. -/
theorem runSlice_bind {α β : Type} (p : Prog α) (f : α → Prog β) (l : List UInt8) :
    (p >>= f).runSlice l = p.runSlice l >>= fun x => (f x.1).runSlice x.2 := by
  induction p generalizing l with
  | ret a => rfl
  | fail e => rfl
  | panic => rfl
  | readExact n k ih =>
    rw [readExact_bind, runSlice_readExact, runSlice_readExact]
    split
    · exact ih _ _
    · rfl

/-- Reading a field that was just written. -/
theorem runSlice_readExact_append {α : Type} {n : Nat} (k : List UInt8 → Prog α) {l rest : List UInt8}
    (h : l.length = n) : (readExact n k).runSlice (l ++ rest) = (k l).runSlice rest := by
  rw [runSlice_readExact, if_pos (by simp; omega), ← h, List.take_left, List.drop_left]

theorem runSlice_readU8 (v : Nat) (hv : v < 256) (rest : List UInt8) :
    readU8.runSlice (leBytes 1 v ++ rest) = .ok (v, rest) := by
  rw [readU8, runSlice_readExact_append _ (by simp), leNat_leBytes_of_lt (by simpa using hv)]; rfl
theorem runSlice_readU16 (v : Nat) (hv : v < 2 ^ 16) (rest : List UInt8) :
    readU16.runSlice (leBytes 2 v ++ rest) = .ok (v, rest) := by
  rw [readU16, runSlice_readExact_append _ (by simp), leNat_leBytes_of_lt (by simpa using hv)]; rfl
theorem runSlice_readU32 (v : Nat) (hv : v < 2 ^ 32) (rest : List UInt8) :
    readU32.runSlice (leBytes 4 v ++ rest) = .ok (v, rest) := by
  rw [readU32, runSlice_readExact_append _ (by simp), leNat_leBytes_of_lt (by simpa using hv)]; rfl
theorem runSlice_readU64 (v : Nat) (hv : v < 2 ^ 64) (rest : List UInt8) :
    readU64.runSlice (leBytes 8 v ++ rest) = .ok (v, rest) := by
  rw [readU64, runSlice_readExact_append _ (by simp), leNat_leBytes_of_lt (by simpa using hv)]; rfl
theorem runSlice_readBytes (l rest : List UInt8) :
    (readBytes l.length).runSlice (l ++ rest) = .ok (l, rest) := by
  rw [readBytes, runSlice_readExact_append _ rfl]; rfl

end Prog

end Tmf
