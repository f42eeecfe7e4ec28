/-
Basic vocabulary of the model: outcomes (with panics as values), the two build
modes, little-endian integers, readers that may return short reads and programs that
only use `read_exact`.
-/

namespace Tmf

/-- Result of a Rust call: `Ok`, `Err`, or a panic (which unwinds through every caller). -/
inductive Outcome (ε α : Type) where
  | ok (a : α)
  | err (e : ε)
  | panic
deriving Repr, DecidableEq

namespace Outcome

/-- `?` and sequencing. -/
@[simp] def bind {ε α β : Type} : Outcome ε α → (α → Outcome ε β) → Outcome ε β
  | ok a, f => f a
  | err e, _ => err e
  | panic, _ => panic

instance {ε : Type} : Monad (Outcome ε) where
  pure := Outcome.ok
  bind := Outcome.bind

@[simp] theorem pure_eq {ε α : Type} (a : α) : (pure a : Outcome ε α) = ok a := rfl
@[simp] theorem bind_ok {ε α β : Type} (a : α) (f : α → Outcome ε β) : (ok a >>= f) = f a := rfl
@[simp] theorem bind_err {ε α β : Type} (e : ε) (f : α → Outcome ε β) :
    ((err e : Outcome ε α) >>= f) = err e := rfl
@[simp] theorem bind_panic {ε α β : Type} (f : α → Outcome ε β) :
    ((panic : Outcome ε α) >>= f) = panic := rfl

/-- `Result::map_err`. -/
@[simp] def mapErr {ε ε' α : Type} (g : ε → ε') : Outcome ε α → Outcome ε' α
  | ok a => ok a
  | err e => err (g e)
  | panic => panic

instance {ε : Type} : LawfulMonad (Outcome ε) :=
  LawfulMonad.mk'
    (id_map := by intro α x; cases x <;> rfl)
    (pure_bind := by intros; rfl)
    (bind_assoc := by intro α β γ x f g; cases x <;> rfl)

theorem bind_eq_ok {ε α β : Type} {x : Outcome ε α} {f : α → Outcome ε β} {b : β} :
    (x >>= f) = ok b ↔ ∃ a, x = ok a ∧ f a = ok b := by
  cases x <;> simp

theorem bind_eq_panic {ε α β : Type} {x : Outcome ε α} {f : α → Outcome ε β} :
    (x >>= f) = panic ↔ x = panic ∨ ∃ a, x = ok a ∧ f a = panic := by
  cases x <;> simp

end Outcome

/-- Whether integer overflow panics (`overflow-checks` on: debug and test builds) or wraps
(release builds). -/
inductive Build where
  | checked
  | wrapping
deriving Repr, DecidableEq

/-- The kinds of `std::io::Error` that occur. -/
inductive IoError where
  /-- `ErrorKind::UnexpectedEof` -/
  | unexpectedEof
  /-- an error reported by the underlying device -/
  | device
  /-- `ErrorKind::Other` (text that is not UTF-8, malformed .obj line, ...) -/
  | other
deriving Repr, DecidableEq

/-- `TMFImportError`, src/lib.rs:1111-1139. -/
inductive ImportError where
  | io (e : IoError)
  | compressionTypeUnknown (code : Nat)
  | noMeshes
  | tooManyMeshes
  | notTMFFile
  | newerVersionRequired
  | segmentTooLong
  | invalidPrecision (bits : Nat)
  | unsuportedCompressionType (code : Nat)
deriving Repr, DecidableEq

/-- `TMFExportError`, src/lib.rs:1141-1146: only IO errors. -/
inductive ExportError where
  | io
deriving Repr, DecidableEq

/-- Shorthand for the error `UnexpectedEof` produces in the importer. -/
abbrev eof : ImportError := .io .unexpectedEof

/-- `MAX_SEG_SIZE`, src/lib.rs:60. -/
def MAX_SEG_SIZE : Nat := 0x80000000

/-! ### Integers as bytes -/

/-- `to_le_bytes` of an integer of `k` bytes (the value is taken modulo `256^k`). -/
def leBytes : (k n : Nat) → List UInt8
  | 0, _ => []
  | k + 1, n => UInt8.ofNat n :: leBytes k (n / 256)

/-- `from_le_bytes`. -/
def leNat : List UInt8 → Nat
  | [] => 0
  | b :: bs => b.toNat + 256 * leNat bs

/-- `from_be_bytes`. -/
def beNat (bs : List UInt8) : Nat := bs.foldl (fun a b => a * 256 + b.toNat) 0

/-! ### Readers -/

/-- A `std::io::Read`: the bytes it will still deliver and a schedule of short reads. Each
call of `read` uses up one entry `c` of the schedule and delivers at most `max 1 c` bytes;
once the schedule is used up (in particular for `&[u8]`, whose schedule is empty) every
call delivers as much as fits. After the last byte the reader reports end of file (`Ok(0)`), or, if
`broken`, a device error. -/
structure Source where
  bytes : List UInt8
  sched : List Nat
  broken : Bool
deriving Repr, DecidableEq

/-- A slice `&[u8]`. -/
def Source.slice (bs : List UInt8) : Source := ⟨bs, [], false⟩

/-- How many bytes one call of `read` with a buffer of length `n` may deliver. -/
def Source.chunk (s : Source) (n : Nat) : Nat :=
  match s.sched with
  | [] => n
  | c :: _ => min n (max 1 c)

/-- One call of `Read::read` with a buffer of length `n`. -/
def Source.read (s : Source) (n : Nat) : Outcome ImportError (List UInt8 × Source) :=
  if n ≠ 0 ∧ s.bytes = [] ∧ s.broken then .err (.io .device)
  else .ok (s.bytes.take (s.chunk n), { s with bytes := s.bytes.drop (s.chunk n), sched := s.sched.tail })

/-- `Read::read_exact`: call `read` until the buffer is full; `Ok(0)` means end of file.
`fuel` bounds the number of calls (each delivers at least one byte, so `n` calls are
enough). -/
def Source.readExactLoop : (fuel n : Nat) → List UInt8 → Source →
    Outcome ImportError (List UInt8 × Source)
  | _, 0, acc, s => .ok (acc, s)
  | 0, _ + 1, _, _ => .err eof
  | fuel + 1, n + 1, acc, s => do
    let (chunk, s) ← s.read (n + 1)
    if chunk = [] then .err eof
    else readExactLoop fuel (n + 1 - chunk.length) (acc ++ chunk) s

/-- `Read::read_exact` with a buffer of length `n`. -/
def Source.readExact (s : Source) (n : Nat) : Outcome ImportError (List UInt8 × Source) :=
  Source.readExactLoop n n [] s

/-! ### Programs whose only effect is `read_exact` -/

/-- A computation that reads its input only through `read_exact` (src/read_extension.rs:9-36
and the direct calls in the importer). -/
inductive Prog (α : Type) where
  | ret (a : α)
  | fail (e : ImportError)
  | panic
  | readExact (n : Nat) (k : List UInt8 → Prog α)

namespace Prog

def bind {α β : Type} : Prog α → (α → Prog β) → Prog β
  | ret a, f => f a
  | fail e, _ => fail e
  | panic, _ => panic
  | readExact n k, f => readExact n (fun bs => (k bs).bind f)

instance : Monad Prog where
  pure := Prog.ret
  bind := Prog.bind

/-- Run against a reader. -/
def run {α : Type} : Prog α → Source → Outcome ImportError (α × Source)
  | ret a, s => .ok (a, s)
  | fail e, _ => .err e
  | panic, _ => .panic
  | readExact n k, s =>
    match s.readExact n with
    | .ok (bs, s) => (k bs).run s
    | .err e => .err e
    | .panic => .panic

/-- Run against a slice. -/
def runSlice {α : Type} : Prog α → List UInt8 → Outcome ImportError (α × List UInt8)
  | ret a, bs => .ok (a, bs)
  | fail e, _ => .err e
  | panic, _ => .panic
  | readExact n k, bs => if n ≤ bs.length then (k (bs.take n)).runSlice (bs.drop n) else .err eof

/-- Use the outcome of a pure computation. -/
def ofOutcome {α : Type} : Outcome ImportError α → Prog α
  | .ok a => ret a
  | .err e => fail e
  | .panic => panic

/-- `read_u8`, src/read_extension.rs:10-14. -/
def readU8 : Prog Nat := readExact 1 (fun bs => ret (leNat bs))
/-- `read_u16`, src/read_extension.rs:15-19. -/
def readU16 : Prog Nat := readExact 2 (fun bs => ret (leNat bs))
/-- `read_u32`, src/read_extension.rs:20-24. -/
def readU32 : Prog Nat := readExact 4 (fun bs => ret (leNat bs))
/-- `read_u64`, src/read_extension.rs:25-29. -/
def readU64 : Prog Nat := readExact 8 (fun bs => ret (leNat bs))
/-- `read_exact` into a fresh buffer. -/
def readBytes (n : Nat) : Prog (List UInt8) := readExact n ret

end Prog

end Tmf
