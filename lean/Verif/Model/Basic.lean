/-!
# Basic vocabulary of the model

Outcomes, the state monad used by mutating operations, and byte-slice helpers.
-/

namespace Cbm

/-- A byte (`u8`). -/
abbrev Byte := UInt8

/-- src/disk/error.rs:8-59 `DiskError`, all 25 variants. -/
inductive DiskError where
  | unknown | readOnly | invalidLocation | invalidOffset | invalidHeader
  | invalidBAM | invalidLayout | invalidRecord | readOverflow | readUnderrun
  | writeUnderrun | unformatted | notFound | chainLoop | invalidChainLink
  | invalidRelativeFile | unpositioned | filenameTooLong | fileExists
  | diskFull | invalidRecordIndex | unknownFormat | geosInfoNotFound
  | recordTooLarge | nonLinearFile
  deriving DecidableEq, Repr

/-- Why an operation did not return `Ok`: a library error, a Rust panic
(index out of range, failed assert, `unwrap` of an error, arithmetic overflow as
checked in a debug build, `copy_from_slice` length mismatch), or a loop that
never ends. -/
inductive Fail where
  | err (e : DiskError)
  | panic
  | diverge
  deriving DecidableEq, Repr

/-- Result of a Rust call: `Ok`, or one of the failures above.  Models
`io::Result<_>` (errors are always `DiskError`s wrapped in `io::Error` in the
modelled code, see `Verif/Model/Error.lean` for the wrapping). -/
abbrev Res (α : Type) := Except Fail α

deriving instance DecidableEq for Except

/-- `Err(DiskError::X.into())`. -/
@[reducible] def fail {α : Type} (e : DiskError) : Res α := .error (.err e)

/-- A Rust panic. -/
@[reducible] def rpanic {α : Type} : Res α := .error .panic

/-- State transformer that returns the new state on every path, also when the
operation fails: models `&mut self` methods and shared `RefCell` state. -/
def M (σ α : Type) := σ → Res α × σ

namespace M
variable {σ τ α β : Type}

protected def pure (a : α) : M σ α := fun s => (.ok a, s)

protected def bind (m : M σ α) (f : α → M σ β) : M σ β := fun s =>
  match m s with
  | (.ok a, s') => f a s'
  | (.error e, s') => (.error e, s')

instance : Monad (M σ) where
  pure := M.pure
  bind := M.bind

/-- Fail without changing the state (the `?` operator on an error). -/
def throw (e : Fail) : M σ α := fun s => (.error e, s)

/-- Use a pure result. -/
def lift (r : Res α) : M σ α := fun s => (r, s)

/-- Read the state. -/
def get : M σ σ := fun s => (.ok s, s)

/-- Replace the state. -/
def set (s : σ) : M σ Unit := fun _ => (.ok (), s)

/-- Change the state. -/
def modify (f : σ → σ) : M σ Unit := fun s => (.ok (), f s)

/-- Run a computation that may fail purely as a function of the state. -/
def read (f : σ → Res α) : M σ α := fun s => (f s, s)

/-- An update that either fails and leaves the state alone or succeeds with a
new state. -/
def update (f : σ → Res σ) : M σ Unit := fun s =>
  match f s with
  | .ok s' => (.ok (), s')
  | .error e => (.error e, s)

/-- Run on a component of the state. -/
def zoom (gets : τ → σ) (sets : σ → τ → τ) (m : M σ α) : M τ α := fun t =>
  match m (gets t) with
  | (r, s) => (r, sets s t)

/-- `for x in xs { f(x)?; }` -/
def forEach : List β → (β → M σ Unit) → M σ Unit
  | [], _ => M.pure ()
  | x :: xs, f => M.bind (f x) fun _ => forEach xs f

end M

/-- `&xs[off..off+len]` (callers establish the bounds, otherwise Rust panics). -/
def slice {α : Type} (xs : List α) (off len : Nat) : List α := (xs.drop off).take len

/-- `xs[off..off+src.len()].copy_from_slice(src)` (callers establish the
bounds). -/
def splice {α : Type} (xs : List α) (off : Nat) (src : List α) : List α :=
  xs.take off ++ src ++ xs.drop (off + src.length)

/-- `xs[i]` with the bounds check: out of range is a Rust panic. -/
def indexRes {α : Type} (xs : List α) (i : Nat) : Res α :=
  match xs[i]? with
  | some a => .ok a
  | none => rpanic

/-- `for x in xs { acc = f(acc, x)?; }` -/
def foldRes {α β : Type} (f : β → α → Res β) : List α → β → Res β
  | [], b => .ok b
  | a :: as, b => do
    let b' ← f b a
    foldRes f as b'

/-- `xs.map(f).collect::<Result<Vec<_>>>()` -/
def mapRes {α β : Type} (f : α → Res β) : List α → Res (List β)
  | [] => .ok []
  | a :: as => do
    let b ← f a
    let bs ← mapRes f as
    return b :: bs

/-- Checked `u8` addition: overflow panics. -/
def addU8 (a b : Nat) : Res Nat := if a + b < 256 then .ok (a + b) else rpanic

/-- Checked unsigned subtraction: underflow panics. -/
def subU (a b : Nat) : Res Nat := if b ≤ a then .ok (a - b) else rpanic

/-- `slice.chunks(n)`: pieces of `n` elements, the last one possibly shorter. -/
def chunks {α : Type} (n : Nat) (xs : List α) : List (List α) :=
  (List.range ((xs.length + n - 1) / n)).map fun i => slice xs (i * n) n

/-- `xs[i]` for an index known to be in range. -/
@[reducible] def byteAt (xs : List Byte) (i : Nat) : Byte := xs.getD i 0

end Cbm
