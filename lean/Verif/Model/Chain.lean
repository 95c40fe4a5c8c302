import Verif.Model.Block
/-!
# Chains: links, iterator and reader (src/disk/chain.rs:9-195)
-/

namespace Cbm

/-- src/disk/chain.rs:15-18 `ChainLink`. -/
inductive ChainLink where
  | next (l : Location)
  | tail (used : Nat)
  deriving DecidableEq, Repr

/-- src/disk/chain.rs:22-35 `ChainLink::new`.  Indexing `block[0]`, `block[1]`
panics on a shorter slice. -/
def ChainLink.new (block : List Byte) : Res ChainLink :=
  match block with
  | b0 :: b1 :: _ =>
    if b0 = 0 then
      if b1 < 1 then fail .invalidChainLink
      else .ok (.tail (b1.toNat + 1))
    else .ok (.next ⟨b0, b1⟩)
  | _ => rpanic

/-- src/disk/chain.rs:38-48 `ChainLink::to_bytes`: overwrite the first two bytes
(asserts as panics). -/
def ChainLink.toBytes (link : ChainLink) (bytes : List Byte) : Res (List Byte) :=
  if bytes.length < 2 then rpanic
  else match link with
    | .next l => .ok (splice bytes 0 [l.track, l.sector])
    | .tail size =>
      if 2 ≤ size ∧ size ≤ 256 then
        .ok (splice bytes 0 [0, UInt8.ofNat (size - 1)])
      else rpanic

/-- src/disk/chain.rs:12 `CHAIN_LINK_ZERO`. -/
def CHAIN_LINK_ZERO : ChainLink := .tail 2

/-- src/disk/chain.rs:53-57 `ChainSector`. -/
structure ChainSector where
  data : List Byte
  location : Location
  deriving DecidableEq, Repr

/-- src/disk/chain.rs:60-65 `ChainIterator`.  The scratch buffer `block` is not
part of the state: it is overwritten before every use.  The device is passed to
each step instead of being held, so that a reader sees writes made between
steps.  `visited` is the `HashSet`, as a list. -/
structure ChainIter where
  next : Option Location
  visited : List Location
  deriving DecidableEq, Repr

/-- src/disk/chain.rs:69-76 `ChainIterator::new`. -/
def ChainIter.new (start : Location) : ChainIter := ⟨some start, []⟩

/-- src/disk/chain.rs:87-123 `ChainIterator::next`. -/
def ChainIter.step (d : Device) (it : ChainIter) : Option (Res ChainSector) × ChainIter :=
  match it.next with
  | none => (none, it)
  | some location =>
    if location ∈ it.visited then
      (some (fail .chainLoop), { it with next := none })
    else
      let visited := location :: it.visited
      match d.sector location with
      | .error e => (some (.error e), ⟨none, visited⟩)
      | .ok block =>
        match ChainLink.new block with
        | .ok (.next l) => (some (.ok ⟨block.take BLOCK_SIZE, location⟩), ⟨some l, visited⟩)
        | .ok (.tail size) => (some (.ok ⟨block.take size, location⟩), ⟨none, visited⟩)
        | .error e => (some (.error e), ⟨none, visited⟩)

/-- Fuel for loops over a chain: a chain location is a pair of bytes, so no
duplicate-free list of locations is longer than 65536.  The theorems show that
this fuel is never exhausted by a `ChainIter`. -/
abbrev chainFuel : Nat := 65537

/-- The items a `ChainIterator` yields when it is run to its end: sectors, and
possibly one error as the last item.  Out of fuel shows as a `diverge` item. -/
def ChainIter.items (d : Device) : Nat → ChainIter → List (Res ChainSector)
  | 0, _ => [.error .diverge]
  | fuel + 1, it =>
    match it.step d with
    | (none, _) => []
    | (some r, it') => r :: ChainIter.items d fuel it'

/-- `iter.collect::<io::Result<Vec<_>>>()`: all items, or the first error. -/
def collectRes {α : Type} : List (Res α) → Res (List α)
  | [] => .ok []
  | .error e :: _ => .error e
  | .ok a :: rest => do
    let rest ← collectRes rest
    return a :: rest

/-- All items of the chain starting at `start`. -/
def chainItems (d : Device) (start : Location) : List (Res ChainSector) :=
  (ChainIter.new start).items d chainFuel

/-- All sectors of the chain starting at `start`. -/
def chainSectors (d : Device) (start : Location) : Res (List ChainSector) :=
  collectRes (chainItems d start)

/-- src/disk/chain.rs:79-81 `ChainIterator::locations`. -/
def chainLocations (d : Device) (start : Location) : Res (List Location) := do
  let s ← chainSectors d start
  return s.map ChainSector.location

/-! ## Reader -/

/-- src/disk/chain.rs:133-137 `ChainReader`. -/
structure ChainReader where
  chain : ChainIter
  block : Option (List Byte)
  eof : Bool
  deriving DecidableEq, Repr

/-- src/disk/chain.rs:140-147 `ChainReader::new`. -/
def ChainReader.new (start : Location) : ChainReader := ⟨.new start, none, false⟩

/-- src/disk/chain.rs:151-194 `ChainReader::read` with `want` bytes of buffer left
and `acc` already copied.  Returns the bytes copied to the caller's buffer (on an
error the Rust call returns only the error; the bytes already copied are kept as
the second component, they are in the caller's buffer but not reported).
`split_off(2)` panics on data shorter than two bytes.  Fuel stands for the
`while`; every pass either shortens the buffer, ends, or visits a new sector. -/
def ChainReader.readLoop (d : Device) :
    Nat → ChainReader → Nat → List Byte → Res Unit × List Byte × ChainReader
  | 0, r, _, acc => (.error .diverge, acc, r)
  | fuel + 1, r, want, acc =>
    if want = 0 ∨ r.eof then (.ok (), acc, r)
    else match r.block with
      | some block =>
        let n := min block.length want
        let block' := if block.length = n then none else some (block.drop n)
        readLoop d fuel { r with block := block' } (want - n) (acc ++ block.take n)
      | none =>
        match r.chain.step d with
        | (some (.ok s), it) =>
          if s.data.length < 2 then (.error .panic, acc, { r with chain := it })
          else readLoop d fuel { r with chain := it, block := some (s.data.drop 2) } want acc
        | (some (.error e), it) => (.error e, acc, { r with chain := it, eof := true })
        | (none, it) => readLoop d fuel { r with chain := it, eof := true } want acc

/-- src/disk/chain.rs:151 `Read::read` with a buffer of `want` bytes: the bytes
delivered (`Ok(n)` with the first `n` buffer bytes), or the error. -/
def ChainReader.read (d : Device) (r : ChainReader) (want : Nat) :
    Res (List Byte) × ChainReader :=
  match r.readLoop d (2 * chainFuel + 2 * want + 2) want [] with
  | (.ok (), out, r') => (.ok out, r')
  | (.error e, _, r') => (.error e, r')

/-- `Read::read_to_end` (std): read with buffers of sizes chosen by the standard
library until `Ok(0)`.  `sizes` are the buffer sizes it happens to choose; the
list is arbitrary in the theorems.  Ends with `diverge` if the sizes run out
before end of file. -/
def ChainReader.readToEnd (d : Device) (r : ChainReader) : List Nat → Res (List Byte) × ChainReader
  | [] => (.error .diverge, r)
  | n :: ns =>
    match r.read d n with
    | (.error e, r') => (.error e, r')
    | (.ok [], r') => (.ok [], r')
    | (.ok out, r') =>
      match r'.readToEnd d ns with
      | (.ok rest, r'') => (.ok (out ++ rest), r'')
      | (.error e, r'') => (.error e, r'')

end Cbm
