import Verif.Model.Bam
import Verif.Model.Chain
import Verif.Model.Directory
/-!
# Writing chains (src/disk/chain.rs:197-379)
-/

namespace Cbm

/-- The two shared objects every file handle holds: the block device
(`BlockDeviceRef`) and the BAM (`BamRef`). -/
structure St where
  dev : Device
  bam : Bam
  deriving DecidableEq, Repr

namespace St
variable {α : Type}

/-- Read the device. -/
def readDev (f : Device → Res α) : M St α := M.read fun s => f s.dev

/-- Read the BAM. -/
def readBam (f : Bam → Res α) : M St α := M.read fun s => f s.bam

/-- Update the device. -/
def updDev (f : Device → Res Device) : M St Unit :=
  M.update fun s => do
    let d ← f s.dev
    pure { s with dev := d }

/-- Update the BAM in memory. -/
def updBam (f : Bam → Res Bam) : M St Unit :=
  M.update fun s => do
    let b ← f s.bam
    pure { s with bam := b }

/-- Run on the device. -/
def onDev (m : M Device α) : M St α := M.zoom St.dev (fun d s => { s with dev := d }) m

/-- `self.bam.borrow_mut().flush()`. -/
def flushBam : M St Unit := do
  let s ← M.get
  onDev s.bam.flush

end St

/-- src/disk/chain.rs:366-379 `remove_chain`. -/
def removeChain (start : Location) : M St Unit := do
  let locations ← St.readDev fun d => chainLocations d start
  M.forEach locations fun l => St.updBam fun b => b.free l
  St.flushBam

/-! ## ChainWriter -/

/-- src/disk/chain.rs:199-206 `ChainWriter` without the two shared references. -/
structure ChainWriter where
  entry : DirectoryEntry
  location : Location
  block : List Byte
  dirty : Bool
  deriving DecidableEq, Repr

/-- src/disk/chain.rs:223-226: advance to the last block of the chain.  There is
no loop detection.  The loop is deterministic and its state is the current
location (the block is the contents of that location), so when it runs for more
than 65536 steps it repeats a location and never ends: out of fuel is exactly
divergence. -/
def tailLoop (d : Device) : Nat → Location → List Byte → Res (Location × List Byte)
  | 0, _, _ => .error .diverge
  | fuel + 1, location, block => do
    match ← ChainLink.new block with
    | .next l => do
      let block ← d.sector l
      tailLoop d fuel l block
    | .tail _ => pure (location, block)

/-- src/disk/chain.rs:209-238 `ChainWriter::new`. -/
def ChainWriter.new (d : Device) (entry : DirectoryEntry) (start : Location) : Res ChainWriter := do
  let block ← d.sector start
  let (location, block) ← tailLoop d chainFuel start block
  pure ⟨entry, location, block, true⟩

/-- A writer together with the shared state it refers to. -/
structure WSt where
  w : ChainWriter
  st : St
  deriving DecidableEq, Repr

namespace ChainWriter
variable {α : Type}

/-- Run on the shared state. -/
def onSt (m : M St α) : M WSt α := M.zoom WSt.st (fun s x => { x with st := s }) m

/-- Change a field of the writer. -/
def modW (f : ChainWriter → ChainWriter) : M WSt Unit := M.modify fun x => { x with w := f x.w }

/-- src/disk/chain.rs:240-246 `increment_entry_blocks` (`u16` overflow panics). -/
def incrementEntryBlocks : M WSt Unit := do
  let e ← M.read fun x => x.st.dev.readEntry x.w.entry
  modW fun w => { w with entry := e }
  if e.fileSize + 1 < 65536 then
    modW fun w => { w with entry := { e with fileSize := e.fileSize + 1 } }
    onSt (St.updDev fun d => d.writeEntry { e with fileSize := e.fileSize + 1 })
  else M.throw .panic

/-- src/disk/chain.rs:300-307 `write_current_block`. -/
def writeCurrentBlock : M WSt Unit := do
  let x ← M.get
  onSt (St.updDev fun d => d.sectorMut x.w.location (copyFromSlice x.w.block))

/-- src/disk/block.rs:160-164 `Location::write_bytes` (assert as panic). -/
def writeLocation (l : Location) (block : List Byte) : Res (List Byte) :=
  if 2 ≤ block.length then .ok (splice block 0 [l.track, l.sector]) else rpanic

/-- src/disk/chain.rs:262-265: the fresh in-memory block, `Tail(2)` and zeros;
indexing panics if the buffer is shorter than a block. -/
def freshBlock (block : List Byte) : Res (List Byte) :=
  if BLOCK_SIZE ≤ block.length then
    CHAIN_LINK_ZERO.toBytes (splice block 2 (List.replicate (BLOCK_SIZE - 2) 0))
  else rpanic

/-- src/disk/chain.rs:281-290: link the current block to the new one; on failure
roll the allocation back and return the error. -/
def linkTo (next : Location) : M WSt Unit := fun x =>
  match onSt (St.updDev fun d => d.sectorMut x.w.location (writeLocation next)) x with
  | (.ok (), x') => (.ok (), x')
  | (.error (.err e), x') =>
    match onSt (St.updBam fun b => b.free next) x' with
    | (.ok (), x'') => (.error (.err e), x'')
    | (.error e', x'') => (.error e', x'')
  | (.error e, x') => (.error e, x')

/-- src/disk/chain.rs:248-298 `allocate_next_block`. -/
def allocateNextBlock : M WSt Nat := do
  writeCurrentBlock
  let next ← M.read fun x => x.st.bam.nextFreeBlock none
  let x ← M.get
  let fresh ← M.lift (freshBlock x.w.block)
  modW fun w => { w with block := fresh }
  onSt (St.updDev fun d => d.sectorMut next (copyFromSlice fresh))
  onSt (St.updBam fun b => b.allocate next)
  incrementEntryBlocks
  linkTo next
  modW fun w => { w with location := next }
  pure (BLOCK_SIZE - 2)

/-- src/disk/chain.rs:334-339: copy bytes into the block and update the link. -/
def fillBlock (block : List Byte) (offset : Nat) (bytes : List Byte) : Res (List Byte) :=
  if offset + bytes.length ≤ block.length then
    (ChainLink.tail (offset + bytes.length)).toBytes (splice block offset bytes)
  else rpanic

/-- src/disk/chain.rs:323-331: where the next byte goes, allocating a block when
the current one is full. -/
def room : M WSt (Nat × Nat) := do
  let x ← M.get
  match ← M.lift (ChainLink.new x.w.block) with
  | .next _ => M.throw .panic
  | .tail n =>
    if n = BLOCK_SIZE then do
      let remaining ← allocateNextBlock
      pure (BLOCK_SIZE - remaining, remaining)
    else pure (n, BLOCK_SIZE - n)

/-- src/disk/chain.rs:322-343: the loop of `write`.  Every pass consumes at least
one byte, so fuel equal to the number of bytes suffices. -/
def writeLoop : Nat → List Byte → M WSt Unit
  | _, [] => pure ()
  | 0, _ :: _ => M.throw .diverge
  | fuel + 1, b :: bs => do
    let (offset, remaining) ← room
    let n := min remaining (b :: bs).length
    let x ← M.get
    let block ← M.lift (fillBlock x.w.block offset ((b :: bs).take n))
    modW fun w => { w with block := block }
    writeLoop fuel ((b :: bs).drop n)

/-- src/disk/chain.rs:319-345 `write`; returns the number of bytes written, which
on success is the whole buffer, so `write_all` is the same operation. -/
def write (buf : List Byte) : M WSt Nat := do
  modW fun w => { w with dirty := true }
  writeLoop buf.length buf
  pure buf.length

/-- src/disk/chain.rs:347-363 `flush`. -/
def flush : M WSt Unit := do
  let x ← M.get
  if x.w.dirty then
    writeCurrentBlock
    onSt St.flushBam
    M.read fun x => x.st.dev.flush
    modW fun w => { w with dirty := false }
  else pure ()

end ChainWriter

end Cbm
