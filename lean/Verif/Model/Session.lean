import Verif.Model.Validation
/-!
# Sessions: a program using the library

The state of a program that holds a `Disk`, any number of file handles and any
number of writers, and one step of it: a call of a public method with arbitrary
arguments.  Nothing here is code of the library except the functions called.
-/

namespace Cbm

/-- A disk with the handles obtained from it.  Handles keep the index of the BAM
cell they share (`Rc<RefCell<Bam>>`). -/
structure Session where
  disk : Disk
  files : List (File × Nat)
  writers : List (ChainWriter × Nat)
  deriving DecidableEq, Repr

/-- One mutating call, with its arguments.  Files and writers are named by their
index; entries, headers and BAMs can be arbitrary values (their fields are
public). -/
inductive Call where
  | init
  | format (name : Petscii) (id : Byte × Byte)
  | setHeader (h : Option Header)
  | setFormat (f : Option DiskFormat)
  | setBam (b : Option Bam)
  | flushHeader
  | create (name : Petscii) (type : FileType) (scheme : Scheme)
  | openFile (name : Petscii)
  | openEntry (e : DirectoryEntry)
  | openWriter (file : Nat)
  | write (writer : Nat) (buf : List Byte)
  | flush (writer : Nat)
  | drop (writer : Nat)
  | delete (file : Nat)
  | rename (original new : Petscii)
  | nextFreeDirectoryEntry
  | writeDirectoryEntry (e : DirectoryEntry)
  | writeSector (l : Location) (data : List Byte)
  | sectorMut (l : Location) (data : List Byte)
  | bamAllocate (cell : Nat) (l : Location)
  | bamFree (cell : Nat) (l : Location)
  | bamFlush (cell : Nat)
  deriving DecidableEq, Repr

namespace Session
variable {α : Type}

/-- Run on the disk. -/
def onDisk (m : M Disk α) : M Session α :=
  M.zoom Session.disk (fun d s => { s with disk := d }) m

/-- src/disk/chain.rs `write`, `flush` through a writer handle: the writer and the
BAM cell it shares are updated in place. -/
def onWriter (i : Nat) (m : M WSt α) : M Session α := fun s =>
  match s.writers[i]? with
  | none => (.error .panic, s)
  | some (w, ref) =>
    match s.disk.cells[ref]? with
    | none => (.error .panic, s)
    | some b =>
      match m ⟨w, s.disk.dev, b⟩ with
      | (r, x) => (r, { s with
          disk := { s.disk with dev := x.st.dev, cells := s.disk.cells.set ref x.st.bam }
          writers := s.writers.set i (x.w, ref) })

/-- `file.delete()` through a file handle. -/
def onFile (i : Nat) (m : M FSt α) : M Session α := fun s =>
  match s.files[i]? with
  | none => (.error .panic, s)
  | some (f, ref) =>
    match s.disk.cells[ref]? with
    | none => (.error .panic, s)
    | some b =>
      match m ⟨f, s.disk.dev, b⟩ with
      | (r, x) => (r, { s with
          disk := { s.disk with dev := x.st.dev, cells := s.disk.cells.set ref x.st.bam }
          files := s.files.set i (x.file, ref) })

/-- Remove a writer from the list: src/disk/chain.rs:310-314, `Drop` flushes and
ignores the result. -/
def dropWriter (i : Nat) : M Session Unit := fun s =>
  (.ok (), { (onWriter i ChainWriter.flush s).2 with
    writers := (onWriter i ChainWriter.flush s).2.writers.eraseIdx i })

/-- One call. -/
def step : Call → M Session Unit
  | .init => onDisk (M.update Disk.initialize)
  | .format name id => onDisk (Disk.writeFormat name id)
  | .setHeader h => onDisk (M.modify fun d => { d with header := h })
  | .setFormat f => onDisk (M.modify fun d => { d with format := f })
  | .setBam b => onDisk (M.modify fun d => d.setBam b)
  | .flushHeader => onDisk Disk.flushHeader
  | .create name type scheme => do
    let (e, ref) ← onDisk (Disk.createFile name type scheme)
    M.modify fun s => { s with files := s.files ++ [(.linear e, ref)] }
  | .openFile name => do
    let h ← M.read fun s => s.disk.openFile name
    M.modify fun s => { s with files := s.files ++ [h] }
  | .openEntry e => do
    let h ← M.read fun s => s.disk.openFileFromEntry e
    M.modify fun s => { s with files := s.files ++ [h] }
  | .openWriter i => do
    let (f, ref) ← M.read fun s => indexRes s.files i
    let w ← M.read fun s => f.writer s.disk.dev
    M.modify fun s => { s with writers := s.writers ++ [(w, ref)] }
  | .write i buf => do
    let _ ← onWriter i (ChainWriter.write buf)
    pure ()
  | .flush i => onWriter i ChainWriter.flush
  | .drop i => dropWriter i
  | .delete i => onFile i File.delete
  | .rename a b => onDisk (Disk.rename a b)
  | .nextFreeDirectoryEntry => do
    let _ ← onDisk Disk.nextFreeDirectoryEntry
    pure ()
  | .writeDirectoryEntry e => onDisk (Disk.writeDirectoryEntry e)
  | .writeSector l data => onDisk (Disk.writeSector l data)
  | .sectorMut l data => onDisk (Disk.onDev (M.sectorMut l (copyFromSlice data)))
  | .bamAllocate r l => onDisk (Disk.withBam r (St.updBam fun b => b.allocate l))
  | .bamFree r l => onDisk (Disk.withBam r (St.updBam fun b => b.free l))
  | .bamFlush r => onDisk (Disk.withBam r St.flushBam)

/-- The state after a sequence of calls, whether or not they succeed. -/
def run : List Call → Session → Session
  | [], s => s
  | c :: cs, s => run cs (step c s).2

end Session

end Cbm
