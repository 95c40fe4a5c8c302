import Verif.Spec.Header
import Verif.Model.Session
/-!
# The abstract file store (specification)

What a program using the library should see: a fixed quota of blocks, a list of
directory slots that hold files (a name, an attribute byte and a content), handles
and writers.  No sectors, no BAM, no chains.  `Store.step` says what each call does;
it is undefined (`none`) on calls outside the contract: handles of deleted files, two
writers on one file, deleting a file or formatting while a writer is open, formatting
with a name that is too long, re-reading a disk whose allocation map is not saved, raw
access to sectors, entries and the BAM.
-/

namespace Cbm.Spec

/-- A file. -/
structure StoredFile where
  name : List Byte
  attr : Byte
  data : List Byte
  deriving DecidableEq, Repr

/-- A writer: the slot of its file, and whether it was used since the last flush. -/
structure StoreWriter where
  slot : Nat
  pending : Bool
  deriving DecidableEq, Repr

/-- The store.  `label` is the disk name (filled up with padding) and the id.
`handles` is the slot of each file handle, `none` once that file was
deleted.  `saved`: nothing was allocated since the allocation map was last saved. -/
structure Store where
  type : DiskType
  label : List Byte × (Byte × Byte)
  slots : List (Option StoredFile)
  handles : List (Option Nat)
  writers : List StoreWriter
  saved : Bool
  deriving DecidableEq, Repr

/-- Blocks of 254 bytes needed for a content; at least one. -/
def blocksFor (n : Nat) : Nat := max 1 ((n + 253) / 254)

/-- A name as stored: padding bytes at its end are lost. -/
def storedName (name : List Byte) : List Byte := (name.reverse.dropWhile (· == 0xA0)).reverse

namespace Store

def files (a : Store) : List StoredFile := a.slots.filterMap id

/-- Blocks in use. -/
def used (a : Store) : Nat := (a.files.map fun g => blocksFor g.data.length).sum

/-- Blocks left. -/
def room (a : Store) : Nat := dataBlocks a.type - a.used

/-- The slot of the first file of that name. -/
def find (a : Store) (name : List Byte) : Option Nat :=
  a.slots.findIdx? fun x => x.any fun g => g.name == name

/-- The file in a slot. -/
def file? (a : Store) (i : Nat) : Option StoredFile := (a.slots[i]?).join

/-- The store with the file of slot `i` replaced. -/
def put (a : Store) (i : Nat) (x : Option StoredFile) : Store :=
  { a with slots := a.slots.set i x }

/-- A slot for a new file: the first empty one; without one, the first of eight new
slots, as long as the directory can grow. -/
def reserve (a : Store) : Option (Store × Nat) :=
  match a.slots.findIdx? (· == none) with
  | some i => some (a, i)
  | none =>
    if a.slots.length < maxSlots a.type then
      some ({ a with slots := a.slots ++ List.replicate 8 none, saved := false }, a.slots.length)
    else none

/-- Does a writer have this slot open? -/
def writing (a : Store) (i : Nat) : Bool := a.writers.any (·.slot == i)

/-- What a call does: its result and the store after it. -/
def step (c : Call) (a : Store) : Option (Res Unit × Store) :=
  match c with
  | .format name id =>
    if 16 < name.length ∨ a.writers ≠ [] then none
    else some (.ok (), { a with
      label := (paddedName name, id), slots := List.replicate 8 none
      handles := a.handles.map fun _ => none, saved := true })
  | .init => if a.saved then some (.ok (), a) else none
  | .flushHeader => some (.ok (), a)
  | .create name type scheme =>
    if scheme ≠ .linear ∨ type.toByte &&& 0x0F = 4 then none
    else if 16 < name.length then some (fail .filenameTooLong, a)
    else if (a.find name).isSome then some (fail .fileExists, a)
    else match a.reserve with
      | none => some (fail .diskFull, a)
      | some (a, i) =>
        if a.room = 0 then some (fail .diskFull, a)
        else some (.ok (), { a.put i (some ⟨storedName name, type.toByte ||| 0x80, []⟩) with
          handles := a.handles ++ [some i], saved := false })
  | .openFile name =>
    match a.find name with
    | none => some (fail .notFound, a)
    | some i => some (.ok (), { a with handles := a.handles ++ [some i] })
  | .openWriter h =>
    match a.handles[h]? with
    | some (some i) =>
      if a.writing i then none
      else some (.ok (), { a with writers := a.writers ++ [⟨i, true⟩] })
    | _ => none
  | .write w buf =>
    match a.writers[w]? with
    | none => none
    | some x =>
      match a.file? x.slot with
      | none => none
      | some g =>
        let max := 254 * (blocksFor g.data.length + a.room)
        some (if g.data.length + buf.length ≤ max then .ok () else fail .diskFull,
          { a.put x.slot (some { g with data := (g.data ++ buf).take max }) with
            writers := a.writers.set w ⟨x.slot, true⟩, saved := false })
  | .flush w =>
    match a.writers[w]? with
    | none => none
    | some x => some (.ok (), { a with
        writers := a.writers.set w ⟨x.slot, false⟩, saved := a.saved || x.pending })
  | .drop w =>
    match a.writers[w]? with
    | none => none
    | some x => some (.ok (), { a with
        writers := a.writers.eraseIdx w, saved := a.saved || x.pending })
  | .delete h =>
    match a.handles[h]? with
    | some (some i) =>
      if a.writing i then none
      else some (.ok (), { a.put i none with
        handles := a.handles.map fun k => if k = some i then none else k, saved := true })
    | _ => none
  | .rename original new =>
    match a.find original with
    | none => some (fail .notFound, a)
    | some i =>
      if 16 < new.length then some (fail .filenameTooLong, a)
      else if (a.find new).isSome then some (fail .fileExists, a)
      else match a.file? i with
        | none => none
        | some g => some (.ok (), a.put i (some { g with name := storedName new }))
  | .nextFreeDirectoryEntry =>
    match a.reserve with
    | none => some (fail .diskFull, a)
    | some (a, _) => some (.ok (), a)
  | _ => none

/-- A sequence of calls, with their results. -/
def run : List Call → Store → Option (List (Res Unit) × Store)
  | [], a => some ([], a)
  | c :: cs, a => do
    let (r, a) ← step c a
    let (rs, a) ← run cs a
    pure (r :: rs, a)

/-- The content a reader sees: that of a file no writer has unflushed data for. -/
def read (a : Store) (i : Nat) : Option (List Byte) :=
  match a.file? i with
  | none => none
  | some g => if a.writers.any (fun w => w.slot == i && w.pending) then none else some g.data

/-- A directory line: name, attribute byte, block count. -/
def line (g : StoredFile) : List Byte × Byte × Nat := (g.name, g.attr, blocksFor g.data.length)

/-- The directory listing. -/
def listing (a : Store) : List (List Byte × Byte × Nat) := a.files.map line

end Store

end Cbm.Spec
