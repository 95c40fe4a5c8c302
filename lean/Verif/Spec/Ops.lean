import Verif.Spec.Observe
/-!
# Whole operations on a disk, and the map of files they act on (specification)

`perform` is a program that does one thing to a file given by its name (open, write,
drop ...); `FileMap.step` is what should happen: a map from names to files, with a quota
of blocks and of directory slots.  It is defined for all arguments.
-/

namespace Cbm.Spec

/-- One operation. -/
inductive Op where
  | create (name : Petscii) (type : FileType)
  | append (name : Petscii) (data : List Byte)
  | read (name : Petscii)
  | rename (original new : Petscii)
  | delete (name : Petscii)
  | list
  | blocksFree

/-- What an operation answers. -/
inductive Reply where
  | done
  | content (data : List Byte)
  | lines (ls : List (List Byte × Byte × Nat))
  | blocks (n : Nat)
  deriving DecidableEq, Repr

/-- Run a step and keep its result, whether or not it fails. -/
def attempt {σ α : Type} (m : M σ α) : M σ (Res α) := fun s => ((.ok (m s).1), (m s).2)

/-- The program. -/
def Op.perform : Op → M Session Reply
  | .create name type => do
    Session.step (.create name type .linear)
    pure .done
  | .append name data => do
    Session.step (.openFile name)
    let h ← M.read fun x => .ok (x.files.length - 1)
    Session.step (.openWriter h)
    let w ← M.read fun x => .ok (x.writers.length - 1)
    let r ← attempt (Session.step (.write w data))
    Session.step (.drop w)
    M.lift r
    pure .done
  | .read name => do
    let data ← M.read fun x => do
      let (f, _) ← x.disk.openFile name
      f.record x.disk.dev 0
    pure (.content data)
  | .rename original new => do
    Session.step (.rename original new)
    pure .done
  | .delete name => do
    Session.step (.openFile name)
    let h ← M.read fun x => .ok (x.files.length - 1)
    Session.step (.delete h)
    pure .done
  | .list => do
    let es ← M.read fun x => x.disk.directory
    pure (.lines (es.map fun e => (e.filename, e.attributes.toByte, e.fileSize)))
  | .blocksFree => do
    let n ← M.read fun x => x.disk.blocksFree
    pure (.blocks n)

/-- The files of a disk, by directory slot. -/
structure FileMap where
  type : DiskType
  slots : List (Option StoredFile)

namespace FileMap

def files (m : FileMap) : List StoredFile := m.slots.filterMap id

/-- Blocks left: each file takes one block for every 254 bytes, at least one. -/
def free (m : FileMap) : Nat :=
  dataBlocks m.type - (m.files.map fun g => max 1 ((g.data.length + 253) / 254)).sum

/-- The first file of that name, with its slot. -/
def find (m : FileMap) (name : List Byte) : Option (Nat × StoredFile) := do
  let i ← m.slots.findIdx? fun x => x.any fun g => g.name == name
  let g ← (m.slots[i]?).join
  some (i, g)

/-- The first empty slot; without one, the first of eight new slots, as long as the
directory can grow. -/
def reserve (m : FileMap) : Option (FileMap × Nat) :=
  match m.slots.findIdx? (· == none) with
  | some i => some (m, i)
  | none =>
    if m.slots.length < maxSlots m.type then
      some ({ m with slots := m.slots ++ List.replicate 8 none }, m.slots.length)
    else none

def put (m : FileMap) (i : Nat) (x : Option StoredFile) : FileMap :=
  { m with slots := m.slots.set i x }

/-- What each operation should do. -/
def step : Op → FileMap → Res Reply × FileMap
  | .create name type, m =>
    if 16 < name.length then (fail .filenameTooLong, m)
    else if (m.find name).isSome then (fail .fileExists, m)
    else match m.reserve with
      | none => (fail .diskFull, m)
      | some (m, i) =>
        if m.free = 0 then (fail .diskFull, m)
        else (.ok .done, m.put i (some ⟨storedName name, type.toByte ||| 0x80, []⟩))
  | .append name data, m =>
    match m.find name with
    | none => (fail .notFound, m)
    | some (i, g) =>
      let max := 254 * (max 1 ((g.data.length + 253) / 254) + m.free)
      (if g.data.length + data.length ≤ max then .ok .done else fail .diskFull,
        m.put i (some { g with data := (g.data ++ data).take max }))
  | .read name, m =>
    match m.find name with
    | none => (fail .notFound, m)
    | some (_, g) => (.ok (.content g.data), m)
  | .rename original new, m =>
    match m.find original with
    | none => (fail .notFound, m)
    | some (i, g) =>
      if 16 < new.length then (fail .filenameTooLong, m)
      else if (m.find new).isSome then (fail .fileExists, m)
      else (.ok .done, m.put i (some { g with name := storedName new }))
  | .delete name, m =>
    match m.find name with
    | none => (fail .notFound, m)
    | some (i, _) => (.ok .done, m.put i none)
  | .list, m =>
    (.ok (.lines (m.files.map fun g => (g.name, g.attr, max 1 ((g.data.length + 253) / 254)))), m)
  | .blocksFree, m => (.ok (.blocks m.free), m)

/-- A newly formatted disk: eight empty slots. -/
def empty (ty : DiskType) : FileMap := ⟨ty, List.replicate 8 none⟩

end FileMap

/-- Operations one after the other, and their results. -/
def performs : List Op → Session → List (Res Reply) × Session
  | [], x => ([], x)
  | o :: os, x => (((o.perform x).1 :: (performs os (o.perform x).2).1), (performs os (o.perform x).2).2)

/-- The results there should be. -/
def FileMap.results : List Op → FileMap → List (Res Reply)
  | [], _ => []
  | o :: os, m => (FileMap.step o m).1 :: FileMap.results os (FileMap.step o m).2

end Cbm.Spec
