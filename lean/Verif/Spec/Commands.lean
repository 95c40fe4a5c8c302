import Verif.Spec.Ops
import Verif.Model.Cdisk
/-!
# The `cdisk` program as a tool that keeps files in an image (specification)

`Command.step` says what each command should do to a disk label and a map of files,
without sectors, BAM or open handles.  It is undefined (`none`) where the program is
known to do something else: relative files, disk names that are too long (C54), a read
with buffer sizes that do not let it finish, and a new file that needs a further
directory block on a disk that is full (`C63_full_directory_refuted`).
-/

namespace Cbm.Spec

/-- A command line without the name of the image. -/
inductive Command where
  | write (name : List Nat) (type : FileType) (pieces : List (List Byte))
  | read (name : List Nat) (sizes : List Nat)
  | rename (original new : List Nat)
  | delete (name : List Nat)
  | format (name id : List Nat)
  | dir
  | validate

/-- What a command prints or copies out. -/
inductive Answer where
  | done
  | content (data : List Byte)
  | listing (lines : List (List Byte × Byte × Nat)) (free : Nat)
  | errors (es : List ValidationError)
  deriving DecidableEq, Repr

/-- The type of image a path names: D64 when the extension is none of the three. -/
def namedType (ext : Option (List Char)) : DiskType :=
  if ext = some ['d', '7', '1'] ∨ ext = some ['D', '7', '1'] then .d71
  else if ext = some ['d', '8', '1'] ∨ ext = some ['D', '8', '1'] then .d81
  else .d64

/-- The number of bytes of a new image. -/
def newSize : DiskType → Nat
  | .d64 => 174848
  | .d71 => 349696
  | .d81 => 819200

/-- Run the command on the bytes of an image file: its result, and the bytes afterwards. -/
def Command.exec (ext : Option (List Char)) (c : Command) (bytes : List Byte) :
    Res Answer × List Byte :=
  match c with
  | .write name type pieces =>
    let (r, b) := cmdWrite ext name type pieces bytes
    (r.map fun _ => .done, b)
  | .read name sizes =>
    let (r, b) := cmdRead ext name sizes bytes
    (r.map .content, b)
  | .rename original new =>
    let (r, b) := cmdRename ext original new bytes
    (r.map fun _ => .done, b)
  | .delete name =>
    let (r, b) := cmdDelete ext name bytes
    (r.map fun _ => .done, b)
  | .format name id =>
    let (r, b) := cmdFormat ext name id bytes
    (r.map fun _ => .done, b)
  | .dir =>
    let (r, b) := cmdDir ext bytes
    (r.map fun p => .listing (p.1.map fun e => (e.filename, e.attributes.toByte, e.fileSize)) p.2, b)
  | .validate =>
    let (r, b) := cmdValidate ext bytes
    (r.map .errors, b)

/-- Commands one after the other. -/
def execs (ext : Option (List Char)) : List Command → List Byte → List (Res Answer) × List Byte
  | [], bytes => ([], bytes)
  | c :: cs, bytes =>
    let (r, bytes) := c.exec ext bytes
    let (rs, bytes) := execs ext cs bytes
    (r :: rs, bytes)

/-- A labelled disk with files. -/
structure Contents where
  label : List Byte × (Byte × Byte)
  map : FileMap

/-- What each command should do.  The given names are converted to PETSCII. -/
def Command.step : Command → Contents → Option (Res Answer × Contents)
  | .write name type pieces, c =>
    let name := fromStrLossy name
    if type.toByte &&& 0x0F = 4 then none
    else if 16 < name.length then some (fail .filenameTooLong, c)
    else if (c.map.find name).isSome then some (fail .fileExists, c)
    else match c.map.reserve with
      | none => some (fail .diskFull, c)
      | some (m, i) =>
        if m.free = 0 then
          if m.slots.length = c.map.slots.length then some (fail .diskFull, c) else none
        else
          some (if pieces.flatten.length ≤ 254 * m.free then .ok .done else fail .diskFull,
            { c with map := m.put i (some ⟨storedName name, type.toByte ||| 0x80,
                pieces.flatten.take (254 * m.free)⟩) })
  | .read name sizes, c =>
    match c.map.find (fromStrLossy name) with
    | none => some (fail .notFound, c)
    | some (_, g) =>
      if (∀ k ∈ sizes, 0 < k) ∧ g.data.length < sizes.length then some (.ok (.content g.data), c)
      else none
  | .rename original new, c =>
    let (r, m) := FileMap.step (.rename (fromStrLossy original) (fromStrLossy new)) c.map
    some (r.map fun _ => .done, { c with map := m })
  | .delete name, c =>
    let (r, m) := FileMap.step (.delete (fromStrLossy name)) c.map
    some (r.map fun _ => .done, { c with map := m })
  | .format name id, c =>
    let name := fromStrLossy name
    if 16 < name.length then none
    else some (.ok .done,
      ⟨(paddedName name, idFromBytes (fromStrLossy id)), FileMap.empty c.map.type⟩)
  | .dir, c =>
    some (.ok (.listing (c.map.files.map fun g =>
      (g.name, g.attr, max 1 ((g.data.length + 253) / 254))) c.map.free), c)
  | .validate, c => some (.ok (.errors []), c)

/-- The commands that should be run, one after the other. -/
def Command.steps : List Command → Contents → Option (List (Res Answer) × Contents)
  | [], c => some ([], c)
  | k :: ks, c => do
    let (r, c) ← k.step c
    let (rs, c) ← Command.steps ks c
    pure (r :: rs, c)

/-- The bytes of an image file hold these contents: the file can be opened, and what it
holds is a saved state of the file store without handles. -/
def HoldsFiles (ext : Option (List Char)) (bytes : List Byte) (c : Contents) : Prop :=
  ∃ disk, Disk.openPath ext true bytes = .ok disk ∧
    Reaches ⟨disk, [], []⟩ ⟨c.map.type, c.label, c.map.slots, [], [], true⟩

end Cbm.Spec
