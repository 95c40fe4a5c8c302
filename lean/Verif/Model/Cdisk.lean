import Verif.Model.Session
/-!
# src/bin/cdisk.rs: the command-line program

A command is a function of the bytes of the image file.  Its result is what it
returns and the bytes of the file afterwards: a writable image is a shared memory map
(src/disk/image.rs:31-42), so the file holds what the image held when the process
ended.  Not modelled: the argument parser and the errors of the host file system.  The
text that is printed is in Model/Display.lean (here `dir` and `validate` return what they
print as data).  A panic ends the process; what its unwinding writes is not modelled, except that
writers are dropped on every path.
-/

namespace Cbm

/-- src/disk/mod.rs:144-168 `DiskType::from_extension`, from the extension that
`Path::extension` finds.  `to_lowercase` is taken on ASCII letters only: no other
character has one of the characters compared here as its lower case. -/
def DiskType.fromExtension (ext : Option (List Char)) : Option DiskType :=
  match ext with
  | none => none
  | some e =>
    let e := (e.map Char.toLower).map Char.toLower
    if e = ['d', '6', '4'] then some .d64
    else if e = ['d', '7', '1'] then some .d71
    else if e = ['d', '8', '1'] then some .d81
    else none

/-- src/disk/mod.rs:172-197 `open`. -/
def Disk.openPath (ext : Option (List Char)) (writable : Bool) (bytes : List Byte) : Res Disk :=
  let image : Image := ⟨if writable then .readWriteMap else .readOnlyMap, bytes⟩
  match DiskType.fromExtension ext with
  | some t => Disk.new t image
  | none => do
    let (_, disk) ← Disk.openAny image
    pure disk

/-! ## FillReader -/

/-- src/bin/cdisk.rs:247-250 `FillReader`. -/
structure FillReader where
  fillByte : Byte
  size : Nat
  deriving DecidableEq, Repr

/-- src/bin/cdisk.rs:258-267 `read` into a buffer of `len` bytes: the bytes written to
its start, and the reader after it. -/
def FillReader.read (r : FillReader) (len : Nat) : List Byte × FillReader :=
  let n := min len r.size
  (List.replicate n r.fillByte, { r with size := r.size - n })

/-- Successive reads with the given buffer sizes: the pieces, and the reader at the end. -/
def FillReader.reads (r : FillReader) : List Nat → List (List Byte) × FillReader
  | [] => ([], r)
  | n :: ns =>
    let (piece, r) := r.read n
    let (pieces, r) := r.reads ns
    (piece :: pieces, r)

/-- `io::copy` (std) from this reader into a new file, with the buffer sizes it happens
to choose: until a read gives no bytes; `none` if the sizes run out first. -/
def FillReader.copy (r : FillReader) : List Nat → Option (List Byte)
  | [] => none
  | n :: ns =>
    match r.read n with
    | ([], _) => some []
    | (piece, r') => (r'.copy ns).map (piece ++ ·)

/-- d64.rs:193-199, d71.rs, d81.rs `geometry(false)`: the first row of the list of
allowed geometries in all three. -/
def DiskType.plainGeometry : DiskType → Geometry
  | .d64 => D64.GEOMETRY_35
  | .d71 => D71.GEOMETRY
  | .d81 => D81.GEOMETRY

/-- src/bin/cdisk.rs:422-440 `cmd_create`: the bytes of the new file. -/
def cmdCreate (ext : Option (List Char)) (sizes : List Nat) : Option (List Byte) :=
  let geometry := match DiskType.fromExtension ext with
    | some t => t.plainGeometry
    | none => DiskType.d64.plainGeometry
  (FillReader.mk 0x00 geometry.size).copy sizes

/-! ## Commands on an image -/

/-- Open the image, run the body on a session without handles, and leave the bytes of
the image in the file. -/
def inSession {α : Type} (ext : Option (List Char)) (writable : Bool) (body : M Session α)
    (bytes : List Byte) : Res α × List Byte :=
  match Disk.openPath ext writable bytes with
  | .error e => (.error e, bytes)
  | .ok disk =>
    match body ⟨disk, [], []⟩ with
    | (r, s) => (r, s.disk.dev.image.bytes)

/-- `io::copy` (std) into the writer: one `write_all` for each piece read from the
source (a `write` takes the whole buffer), then `flush`; the writer is dropped at the
end of the command, whatever happened. -/
def copyInto (w : Nat) (pieces : List (List Byte)) : M Session Unit := fun s =>
  match (do
    M.forEach pieces fun p => Session.step (.write w p)
    Session.step (.flush w) : M Session Unit) s with
  | (r, s') => (r, (Session.step (.drop w) s').2)

/-- src/bin/cdisk.rs:344-354 `open_cbm_writer`, 385-396 `cmd_write`. -/
def cmdWrite (ext : Option (List Char)) (name : List Nat) (type : FileType)
    (pieces : List (List Byte)) : List Byte → Res Unit × List Byte :=
  inSession ext true do
    Session.step (.create (fromStrLossy name) type .linear)
    Session.step (.openWriter 0)
    copyInto 0 pieces

/-- src/bin/cdisk.rs:309-325 `open_cbm_file` (which opens the image read-only) and
`open_cbm_appender`, 398-408 `cmd_append`. -/
def cmdAppend (ext : Option (List Char)) (name : List Nat) (pieces : List (List Byte)) :
    List Byte → Res Unit × List Byte :=
  inSession ext false do
    Session.step (.openFile (fromStrLossy name))
    Session.step (.openWriter 0)
    copyInto 0 pieces

/-- src/bin/cdisk.rs:309-318 `open_cbm_reader`, 373-383 `cmd_read`: the bytes copied
out.  `sizes` are the buffer sizes of `io::copy`. -/
def cmdRead (ext : Option (List Char)) (name : List Nat) (sizes : List Nat) :
    List Byte → Res (List Byte) × List Byte :=
  inSession ext false (M.read fun s => do
    let (f, _) ← s.disk.openFile (fromStrLossy name)
    let r ← f.reader
    (r.readToEnd s.disk.dev sizes).1)

/-- src/bin/cdisk.rs:464-470 `cmd_format`. -/
def cmdFormat (ext : Option (List Char)) (name id : List Nat) : List Byte → Res Unit × List Byte :=
  inSession ext true (Session.step (.format (fromStrLossy name) (idFromBytes (fromStrLossy id))))

/-- src/bin/cdisk.rs:472-475 `cmd_rename`. -/
def cmdRename (ext : Option (List Char)) (original new : List Nat) :
    List Byte → Res Unit × List Byte :=
  inSession ext true (Session.step (.rename (fromStrLossy original) (fromStrLossy new)))

/-- src/bin/cdisk.rs:477-481 `cmd_delete`. -/
def cmdDelete (ext : Option (List Char)) (name : List Nat) : List Byte → Res Unit × List Byte :=
  inSession ext true do
    Session.step (.openFile (fromStrLossy name))
    Session.step (.delete 0)

/-- src/bin/cdisk.rs:442-462 `cmd_dir` without `-v`: the entries and the number of free
blocks that it prints. -/
def cmdDir (ext : Option (List Char)) :
    List Byte → Res (List DirectoryEntry × Nat) × List Byte :=
  inSession ext false (M.read fun s => do
    let entries ← s.disk.directory
    let free ← s.disk.blocksFree
    pure (entries, free))

/-- src/bin/cdisk.rs:496-512 `cmd_validate`: the errors found. -/
def cmdValidate (ext : Option (List Char)) :
    List Byte → Res (List ValidationError) × List Byte :=
  inSession ext true (M.read fun s => s.disk.validate)

/-! ## Editing the BAM -/

/-- src/bin/cdisk.rs:291-302: the sectors of one track. -/
def editTrack (format : DiskFormat) (sector : Option Nat) (allocate : Bool) (track : Nat)
    (b : Bam) : Res Bam :=
  b.modifyEntry track fun e => do
    let sectors ← match sector with
      | some s => pure [s]
      | none => do
        let n ← format.sectorsInTrack track
        let last ← subU n 1
        pure (List.range (last + 1))
    foldRes (fun e s => if allocate then e.allocate s else e.free s) sectors e

/-- src/bin/cdisk.rs:283-290: the tracks to work on. -/
def editTracks : Option Nat → List Nat
  | some t => [t]
  | none => (List.range 35).map (· + 1)

/-- src/bin/cdisk.rs:276-306 `cmd_bam_edit` after opening the image. -/
def bamEdit (track sector : Option Nat) (allocate : Bool) : M Disk Unit := do
  let format ← M.read Disk.diskFormat
  let ref ← M.read Disk.bamRef
  Disk.withBam ref (do
    M.forEach (editTracks track) fun t => St.updBam (editTrack format sector allocate t)
    St.flushBam)

/-- `parse::<u8>` (std): a leading plus sign is allowed. -/
def withoutPlus : List Char → List Char
  | '+' :: rest => rest
  | text => text

/-- src/bin/cdisk.rs:206-215 `optional_u8_parser` on the text of an argument.
`parse::<u8>` takes an optional plus sign and decimal digits and fails above 255. -/
def optionalU8Parser (text : List Char) (lo hi : Nat) : Option (Option Nat) :=
  if text = ['a', 'l', 'l'] then some none
  else
    let digits := withoutPlus text
    if digits ≠ [] ∧ digits.all Char.isDigit then
      let n := digits.foldl (fun n c => 10 * n + (c.toNat - '0'.toNat)) 0
      if n ≤ 255 ∧ lo ≤ n ∧ n ≤ hi then some (some n) else none
    else none

/-- src/bin/cdisk.rs:229-236 `optional_track_validator` and `optional_track_parser`: `none`
if the argument is refused. -/
def optionalTrackParser (text : List Char) : Option (Option Nat) := optionalU8Parser text 1 40

/-- src/bin/cdisk.rs:238-245 `optional_sector_validator` and `optional_sector_parser`. -/
def optionalSectorParser (text : List Char) : Option (Option Nat) := optionalU8Parser text 0 20

/-- src/bin/cdisk.rs:276-306 `cmd_bam_edit`. -/
def cmdBamEdit (ext : Option (List Char)) (track sector : Option Nat) (allocate : Bool) :
    List Byte → Res Unit × List Byte :=
  inSession ext true (Session.onDisk (bamEdit track sector allocate))

end Cbm
