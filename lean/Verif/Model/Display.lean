import Verif.Model.Cdisk
import Verif.Model.Error
import Verif.Model.Geos
import Verif.Model.Util
/-!
# What the library and `cdisk` print

Text is a list of characters.  A function that can fail half-way is an action whose
state is the text printed so far.  The writer is taken to accept every write.
-/

namespace Cbm

/-- The characters of a string literal. -/
@[irreducible] def lit (s : String) : List Char := s.toList

/-! ## Formatting (std) -/

/-- `{}` of an unsigned integer. -/
def decimal (n : Nat) : List Char := Nat.toDigits 10 n

/-- `{:0w}` of an unsigned integer: zeros on the left up to `w` digits. -/
def zeroPadded (w n : Nat) : List Char :=
  List.replicate (w - (decimal n).length) '0' ++ decimal n

/-- `{:w}` of a string, `{:<w}` of a number: blanks on the right up to `w` characters. -/
def padRight (w : Nat) (s : List Char) : List Char := s ++ List.replicate (w - s.length) ' '

/-- `[..].join(" ")`. -/
def joinBlank : List (List Char) → List Char
  | [] => []
  | [s] => s
  | s :: rest => s ++ [' '] ++ joinBlank rest

/-- `str::lines`: the pieces between newlines; the last one counts only if it is not
empty, and a carriage return before a newline is dropped. `cur` is the piece read so
far. -/
def strLines (cur : List Char) : List Char → List (List Char)
  | [] => if cur = [] then [] else [cur]
  | c :: rest =>
    if c = '\n' then
      (if cur.getLast? = some '\r' then cur.dropLast else cur) :: strLines [] rest
    else strLines (cur ++ [c]) rest

/-- `write!`. -/
def print (s : List Char) : M (List Char) Unit := M.modify (· ++ s)

/-- `writeln!`. -/
def println (s : List Char) : M (List Char) Unit := print (s ++ ['\n'])

/-! ## Names, places, directory entries -/

/-- src/petscii.rs:207-215 `Display for Petscii`: the characters, whatever width is asked
for (every row of the table is a scalar value). -/
def petsciiText (p : Petscii) : List Char := (petsciiToString p).map Char.ofNat

/-- src/petscii.rs:217-230 `Debug for Petscii`. -/
def petsciiDebug (p : Petscii) : List Char :=
  ['"'] ++ (petsciiText p).flatMap (fun c => if c = '"' then ['\\', '"'] else [c]) ++ ['"']

/-- src/disk/block.rs:174-178 `Display for Location`. -/
def Location.text (l : Location) : List Char :=
  ['('] ++ decimal l.track.toNat ++ [','] ++ decimal l.sector.toNat ++ [')']

/-- src/disk/block.rs:165-171 `Location::format_locations`. -/
def locationsText (ls : List Location) : List Char := joinBlank (ls.map Location.text)

/-- src/disk/block.rs:193-201 `Display for Position`. -/
def Position.text (p : Position) : List Char :=
  ['('] ++ decimal p.location.track.toNat ++ [','] ++ decimal p.location.sector.toNat
    ++ lit "@0x" ++ paddedHex 2 p.offset.toNat ++ [')']

/-- `char::to_uppercase` (std) as far as `FileType::from_string` can tell: the ASCII
letters, and the long s, whose upper case is `S`.  Every other character keeps an upper
case that is none of the letters compared with. -/
def upperChar (c : Char) : Char := if c = 'ſ' then 'S' else c.toUpper

/-- src/disk/directory.rs:40-49 `FileType::from_string`. -/
def FileType.fromString (s : List Char) : Option FileType :=
  let s := s.map upperChar
  if s = lit "DEL" then some .DEL
  else if s = lit "SEQ" then some .SEQ
  else if s = lit "PRG" then some .PRG
  else if s = lit "USR" then some .USR
  else if s = lit "REL" then some .REL
  else none

/-- src/bin/cdisk.rs:167-169: the type of a file that `cdisk write` makes, from the
optional argument. -/
def writeType (arg : Option (List Char)) : FileType :=
  (arg.bind FileType.fromString).getD .SEQ

/-- src/disk/directory.rs:52-63 `Display for FileType`. -/
def FileType.text : FileType → List Char
  | .DEL => lit "del"
  | .SEQ => lit "seq"
  | .PRG => lit "prg"
  | .USR => lit "usr"
  | .REL => lit "rel"
  | .unknown _ => lit "unk"

/-- src/disk/directory.rs:144-149: the marks after the file type. -/
def marks : Bool → Bool → List Char
  | true, false => ['<']
  | false, true => ['@']
  | true, true => ['<', '@']
  | false, false => [' ']

/-- src/disk/directory.rs:137-152 `Display for FileAttributes`. -/
def FileAttributes.text (a : FileAttributes) : List Char :=
  [if a.closed then ' ' else '*'] ++ a.fileType.text ++ marks a.locked a.saveWithReplace

/-- src/disk/geos/mod.rs:84-96 `Display for GEOSFileStructure`. -/
def GEOSFileStructure.text : GEOSFileStructure → List Char
  | .sequential => lit "Sequential"
  | .vlir => lit "VLIR"
  | .undefined b => lit "Unknown(0x" ++ paddedHex 2 b.toNat ++ [')']

/-- src/disk/geos/mod.rs:162-188 `Display for GEOSFileType`. -/
def GEOSFileType.text : GEOSFileType → List Char
  | .nonGEOS => lit "Non-GEOS"
  | .basic => lit "BASIC"
  | .assembler => lit "Assembler"
  | .dataFile => lit "Data file"
  | .systemFile => lit "System File"
  | .deskAccessory => lit "Desk Accessory"
  | .application => lit "Application"
  | .applicationData => lit "Application Data"
  | .fontFile => lit "Font File"
  | .printerDriver => lit "Printer Driver"
  | .inputDriver => lit "Input Driver"
  | .diskDriver => lit "Disk Driver"
  | .systemBootFile => lit "System Boot File"
  | .temporary => lit "Temporary"
  | .autoExecuteFile => lit "Auto-Execute File"
  | .undefined b => lit "Unknown(0x" ++ paddedHex 2 b.toNat ++ [')']

/-- src/disk/directory.rs:289-297 `Debug for RelativeExtra`. -/
def RelativeExtra.text (e : RelativeExtra) : List Char :=
  lit "REL(side=" ++ e.firstSideSector.text ++ lit " rec_len="
    ++ decimal e.recordLength.toNat ++ [')']

/-- src/disk/directory.rs:372-386 `Debug for GEOSExtra`. -/
def GEOSExtra.text (e : GEOSExtra) : List Char :=
  lit "GEOS(" ++ e.structure_.text ++ lit ", " ++ e.geosFileType.text
    ++ lit ", " ++ zeroPadded 4 (1900 + e.year.toNat) ++ ['-'] ++ zeroPadded 2 e.month.toNat
    ++ ['-'] ++ zeroPadded 2 e.day.toNat ++ ['-'] ++ zeroPadded 2 e.hour.toNat ++ [':']
    ++ zeroPadded 2 e.minute.toNat ++ [')']

/-- src/disk/directory.rs:219-227 `Debug for Extra`, with 250-254 for ordinary files. -/
def Extra.text : Extra → List Char
  | .linear _ => lit "REGULAR"
  | .relative e => e.text
  | .geos e => e.text

/-- src/disk/directory.rs:524-541 `Display for DirectoryEntry`; `alternate` is `{:#}`. -/
def DirectoryEntry.text (e : DirectoryEntry) (alternate : Bool) : List Char :=
  padRight 4 (decimal e.fileSize) ++ [' ']
    ++ padRight 18 (['"'] ++ petsciiText e.filename ++ ['"']) ++ e.attributes.text
    ++ (if alternate then [' '] ++ e.extra.text else [])
    ++ (if e.geosBorder then lit " (GEOS border)" else [])

/-! ## Errors -/

/-- src/disk/error.rs:74-79 `Display for DiskError`. -/
@[irreducible] def DiskError.text (e : DiskError) : List Char := e.message.toList

/-- src/disk/validation.rs:36-57 `Display for ValidationError`. -/
def ValidationError.text : ValidationError → List Char
  | .systemSectorNotAllocated l => lit "System sector not allocated: " ++ l.text
  | .sectorMisallocated l => lit "Sector misallocated: " ++ l.text
  | .sectorMisoccupied l name =>
    lit "Sector " ++ l.text ++ lit " misoccupied by file: " ++ petsciiDebug name
  | .sectorOveroccupied l a b =>
    lit "Sector " ++ l.text ++ lit " occupied by multiple files, including at least: "
      ++ petsciiDebug a ++ [' '] ++ petsciiDebug b
  | .fileScanError e name => lit "Error scanning " ++ petsciiDebug name ++ lit ": " ++ e.text

/-! ## Disks, BAM, info blocks -/

/-- src/disk/mod.rs:525-548 `Display for dyn Disk`.  The only error of `header()` is
`Unformatted`. -/
def Disk.text (disk : Disk) : List Char :=
  match disk.header with
  | some h =>
    decimal 0 ++ lit " \"" ++ petsciiText h.diskName ++ lit "\" "
      ++ petsciiText [h.diskId.1, h.diskId.2] ++ [' ']
      ++ petsciiText [h.directoryDosVersion, h.directoryFormatType]
      ++ (match h.geos with
        | some g => lit " (" ++ escaped g.id ++ [')']
        | none => [])
  | none => lit "Cannot read header: " ++ DiskError.unformatted.text

/-- src/disk/bam.rs:359-364: the map of a track, lowest bit first. -/
def mapText : Nat → BitVec 64 → List Char
  | 0, _ => []
  | n + 1, map => (if map &&& 1#64 = 1#64 then '.' else 'x') :: mapText n (map >>> 1)

/-- src/disk/bam.rs:351-366: the line of one track (counted from 0). -/
def Bam.trackText (b : Bam) (track : Nat) : Res (List Char) := do
  let e ← indexRes b.entries track
  let row ← trackRow b.format.tracks (track + 1)
  pure (['t'] ++ zeroPadded 2 (track + 1) ++ lit ": [" ++ zeroPadded 2 e.freeSectors.toNat
    ++ ['/'] ++ zeroPadded 2 row.sectors ++ lit "] " ++ mapText row.sectors e.sectorMap
    ++ ['\n'])

/-- src/disk/bam.rs:349-370 `Debug for Bam`. -/
def Bam.print (b : Bam) : M (List Char) Unit := do
  M.forEach (List.range b.format.lastTrack) fun track => do
    let line ← M.lift (b.trackText track)
    Cbm.print line
  let n ← M.lift b.blocksFree
  println (decimal n ++ lit " blocks free.")

/-- src/disk/geos/mod.rs:341-351: the text beside the icon. -/
def GEOSInfo.fields (i : GEOSInfo) : List Char :=
  lit "Type: " ++ i.fileType.text ++ lit " (" ++ i.structure_.text ++ [')', '\n']
    ++ lit "Program addresses: load=0x" ++ paddedHex 4 i.load ++ lit " end=0x"
    ++ paddedHex 4 i.end ++ lit " start=0x" ++ paddedHex 4 i.start ++ ['\n']
    ++ lit "Class: " ++ escaped i.class ++ ['\n']
    ++ lit "Author: " ++ escaped i.author ++ ['\n']
    ++ lit "Application: " ++ escaped i.application ++ ['\n']
    ++ lit "Description: " ++ escaped i.description ++ ['\n']

/-- src/disk/geos/mod.rs:354-361: two columns of lines side by side.  Both are continued
with empty lines without end, and the first pair of empty lines ends the output. -/
def sideBySide (left right : List (List Char)) : List Char :=
  let rows := (List.range (max left.length right.length)).map fun i =>
    (left.getD i [], right.getD i [])
  (rows.takeWhile fun p => !(p.1.isEmpty && p.2.isEmpty)).flatMap fun p =>
    padRight 12 p.1 ++ [' '] ++ p.2 ++ ['\n']

/-- src/disk/geos/mod.rs:338-366 `Display for GEOSInfo`. -/
def GEOSInfo.text (i : GEOSInfo) : Res (List Char) := do
  let icon ← i.icon.toUnicode
  pure (sideBySide (strLines [] icon) (strLines [] i.fields))

/-! ## Details of a file -/

/-- file.rs:270-273 and the same in 512-515 and geos/file.rs:139-142. -/
def printPosition (e : DirectoryEntry) (verbosity : Nat) : M (List Char) Unit :=
  if verbosity > 0 then
    match e.position with
    | some p => println (lit "Directory position: " ++ p.text)
    | none => pure ()
  else pure ()

/-- src/disk/geos/file.rs:148-154: the records up to the last one that has a chain, or
all of them if none has. -/
def availableRecords (records : List (Option Location)) : Nat :=
  if records.any Option.isSome then
    (records.reverse.dropWhile fun r => r.isNone).length
  else records.length

/-- src/disk/geos/file.rs:159-182: the lines of the records from number `i` on. -/
def printRecords (d : Device) (available total : Nat) :
    Nat → List (Option Location) → M (List Char) Unit
  | _, [] => pure ()
  | i, r :: rest =>
    if i ≥ available then
      println (decimal (total - available) ++ lit " unavailable records follow...")
    else do
      let locations ← M.lift (match r with
        | some l => chainLocations d l
        | none => .ok [])
      println (lit "Record " ++ decimal i ++ lit " sectors: " ++ locationsText locations)
      printRecords d available total (i + 1) rest

/-- src/disk/geos/file.rs:144-193: where the file is. -/
def GEOSFile.printPlaces (f : GEOSFile) (d : Device) (verbosity : Nat) : M (List Char) Unit :=
  match f.vlir with
  | some records =>
    let available := availableRecords records
    if verbosity > 0 then do
      println (lit "VLIR record sector: " ++ f.entry.firstSector.text)
      printRecords d available records.length 0 records
    else println (lit "VLIR records: " ++ decimal available)
  | none =>
    if verbosity > 0 then do
      let locations ← M.lift (chainLocations d f.entry.firstSector)
      println (lit "Occupied sectors: " ++ locationsText locations)
    else pure ()

/-- src/disk/geos/file.rs:194-197: the info block, if there is one. -/
def printInfo : Option GEOSInfo → M (List Char) Unit
  | some info => do
    println (lit "GEOS info block:")
    let text ← M.lift info.text
    print text
  | none => pure ()

/-- src/disk/geos/file.rs:138-198 `details`. -/
def GEOSFile.details (f : GEOSFile) (d : Device) (verbosity : Nat) : M (List Char) Unit := do
  printPosition f.entry verbosity
  f.printPlaces d verbosity
  let info ← M.lift (f.info d)
  printInfo info

/-- `FileOps::details` (file.rs:269-283, 511-528; geos/file.rs:138-198). -/
def File.details (f : File) (d : Device) (verbosity : Nat) : M (List Char) Unit :=
  match f with
  | .linear e => do
    printPosition e verbosity
    if verbosity > 0 then do
      let locations ← M.lift (chainLocations d e.firstSector)
      println (lit "Occupied sectors: " ++ locationsText locations)
    else pure ()
  | .relative r => do
    printPosition r.entry verbosity
    if verbosity > 0 then do
      println (lit "Data sectors: " ++ locationsText r.dataSectors)
      println (lit "Side sectors: " ++ locationsText r.sideSectors)
    else pure ()
  | .geosSequential f | .geosVLIR f => f.details d verbosity

/-! ## Dumps -/

/-- src/disk/file.rs:111-118 `dump`. -/
def File.dump (f : File) (d : Device) : M (List Char) Unit := do
  println (lit "Filename: \"" ++ petsciiText f.entry.filename ++ ['"'])
  M.forEach (List.range f.recordCount) fun i => do
    println (lit "Record: " ++ decimal i)
    let content ← M.lift (f.record d i)
    println (hexdump [] content)

/-- src/disk/block.rs:65-70: one line of the error table; the table from `index` on is
given. -/
def errorLine (track sectors : Nat) (table : List Byte) : Res (List Char × List Byte) :=
  if sectors ≤ table.length then
    .ok (lit "track " ++ zeroPadded 2 track ++ lit ": "
      ++ (table.take sectors).flatMap (fun b => paddedHex 2 b.toNat ++ [' ']), table.drop sectors)
  else rpanic

/-- src/disk/block.rs:64-71: the lines of the error table.  A table that is too short
panics (here before its last line). -/
def printErrors (g : Geometry) : List Nat → List Byte → M (List Char) Unit
  | [], _ => pure ()
  | track :: rest, table => do
    let row ← M.lift (trackRow g.trackLayouts track)
    let (line, table) ← M.lift (errorLine track row.sectors table)
    println line
    printErrors g rest table

/-- src/disk/block.rs:52-74 `dump` (src/disk/mod.rs:495-497). -/
def Device.dump (d : Device) : M (List Char) Unit := do
  let locations ← M.lift d.geometry.locations
  M.forEach locations fun l => do
    println []
    println (lit "track " ++ zeroPadded 2 l.1 ++ lit " sector " ++ zeroPadded 2 l.2)
    let block ← M.lift (d.sector ⟨UInt8.ofNat l.1, UInt8.ofNat l.2⟩)
    println (hexdump [] block)
  let table ← M.lift d.errorTable
  match table with
  | some table => do
    println []
    println (lit "Error table:")
    printErrors d.geometry ((List.range d.geometry.tracks).map (· + 1)) table
  | none => pure ()

/-! ## Commands -/

/-- Open an image read-only and print something about it: what is returned, and what was
printed. -/
def showing {α : Type} (ext : Option (List Char)) (writable : Bool)
    (body : Disk → M (List Char) α) (bytes : List Byte) : Res α × List Char :=
  match Disk.openPath ext writable bytes with
  | .error e => (.error e, [])
  | .ok disk => body disk []

/-- src/bin/cdisk.rs:445-456: one entry of the listing. -/
def printEntry (disk : Disk) (verbosity : Nat) (item : Res DirectoryEntry) :
    M (List Char) Unit := do
  let e ← M.lift item
  if verbosity > 0 then do
    println (e.text true)
    if verbosity > 1 then do
      let (f, _) ← M.lift (disk.openFile e.filename)
      f.details disk.dev (verbosity - 2)
      println []
    else pure ()
  else println (e.text false)

/-- src/bin/cdisk.rs:444-461. -/
def printListing (verbosity : Nat) (disk : Disk) : M (List Char) Unit := do
  println disk.text
  M.forEach disk.items (printEntry disk verbosity)
  let free ← M.lift disk.blocksFree
  println (decimal free ++ lit " blocks free.")

/-- src/bin/cdisk.rs:442-462 `cmd_dir`: what it prints. -/
def cmdDirText (ext : Option (List Char)) (verbosity : Nat) : List Byte → Res Unit × List Char :=
  showing ext false (printListing verbosity)

/-- src/bin/cdisk.rs:495-512 `cmd_validate` after opening the image: what it prints, and
the text of the error it returns. -/
def printValidation (disk : Disk) : M (List Char) (Option (List Char)) := do
  let errors ← M.lift disk.validate
  M.forEach errors fun e => println e.text
  if errors.isEmpty then do
    println (lit "Disk validates successfully.")
    pure none
  else pure (some (decimal errors.length ++ lit " errors found during validation."))

/-- src/bin/cdisk.rs:495-512 `cmd_validate`. -/
def cmdValidateText (ext : Option (List Char)) :
    List Byte → Res (Option (List Char)) × List Char :=
  showing ext true printValidation

/-- src/bin/cdisk.rs:269-274 `cmd_bam_show`. -/
def cmdBamShow (ext : Option (List Char)) : List Byte → Res Unit × List Char :=
  showing ext false fun disk => do
    let ref ← M.lift disk.bamRef
    let b ← M.lift (indexRes disk.cells ref)
    b.print

/-- src/bin/cdisk.rs:483-493 `cmd_dump`. -/
def cmdDump (ext : Option (List Char)) (name : Option (List Nat)) :
    List Byte → Res Unit × List Char :=
  showing ext true fun disk =>
    match name with
    | some name => do
      let (f, _) ← M.lift (disk.openFile (fromStrLossy name))
      f.dump disk.dev
    | none => disk.dev.dump

end Cbm
