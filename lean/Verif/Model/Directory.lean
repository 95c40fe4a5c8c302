import Verif.Model.Block
import Verif.Model.Petscii
/-!
# Directory entries (src/disk/directory.rs:1-522) and GEOS type codes
(src/disk/geos/mod.rs:59-160)
-/

namespace Cbm

/-! ## File attributes -/

/-- src/disk/directory.rs:29-36 `FileType`. -/
inductive FileType where
  | DEL | SEQ | PRG | USR | REL
  | unknown (b : Byte)
  deriving DecidableEq, Repr

/-- src/disk/directory.rs:68-82 `FileAttributes`. -/
structure FileAttributes where
  fileType : FileType
  unusedBit : Bool
  saveWithReplace : Bool
  locked : Bool
  closed : Bool
  deriving DecidableEq, Repr

/-- src/disk/directory.rs:86-102 `FileAttributes::from_byte`. -/
def FileAttributes.fromByte (byte : Byte) : FileAttributes :=
  let t := byte &&& 0x0F
  { fileType :=
      if t = 0x00 then .DEL else if t = 0x01 then .SEQ else if t = 0x02 then .PRG
      else if t = 0x03 then .USR else if t = 0x04 then .REL else .unknown t
    unusedBit := byte &&& 0x10 != 0
    saveWithReplace := byte &&& 0x20 != 0
    locked := byte &&& 0x40 != 0
    closed := byte &&& 0x80 != 0 }

/-- src/disk/directory.rs:106-113, the file type code. -/
def FileType.toByte : FileType → Byte
  | .DEL => 0x00
  | .SEQ => 0x01
  | .PRG => 0x02
  | .USR => 0x03
  | .REL => 0x04
  | .unknown b => b

/-- src/disk/directory.rs:105-127 `FileAttributes::to_byte`. -/
def FileAttributes.toByte (a : FileAttributes) : Byte :=
  let byte := a.fileType.toByte
  let byte := if a.unusedBit then byte ||| 0x10 else byte
  let byte := if a.saveWithReplace then byte ||| 0x20 else byte
  let byte := if a.locked then byte ||| 0x40 else byte
  let byte := if a.closed then byte ||| 0x80 else byte
  byte

/-- src/disk/directory.rs:132-134 `FileAttributes::is_scratched`. -/
def FileAttributes.isScratched (a : FileAttributes) : Bool :=
  a.fileType == .DEL && !a.closed

/-! ## GEOS codes -/

/-- src/disk/geos/mod.rs:60-64 `GEOSFileStructure`. -/
inductive GEOSFileStructure where
  | sequential | vlir
  | undefined (b : Byte)
  deriving DecidableEq, Repr

/-- src/disk/geos/mod.rs:67-73 `GEOSFileStructure::from_byte`. -/
def GEOSFileStructure.fromByte (b : Byte) : GEOSFileStructure :=
  if b = 0x00 then .sequential else if b = 0x01 then .vlir else .undefined b

/-- src/disk/geos/mod.rs:75-81 `GEOSFileStructure::to_byte`. -/
def GEOSFileStructure.toByte : GEOSFileStructure → Byte
  | .sequential => 0x00
  | .vlir => 0x01
  | .undefined b => b

/-- src/disk/geos/mod.rs:99-116 `GEOSFileType`. -/
inductive GEOSFileType where
  | nonGEOS | basic | assembler | dataFile | systemFile | deskAccessory
  | application | applicationData | fontFile | printerDriver | inputDriver
  | diskDriver | systemBootFile | temporary | autoExecuteFile
  | undefined (b : Byte)
  deriving DecidableEq, Repr

/-- src/disk/geos/mod.rs:119-138 `GEOSFileType::from_byte`. -/
def GEOSFileType.fromByte (b : Byte) : GEOSFileType :=
  if b = 0x00 then .nonGEOS else if b = 0x01 then .basic
  else if b = 0x02 then .assembler else if b = 0x03 then .dataFile
  else if b = 0x04 then .systemFile else if b = 0x05 then .deskAccessory
  else if b = 0x06 then .application else if b = 0x07 then .applicationData
  else if b = 0x08 then .fontFile else if b = 0x09 then .printerDriver
  else if b = 0x0a then .inputDriver else if b = 0x0b then .diskDriver
  else if b = 0x0c then .systemBootFile else if b = 0x0d then .temporary
  else if b = 0x0e then .autoExecuteFile else .undefined b

/-- src/disk/geos/mod.rs:140-159 `GEOSFileType::to_byte`. -/
def GEOSFileType.toByte : GEOSFileType → Byte
  | .nonGEOS => 0x00 | .basic => 0x01 | .assembler => 0x02 | .dataFile => 0x03
  | .systemFile => 0x04 | .deskAccessory => 0x05 | .application => 0x06
  | .applicationData => 0x07 | .fontFile => 0x08 | .printerDriver => 0x09
  | .inputDriver => 0x0a | .diskDriver => 0x0b | .systemBootFile => 0x0c
  | .temporary => 0x0d | .autoExecuteFile => 0x0e
  | .undefined b => b

/-! ## The nine extra bytes -/

/-- src/disk/directory.rs:170 `ENTRY_SIZE`. -/
abbrev ENTRY_SIZE : Nat := 32
/-- src/disk/directory.rs:174 `ENTRY_FILENAME_LENGTH`. -/
abbrev ENTRY_FILENAME_LENGTH : Nat := 16
/-- src/disk/directory.rs:175 `ENTRY_EXTRA_OFFSET`. -/
abbrev ENTRY_EXTRA_OFFSET : Nat := 0x15
/-- src/disk/directory.rs:176 `EXTRA_SIZE`. -/
abbrev EXTRA_SIZE : Nat := 9

/-- src/disk/file.rs:25-44 `Scheme`. -/
inductive Scheme where
  | linear | relative | geosSequential | geosVLIR
  deriving DecidableEq, Repr

/-- src/disk/directory.rs:259-263 `RelativeExtra`. -/
structure RelativeExtra where
  firstSideSector : Location
  recordLength : Byte
  unused : List Byte
  deriving DecidableEq, Repr

/-- src/disk/directory.rs:301-310 `GEOSExtra`. -/
structure GEOSExtra where
  infoBlock : Location
  structure_ : GEOSFileStructure
  geosFileType : GEOSFileType
  year : Byte
  month : Byte
  day : Byte
  hour : Byte
  minute : Byte
  deriving DecidableEq, Repr

/-- src/disk/directory.rs:189-193 `Extra` (`LinearExtra`, 232-234, is its nine
`unused` bytes). -/
inductive Extra where
  | linear (unused : List Byte)
  | relative (e : RelativeExtra)
  | geos (e : GEOSExtra)
  deriving DecidableEq, Repr

/-- src/disk/directory.rs:196-198 `Extra::default`. -/
def Extra.default : Extra := .linear (List.replicate EXTRA_SIZE 0)

/-- src/disk/directory.rs:200-207 `Extra::from_bytes` with 237-242, 270-279 and
322-336.  The assert on nine bytes holds at the only call site, where the
argument is a nine-byte slice. -/
def Extra.fromBytes (scheme : Scheme) (b : List Byte) : Extra :=
  match scheme with
  | .linear => .linear b
  | .relative => .relative
      { firstSideSector := ⟨byteAt b 0, byteAt b 1⟩
        recordLength := byteAt b 2
        unused := b.drop 3 }
  | .geosSequential | .geosVLIR => .geos
      { infoBlock := ⟨byteAt b 0, byteAt b 1⟩
        structure_ := .fromByte (byteAt b 2)
        geosFileType := .fromByte (byteAt b 3)
        year := byteAt b 4
        month := byteAt b 5
        day := byteAt b 6
        hour := byteAt b 7
        minute := byteAt b 8 }

/-- src/disk/directory.rs:209-216 `Extra::to_bytes` with 244-247, 281-286 and
338-349, applied to the current nine bytes `b`.  The relative case leaves byte 2
(the record length) as it was.  Length mismatches in `copy_from_slice` panic. -/
def Extra.toBytes (e : Extra) (b : List Byte) : Res (List Byte) :=
  match e with
  | .linear unused => copyFromSlice unused b
  | .relative e =>
    if e.unused.length = 6 then
      .ok (splice (splice b 0 [e.firstSideSector.track, e.firstSideSector.sector]) 3 e.unused)
    else rpanic
  | .geos e => .ok (splice b 0 [e.infoBlock.track, e.infoBlock.sector, e.structure_.toByte,
      e.geosFileType.toByte, e.year, e.month, e.day, e.hour, e.minute])

/-! ## Entries -/

/-- src/disk/directory.rs:390-401 `DirectoryEntry`.  `fileSize` is a `u16`; it is
a `Nat` here, with the overflow of `+= 1` checked where it happens. -/
structure DirectoryEntry where
  attributes : FileAttributes
  firstSector : Location
  filename : Petscii
  extra : Extra
  fileSize : Nat
  position : Option Position
  scheme : Scheme
  geosBorder : Bool
  deriving DecidableEq, Repr

/-- src/disk/directory.rs:352-364 `is_entry_geos`. -/
def isEntryGeos (bytes : List Byte) : Bool :=
  (byteAt bytes 2 &&& 0x07) < 4
    && (byteAt bytes (ENTRY_EXTRA_OFFSET + 2) != 0 || byteAt bytes (ENTRY_EXTRA_OFFSET + 3) != 0)
    && byteAt bytes (ENTRY_EXTRA_OFFSET + 2) ≤ 1

/-- src/disk/directory.rs:367-369 `is_entry_vlir`. -/
def isEntryVlir (bytes : List Byte) : Bool := byteAt bytes (ENTRY_EXTRA_OFFSET + 2) == 1

/-- src/disk/directory.rs:418-429, the scheme of an entry. -/
def entryScheme (bytes : List Byte) : Scheme :=
  if (FileAttributes.fromByte (byteAt bytes 2)).fileType = .REL then .relative
  else if isEntryGeos bytes then
    if isEntryVlir bytes then .geosVLIR else .geosSequential
  else .linear

/-- src/disk/directory.rs:413-451 `DirectoryEntry::parse` for a slice known to be
32 bytes long. -/
def DirectoryEntry.parse32 (bytes : List Byte) (position : Option Position) : DirectoryEntry :=
  { attributes := .fromByte (byteAt bytes 2)
    firstSector := ⟨byteAt bytes 3, byteAt bytes 4⟩
    filename := fromPaddedBytes (slice bytes 5 ENTRY_FILENAME_LENGTH) PADDING_BYTE
    extra := .fromBytes (entryScheme bytes) (slice bytes ENTRY_EXTRA_OFFSET EXTRA_SIZE)
    fileSize := (byteAt bytes 0x1F).toNat * 256 + (byteAt bytes 0x1E).toNat
    position := position
    scheme := entryScheme bytes
    geosBorder := false }

/-- src/disk/directory.rs:413-451 `DirectoryEntry::parse` (asserts 32 bytes). -/
def DirectoryEntry.parse (bytes : List Byte) (position : Option Position) : Res DirectoryEntry :=
  if bytes.length = ENTRY_SIZE then .ok (parse32 bytes position) else rpanic

/-- src/disk/directory.rs:454-461 `DirectoryEntry::reset`.  `position`, `scheme`
and `geos_border` are left as they are. -/
def DirectoryEntry.reset (e : DirectoryEntry) : DirectoryEntry :=
  { e with
    attributes := .fromByte 0
    firstSector := ⟨0, 0⟩
    filename := List.replicate ENTRY_FILENAME_LENGTH 0
    extra := .default
    fileSize := 0 }

/-- src/disk/directory.rs:474-489 `DirectoryEntry::to_bytes` on the current slice
contents (assert and `unwrap` as panics; bytes 0 and 1 are preserved). -/
def DirectoryEntry.toBytes (e : DirectoryEntry) (bytes : List Byte) : Res (List Byte) :=
  if bytes.length ≠ ENTRY_SIZE then rpanic
  else
    let b := splice bytes 2 [e.attributes.toByte, e.firstSector.track, e.firstSector.sector]
    match writeBytesWithPadding e.filename ENTRY_FILENAME_LENGTH PADDING_BYTE with
    | none => rpanic
    | some name => do
      let b := splice b 5 name
      let extra ← e.extra.toBytes (slice b ENTRY_EXTRA_OFFSET EXTRA_SIZE)
      let b := splice b ENTRY_EXTRA_OFFSET extra
      return splice b 0x1E [UInt8.ofNat (e.fileSize % 256), UInt8.ofNat (e.fileSize / 256)]

/-- src/disk/directory.rs:498-503 `PositionedData::position`. -/
def DirectoryEntry.pos (e : DirectoryEntry) : Res Position :=
  match e.position with
  | some p => .ok p
  | none => fail .unpositioned

/-- src/disk/directory.rs:505-512 `positioned_read` with 466-469
`reread_from_bytes`: every field is replaced, the position is kept. -/
def DirectoryEntry.positionedRead (e : DirectoryEntry) (buffer : List Byte) : Res DirectoryEntry := do
  let p ← e.pos
  if buffer.length < p.size.toNat then fail .readUnderrun
  else DirectoryEntry.parse buffer e.position

/-- src/disk/directory.rs:514-521 `positioned_write`. -/
def DirectoryEntry.positionedWrite (e : DirectoryEntry) (buffer : List Byte) : Res (List Byte) := do
  let p ← e.pos
  if buffer.length < p.size.toNat then fail .writeUnderrun
  else e.toBytes buffer

/-- `blocks.positioned_read(&mut entry)`. -/
def Device.readEntry (d : Device) (e : DirectoryEntry) : Res DirectoryEntry :=
  d.positionedRead e.pos e.positionedRead

/-- `blocks.positioned_write(&entry)`. -/
def Device.writeEntry (d : Device) (e : DirectoryEntry) : Res Device :=
  d.positionedWrite e.pos e.positionedWrite

/-- src/disk/directory.rs:790-795 `check_filename_validity`. -/
def checkFilenameValidity (name : Petscii) : Res Unit :=
  if name.length > ENTRY_FILENAME_LENGTH then fail .filenameTooLong else .ok ()

end Cbm
