import Verif.Model.Writer
/-!
# Disks: header, directory listing and the `Disk` trait
(src/disk/header.rs, src/disk/directory.rs:560-795, src/disk/mod.rs, src/disk/d64.rs,
src/disk/d71.rs, src/disk/d81.rs)
-/

namespace Cbm

/-! ## Header -/

/-- src/disk/geos/mod.rs:35-43 `GEOSDiskHeader`. -/
structure GEOSDiskHeader where
  border : Location
  id : List Byte
  deriving DecidableEq, Repr

/-- src/disk/geos/mod.rs:21-23 `GEOS_SIGNATURE`, the bytes of `GEOS format`. -/
def GEOS_SIGNATURE : List Byte :=
  [0x47, 0x45, 0x4f, 0x53, 0x20, 0x66, 0x6f, 0x72, 0x6d, 0x61, 0x74]

/-- src/disk/geos/mod.rs:46-57 `GEOSDiskHeader::new`; the block is always a whole
sector, so the constant offsets are in range. -/
def GEOSDiskHeader.new (block : List Byte) : Option GEOSDiskHeader :=
  if slice block 0xAD GEOS_SIGNATURE.length = GEOS_SIGNATURE then
    some ⟨⟨byteAt block 0xAB, byteAt block 0xAC⟩, slice block 0xAD 16⟩
  else none

/-- src/disk/header.rs:32-42 `Header`; `diskId` is the two-byte `Id`
(src/disk/mod.rs:638). -/
structure Header where
  firstDirectorySector : Location
  diskFormatType : Byte
  diskName : Petscii
  diskId : Byte × Byte
  directoryDosVersion : Byte
  directoryFormatType : Byte
  geos : Option GEOSDiskHeader
  deriving DecidableEq, Repr

/-- src/disk/mod.rs:668-677 `From<&[u8]> for Id`. -/
def idFromBytes (bytes : List Byte) : Byte × Byte := (byteAt bytes 0, byteAt bytes 1)

/-- src/disk/header.rs:45-60 `Header::new`. -/
def Header.new (f : DiskFormat) (name : Petscii) (id : Byte × Byte) : Header :=
  { firstDirectorySector := f.firstDirectoryLocation
    diskFormatType := f.header.defaultDiskFormatType
    diskName := name
    diskId := id
    directoryDosVersion := f.header.defaultDirectoryDosVersion
    directoryFormatType := f.header.defaultDirectoryFormatType
    geos := none }

/-- src/disk/header.rs:81-86: the double-sided flag check. -/
def flagOK (h : HeaderFormat) (block : List Byte) : Bool :=
  match h.doubleSidedFlagExpectation with
  | some (offset, value) => byteAt block offset == value
  | none => true

/-- src/disk/header.rs:70-98: parse a header block (a whole sector, so the
constant offsets are in range). -/
def Header.parse (h : HeaderFormat) (block : List Byte) : Res Header :=
  if flagOK h block then
    .ok { firstDirectorySector :=
            ⟨byteAt block h.firstDirectoryOffset, byteAt block (h.firstDirectoryOffset + 1)⟩
          diskFormatType := byteAt block h.diskFormatTypeOffset
          diskName := slice block h.diskNameOffset DISK_NAME_SIZE
          diskId := idFromBytes (slice block h.diskIdOffset 2)
          directoryDosVersion := byteAt block h.directoryDosVersionOffset
          directoryFormatType := byteAt block h.directoryFormatTypeOffset
          geos := GEOSDiskHeader.new block }
  else fail .invalidHeader

/-- src/disk/header.rs:63-99 `Header::read`. -/
def Header.read (d : Device) (h : HeaderFormat) : Res Header := do
  let block ← d.sector h.location
  Header.parse h block

/-- src/disk/header.rs:130-140: the double-sided flag and the padding bytes. -/
def renderFixed (h : HeaderFormat) (block : List Byte) : List Byte :=
  let block := match h.doubleSidedFlagExpectation with
    | some (offset, value) => splice block offset [value]
    | none => block
  h.paddingOffsets.foldl (fun b o => splice b o [PADDING_BYTE]) block

/-- src/disk/header.rs:110-140: render the header fields into a block. -/
def Header.render (hd : Header) (h : HeaderFormat) (block : List Byte) : Res (List Byte) :=
  let block := splice block h.firstDirectoryOffset
    [hd.firstDirectorySector.track, hd.firstDirectorySector.sector]
  let block := splice block h.diskFormatTypeOffset [hd.diskFormatType]
  match writeBytesWithPadding hd.diskName DISK_NAME_SIZE PADDING_BYTE with
  | none => fail .filenameTooLong
  | some name =>
    let block := splice block h.diskNameOffset name
    let block := splice block h.diskIdOffset [hd.diskId.1]
    let block := splice block (h.diskIdOffset + 1) [hd.diskId.2]
    let block := splice block h.directoryDosVersionOffset [hd.directoryDosVersion]
    let block := splice block h.directoryFormatTypeOffset [hd.directoryFormatType]
    .ok (renderFixed h block)

/-- src/disk/header.rs:105-148 `Header::write`. -/
def Header.write (hd : Header) (h : HeaderFormat) : M Device Unit := do
  let block ← M.read fun d => d.sector h.location
  let block ← M.lift (hd.render h block)
  M.sectorMut h.location (copyFromSlice block)

/-! ## Directory listing -/

/-- src/disk/directory.rs:653-668, 678-686: the entries of one directory sector,
skipping short chunks and scratched entries.  The running offset of the code is
`32 * i` for the `i`-th chunk, as only the last chunk of a sector can be short. -/
def sectorEntries (s : ChainSector) (border : Bool) : List DirectoryEntry :=
  (chunks ENTRY_SIZE s.data).zipIdx.filterMap fun (chunk, i) =>
    if chunk.length ≠ ENTRY_SIZE then none
    else
      let e := { DirectoryEntry.parse32 chunk
          (some ⟨s.location, UInt8.ofNat (ENTRY_SIZE * i), UInt8.ofNat ENTRY_SIZE⟩) with
        geosBorder := border }
      if e.attributes.isScratched then none else some e

/-- src/disk/directory.rs:585-600: the sectors the directory iterator visits. -/
def directoryBlocks (d : Device) (f : DiskFormat) (geos : Option GEOSDiskHeader) :
    List (Res ChainSector) :=
  chainItems d f.firstDirectoryLocation ++
    match geos with
    | some g =>
      [match d.sector g.border with
       | .ok block => .ok ⟨block, g.border⟩
       | .error e => .error e]
    | none => []

/-- src/disk/directory.rs:571-614 and 642-699: everything a `DirectoryIterator`
yields, evaluated against one state of the device (the Rust iterator is lazy; in
the modelled callers nothing is written while it runs). -/
def directoryItems (d : Device) (f : DiskFormat) (geos : Option GEOSDiskHeader) :
    List (Res DirectoryEntry) :=
  (directoryBlocks d f geos).flatMap fun
    | .error e => [.error e]
    | .ok s => (sectorEntries s (match geos with
        | some g => g.border == s.location
        | none => false)).map .ok

/-- src/disk/mod.rs:348-355: the first item that is an error or has the name. -/
def findItem (name : Petscii) : List (Res DirectoryEntry) → Res DirectoryEntry
  | [] => fail .notFound
  | .error e :: _ => .error e
  | .ok entry :: rest => if entry.filename = name then .ok entry else findItem name rest

/-! ## Free directory slots -/

/-- src/disk/directory.rs:719-734: the first scratched entry of a sector.
Parsing asserts 32 bytes, so a short chunk panics. -/
def scanChunks (location : Location) : Nat → List (List Byte) → Res (Option DirectoryEntry)
  | _, [] => .ok none
  | offset, chunk :: rest => do
    let entry ← DirectoryEntry.parse chunk
      (some ⟨location, UInt8.ofNat offset, UInt8.ofNat ENTRY_SIZE⟩)
    if entry.attributes.isScratched then pure (some entry)
    else scanChunks location (offset + ENTRY_SIZE) rest

/-- src/disk/directory.rs:713-736: search the directory chain; the result is a
free entry, or the last sector of the chain. -/
def scanFree : List (Res ChainSector) → Location → Res (DirectoryEntry ⊕ Location)
  | [], last => .ok (.inr last)
  | .error e :: _, _ => .error e
  | .ok s :: rest, _ => do
    match ← scanChunks s.location 0 (chunks ENTRY_SIZE s.data) with
    | some e => pure (.inl e)
    | none => scanFree rest s.location

/-- src/disk/directory.rs:750-768: a fresh directory sector. -/
def freshDirectoryBlock (block : List Byte) : Res (List Byte) :=
  .ok (splice (splice block 0 [0x00, 0xFF]) 2 (List.replicate (BLOCK_SIZE - 2) 0))

/-- src/disk/directory.rs:738-786: extend the directory by one sector. -/
def extendDirectory (last : Location) : M St DirectoryEntry := do
  let new ← St.readBam fun b => b.nextFreeBlock (some last)
  St.updDev fun d => d.sectorMut new freshDirectoryBlock
  let block ← St.readDev fun d => d.sector new
  let entry ← M.lift (DirectoryEntry.parse (slice block 0 ENTRY_SIZE)
    (some ⟨new, 0, UInt8.ofNat ENTRY_SIZE⟩))
  St.updBam fun b => b.allocate new
  St.updDev fun d => d.sectorMut last fun block => .ok (splice block 0 [new.track, new.sector])
  pure entry

/-! ## Disk -/

/-- The fields of `D64`, `D71` and `D81` (src/disk/d64.rs:136-142 and the same in
d71.rs, d81.rs).  `cells` are the `Rc<RefCell<Bam>>` objects ever created for
this disk, `bam` the one the disk refers to; handles keep the index of the cell
they were given. -/
structure Disk where
  native : DiskFormat
  dev : Device
  header : Option Header
  format : Option DiskFormat
  bam : Option Nat
  cells : List Bam
  deriving DecidableEq, Repr

/-- `.ok()` on a result: an error becomes `None`, a panic stays one. -/
def okOpt {α : Type} : Res α → Res (Option α)
  | .ok a => .ok (some a)
  | .error (.err _) => .ok none
  | .error e => .error e

/-- src/disk/mod.rs:200-220 `set_bam`. -/
def Disk.setBam (disk : Disk) (new : Option Bam) : Disk :=
  match new, disk.bam with
  | some b, some ref => { disk with cells := disk.cells.set ref b }
  | some b, none => { disk with bam := some disk.cells.length, cells := disk.cells ++ [b] }
  | none, some ref => { disk with
      bam := none
      cells := match disk.cells[ref]? with
        | some b => disk.cells.set ref b.invalidate
        | none => disk.cells }
  | none, none => disk

/-- src/disk/mod.rs:259-269: the per-disk format. -/
def formatFor (native : DiskFormat) (header : Header) : DiskFormat :=
  if header.geos.isSome then { native with geos := true } else native

/-- src/disk/mod.rs:242-281 `initialize` (pure part: what is read). -/
def Disk.initialize (disk : Disk) : Res Disk := do
  let header ← okOpt (Header.read disk.dev disk.native.header)
  match header with
  | none => pure { disk.setBam none with header := none, format := none }
  | some h => do
    let bam ← okOpt (Bam.read disk.dev disk.native)
    let format := formatFor disk.native h
    let bam := bam.map fun b => { b with format := format }
    pure { disk.setBam bam with header := some h, format := some format }

/-- src/disk/d64.rs:144-161 `D64::new` (and d71.rs, d81.rs): pick the geometry by
size, then initialize. -/
def Disk.fromImage (native : DiskFormat) (allowed : List Geometry) (image : Image) : Res Disk :=
  match Geometry.findBySize image.len allowed with
  | none => fail .invalidLayout
  | some g => Disk.initialize ⟨native, ⟨image, g, []⟩, none, none, none, []⟩

/-- `D64::new`, `D71::new`, `D81::new`. -/
def Disk.new (t : DiskType) (image : Image) : Res Disk :=
  Disk.fromImage t.format t.geometries image

/-- src/disk/mod.rs:183-196: `open` for a path whose extension is not one of the
three: try each type until one does not fail with `InvalidLayout`. -/
def Disk.openAny (image : Image) : Res (DiskType × Disk) :=
  match Disk.new .d64 image with
  | .ok d => .ok (.d64, d)
  | .error (.err .invalidLayout) =>
    match Disk.new .d71 image with
    | .ok d => .ok (.d71, d)
    | .error (.err .invalidLayout) => do
      let d ← Disk.new .d81 image
      pure (.d81, d)
    | .error e => .error e
  | .error e => .error e

/-- src/disk/d64.rs:218-223 `disk_format`. -/
def Disk.diskFormat (disk : Disk) : Res DiskFormat :=
  match disk.format with
  | some f => .ok f
  | none => fail .unformatted

/-- src/disk/d64.rs:247-252 `header`. -/
def Disk.getHeader (disk : Disk) : Res Header :=
  match disk.header with
  | some h => .ok h
  | none => fail .unformatted

/-- src/disk/d64.rs:274-279 `bam`. -/
def Disk.bamRef (disk : Disk) : Res Nat :=
  match disk.bam with
  | some r => .ok r
  | none => fail .unformatted

/-- Run an operation of a handle on the device and the BAM cell it refers to. -/
def Disk.withBam {α : Type} (ref : Nat) (m : M St α) : M Disk α := fun disk =>
  match disk.cells[ref]? with
  | none => (.error .panic, disk)
  | some b =>
    match m ⟨disk.dev, b⟩ with
    | (r, st) => (r, { disk with dev := st.dev, cells := disk.cells.set ref st.bam })

/-- Run on the device. -/
def Disk.onDev {α : Type} (m : M Device α) : M Disk α :=
  M.zoom Disk.dev (fun d disk => { disk with dev := d }) m

/-- src/disk/mod.rs:289-299: the locations zeroed by `write_format`. -/
def formatLocations (f : DiskFormat) (g : Geometry) : Res (List Location) := do
  let parts ← mapRes (fun i => do
    let row ← trackRow f.tracks (f.firstTrack + i)
    pure ((List.range row.sectors).map fun s =>
      (⟨UInt8.ofNat (f.firstTrack + i), UInt8.ofNat s⟩ : Location)))
    (List.range (g.tracks + 1 - f.firstTrack))
  pure parts.flatten

/-- src/disk/mod.rs:295-297: zero a block. -/
def zeroBlock (block : List Byte) : Res (List Byte) := .ok (List.replicate block.length 0)

/-- src/disk/mod.rs:319-327: the fresh BAM with the initial allocations. -/
def initialBam (f : DiskFormat) : Res Bam := do
  let bam ← Bam.new f
  let sys ← f.systemLocations
  foldRes (fun b l => b.allocate l) sys bam

/-- src/disk/mod.rs:285-335 `write_format`. -/
def Disk.writeFormat (name : Petscii) (id : Byte × Byte) : M Disk Unit := do
  let disk ← M.get
  let f := disk.native
  let locs ← M.lift (formatLocations f disk.dev.geometry)
  Disk.onDev (M.forEach locs fun l => M.sectorMut l zeroBlock)
  Disk.onDev (M.sectorMut f.firstDirectoryLocation fun b => .ok (splice b 0 [0x00, 0xFF]))
  let header := Header.new f name id
  Disk.onDev (header.write f.header)
  M.modify fun disk => { disk with header := some header }
  let bam ← M.lift (initialBam f)
  Disk.onDev bam.flush
  M.modify fun disk => disk.setBam (some bam)
  M.read fun disk => disk.dev.flush
  M.update Disk.initialize

/-- src/disk/mod.rs:338 `iter` and directory.rs:571-614: all items. -/
def Disk.items (disk : Disk) : List (Res DirectoryEntry) :=
  match disk.diskFormat with
  | .error e => [.error e]
  | .ok f =>
    match disk.getHeader with
    | .error e => [.error e]
    | .ok h => directoryItems disk.dev f h.geos

/-- src/disk/mod.rs:343-345 `directory`. -/
def Disk.directory (disk : Disk) : Res (List DirectoryEntry) := collectRes disk.items

/-- src/disk/mod.rs:348-355 `find_directory_entry`. -/
def Disk.findDirectoryEntry (disk : Disk) (name : Petscii) : Res DirectoryEntry :=
  findItem name disk.items

/-- src/disk/mod.rs:375-385 `check_filename_availability`. -/
def Disk.checkFilenameAvailability (disk : Disk) (name : Petscii) : Res Unit :=
  match disk.findDirectoryEntry name with
  | .ok _ => fail .fileExists
  | .error (.err .notFound) => .ok ()
  | .error e => .error e

/-- src/disk/directory.rs:705-786 `next_free_directory_entry`. -/
def Disk.nextFreeDirectoryEntry : M Disk DirectoryEntry := do
  let disk ← M.get
  let f ← M.lift disk.diskFormat
  match ← M.lift (scanFree (chainItems disk.dev f.firstDirectoryLocation)
      f.firstDirectoryLocation) with
  | .inl e => pure e
  | .inr last => do
    let ref ← M.lift disk.bamRef
    Disk.withBam ref (extendDirectory last)

/-- src/disk/mod.rs:367-371 `write_directory_entry`. -/
def Disk.writeDirectoryEntry (e : DirectoryEntry) : M Disk Unit :=
  Disk.onDev (M.update fun d => d.writeEntry e)

/-- src/disk/mod.rs:388-402 `rename`. -/
def Disk.rename (original new : Petscii) : M Disk Unit := do
  let entry ← M.read fun disk => disk.findDirectoryEntry original
  M.lift (checkFilenameValidity new)
  M.read fun disk => disk.checkFilenameAvailability new
  Disk.writeDirectoryEntry { entry with filename := new }

/-- src/disk/mod.rs:448-456: the entry of a new file. -/
def newFileEntry (slot : DirectoryEntry) (name : Petscii) (type : FileType) (first : Location) :
    DirectoryEntry :=
  { slot.reset with
    attributes := { slot.reset.attributes with fileType := type, closed := true }
    firstSector := first
    filename := name
    fileSize := 1 }

/-- src/disk/mod.rs:458-467: write the entry; on an error roll back the
allocation. -/
def writeNewEntry (entry : DirectoryEntry) (first : Location) : M St Unit := fun s =>
  match St.updDev (fun d => d.writeEntry entry) s with
  | (.ok (), s') => (.ok (), s')
  | (.error (.err e), s') =>
    match St.updBam (fun b => b.free first) s' with
    | (.ok (), s'') => (.error (.err e), s'')
    | (.error e', s'') => (.error e', s'')
  | (.error e, s') => (.error e, s')

/-- src/disk/mod.rs:433-467: allocate the first sector and write the entry. -/
def createIn (slot : DirectoryEntry) (name : Petscii) (type : FileType) : M St DirectoryEntry := do
  let first ← St.readBam fun b => b.nextFreeBlock none
  St.updBam fun b => b.allocate first
  St.updDev fun d => d.sectorMut first CHAIN_LINK_ZERO.toBytes
  let entry := newFileEntry slot name type first
  writeNewEntry entry first
  pure entry

/-- src/disk/mod.rs:417-475 `create_file` (with `Scheme::Linear`; any other scheme
panics on entry).  Returns the directory entry and the BAM cell of the handle. -/
def Disk.createFile (name : Petscii) (type : FileType) (scheme : Scheme) :
    M Disk (DirectoryEntry × Nat) := do
  if scheme ≠ .linear then M.throw .panic
  else
    M.lift (checkFilenameValidity name)
    M.read fun disk => disk.checkFilenameAvailability name
    let slot ← Disk.nextFreeDirectoryEntry
    let ref ← M.read Disk.bamRef
    let entry ← Disk.withBam ref (createIn slot name type)
    let ref ← M.read Disk.bamRef
    pure (entry, ref)

/-- src/disk/mod.rs:479-481 `read_sector`. -/
def Disk.readSector (disk : Disk) (l : Location) : Res (List Byte) := disk.dev.readSector l

/-- src/disk/mod.rs:484-492 `write_sector`. -/
def Disk.writeSector (l : Location) (data : List Byte) : M Disk Unit :=
  Disk.onDev (M.update fun d => d.writeSector l data)

/-- src/disk/mod.rs:500-505 `name`. -/
def Disk.name (disk : Disk) : Option Petscii := disk.header.map Header.diskName

/-- src/disk/mod.rs:518-522 `blocks_free`. -/
def Disk.blocksFree (disk : Disk) : Res Nat := do
  let ref ← disk.bamRef
  let b ← indexRes disk.cells ref
  b.blocksFree

/-- src/disk/d64.rs:266-272 `flush_header`. -/
def Disk.flushHeader : M Disk Unit := do
  let h ← M.read Disk.getHeader
  let disk ← M.get
  Disk.onDev (h.write disk.native.header)

end Cbm
