import Verif.Model.Disk
/-!
# Files (src/disk/file.rs, src/disk/geos/file.rs)
-/

namespace Cbm

/-- src/disk/file.rs:318-326 `RelativeFile`. -/
structure RelativeFile where
  entry : DirectoryEntry
  recordSize : Nat
  dataSectors : List Location
  sideSectors : List Location
  records : Nat
  deriving DecidableEq, Repr

/-- src/disk/geos/file.rs:18-23 `GEOSFile`. -/
structure GEOSFile where
  entry : DirectoryEntry
  vlir : Option (List (Option Location))
  deriving DecidableEq, Repr

/-- src/disk/file.rs:54-80 `File`.  `Unknown` and `__Nonexhaustive` are never
constructed. -/
inductive File where
  | linear (entry : DirectoryEntry)
  | relative (f : RelativeFile)
  | geosSequential (f : GEOSFile)
  | geosVLIR (f : GEOSFile)
  deriving DecidableEq, Repr

/-- src/disk/file.rs:185-187 `entry`. -/
def File.entry : File → DirectoryEntry
  | .linear e => e
  | .relative f => f.entry
  | .geosSequential f => f.entry
  | .geosVLIR f => f.entry

/-- Replace the directory entry held by the handle. -/
def File.setEntry (f : File) (e : DirectoryEntry) : File :=
  match f with
  | .linear _ => .linear e
  | .relative f => .relative { f with entry := e }
  | .geosSequential f => .geosSequential { f with entry := e }
  | .geosVLIR f => .geosVLIR { f with entry := e }

/-! ## Opening -/

/-- `bytes.chunks(2).map(|c| Location::new(c[0], c[1]))`; an odd last byte
panics on `c[1]`. -/
def pairLocations : List Byte → Res (List Location)
  | [] => .ok []
  | [_] => rpanic
  | a :: b :: rest => do
    let ls ← pairLocations rest
    pure (⟨a, b⟩ :: ls)

/-- src/disk/file.rs:353-383: walk the side sector chain, collecting the side
sectors, the list stored in each, and the data sectors. -/
def sideSectorLoop : List (Res ChainSector) → List Location → List (List Location) →
    List Location → Res (List Location × List (List Location) × List Location)
  | [], side, lists, data => .ok (side, lists, data)
  | .error e :: _, _, _, _ => .error e
  | .ok s :: rest, side, lists, data => do
    let listBytes ← subSlice s.data 4 12
    let list ← pairLocations listBytes
    let list := list.filter fun l => l.track != 0
    let size ← match ← ChainLink.new s.data with
      | .next _ => pure BLOCK_SIZE
      | .tail size => pure size
    if size < 16 || size % 2 == 1 then fail .invalidRelativeFile
    else do
      let dataBytes ← subSlice s.data 16 (size - 16)
      let sectors ← pairLocations dataBytes
      sideSectorLoop rest (side ++ [s.location]) (lists ++ [list]) (data ++ sectors)

/-- src/disk/file.rs:396-406: the data bytes in the last block. -/
def lastBlockBytes (d : Device) (data : List Location) : Res Nat :=
  match data.getLast? with
  | none => .ok 0
  | some l => do
    let block ← d.sector l
    match ← ChainLink.new block with
    | .next _ => fail .invalidRelativeFile
    | .tail size => pure (size - 2)

/-- src/disk/file.rs:333-427 `RelativeFile::new`; `%` by a record length of zero
panics. -/
def RelativeFile.new (d : Device) (entry : DirectoryEntry) : Res RelativeFile :=
  match entry.extra with
  | .relative ex => do
    let (side, lists, data) ← sideSectorLoop (chainItems d ex.firstSideSector) [] [] []
    if side.length > 6 then fail .invalidRelativeFile
    else if lists.any (fun l => l != side) then fail .invalidRelativeFile
    else do
      let last ← lastBlockBytes d data
      let size := (if data.isEmpty then 0 else (data.length - 1) * (BLOCK_SIZE - 2)) + last
      let recordSize := ex.recordLength.toNat
      if recordSize = 0 then rpanic
      else if size % recordSize ≠ 0 then fail .invalidRelativeFile
      else pure ⟨entry, recordSize, data, side, size / recordSize⟩
  | _ => fail .invalidRelativeFile

/-- src/disk/geos/mod.rs:372-382 `is_vlir`. -/
def DirectoryEntry.isVlir (e : DirectoryEntry) : Res Bool :=
  match e.extra with
  | .geos ex =>
    match ex.structure_ with
    | .sequential => .ok false
    | .vlir => .ok true
    | .undefined _ => fail .unknownFormat
  | _ => rpanic

/-- src/disk/geos/mod.rs:383-393 `info_location`. -/
def DirectoryEntry.infoLocation (e : DirectoryEntry) : Res (Option Location) :=
  match e.extra with
  | .geos ex => .ok (if ex.infoBlock.track = 0 ∧ ex.infoBlock.sector = 0 then none
      else some ex.infoBlock)
  | _ => rpanic

/-- src/disk/geos/file.rs:31-43: the record table of an index block. -/
def vlirRecords : List Byte → List (Option Location)
  | a :: b :: rest =>
    if a = 0 ∧ b = 0 then []
    else (if a = 0 ∧ b = 0xFF then none else some ⟨a, b⟩) :: vlirRecords rest
  | _ => []

/-- src/disk/geos/file.rs:26-54 `GEOSFile::new`. -/
def GEOSFile.new (d : Device) (entry : DirectoryEntry) : Res GEOSFile := do
  if ← entry.isVlir then
    let block ← d.sector entry.firstSector
    pure ⟨entry, some (vlirRecords block)⟩
  else pure ⟨entry, none⟩

/-- src/disk/file.rs:130-146 `File::open_from_entry` (after `disk.bam()?`). -/
def File.fromEntry (d : Device) (entry : DirectoryEntry) : Res File :=
  match entry.scheme with
  | .linear => .ok (.linear entry)
  | .relative => do
    let f ← RelativeFile.new d entry
    pure (.relative f)
  | .geosSequential => do
    let f ← GEOSFile.new d entry
    pure (.geosSequential f)
  | .geosVLIR => do
    let f ← GEOSFile.new d entry
    pure (.geosVLIR f)

/-- src/disk/mod.rs:410-412 `open_file_from_entry`: the file and the BAM cell. -/
def Disk.openFileFromEntry (disk : Disk) (entry : DirectoryEntry) : Res (File × Nat) := do
  let ref ← disk.bamRef
  let f ← File.fromEntry disk.dev entry
  pure (f, ref)

/-- src/disk/mod.rs:405-407 `open_file`, file.rs:122-128. -/
def Disk.openFile (disk : Disk) (name : Petscii) : Res (File × Nat) := do
  let entry ← disk.findDirectoryEntry name
  disk.openFileFromEntry entry

/-! ## Records -/

/-- src/disk/file.rs:432-463 `record_position`.  The `as u8` casts truncate. -/
def RelativeFile.recordPosition (f : RelativeFile) (index : Nat) :
    Res (Position × Option Position) :=
  if index ≥ f.records then fail .invalidRecordIndex
  else do
    let dataOffset := f.recordSize * index
    let sectorIndex := dataOffset / (BLOCK_SIZE - 2)
    let sectorOffset := dataOffset % (BLOCK_SIZE - 2) + 2
    let l ← indexRes f.dataSectors sectorIndex
    if sectorOffset + f.recordSize ≤ BLOCK_SIZE then
      pure (⟨l, UInt8.ofNat sectorOffset, UInt8.ofNat f.recordSize⟩, none)
    else do
      let over := sectorOffset + f.recordSize - BLOCK_SIZE
      let l' ← indexRes f.dataSectors (sectorIndex + 1)
      pure (⟨l, UInt8.ofNat sectorOffset, UInt8.ofNat (f.recordSize - over)⟩,
        some ⟨l', 2, UInt8.ofNat over⟩)

/-- src/disk/file.rs:497-509 `RelativeFile::record`. -/
def RelativeFile.record (f : RelativeFile) (d : Device) (index : Nat) : Res (List Byte) := do
  let (p, q) ← f.recordPosition index
  let a ← d.readPosition p
  let b ← match q with
    | some q => d.readPosition q
    | none => .ok []
  if (a ++ b).length ≠ f.recordSize then fail .invalidRelativeFile
  else pure (a ++ b)

/-- `read_to_end` of a chain reader: what the standard library makes of a reader
is independent of the buffer sizes it picks (property C17), so the contents are
given directly as the data of the sectors. -/
def chainContent (d : Device) (start : Location) : Res (List Byte) := do
  let s ← chainSectors d start
  pure (s.flatMap fun s => s.data.drop 2)

/-- src/disk/geos/file.rs:56-64 `record_start`. -/
def GEOSFile.recordStart (f : GEOSFile) (index : Nat) : Res (Option Location) :=
  match f.vlir with
  | some records =>
    match records[index]? with
    | some l => .ok l
    | none => fail .invalidRecordIndex
  | none => .ok (some f.entry.firstSector)

/-- src/disk/geos/file.rs:125-136 `GEOSFile::record`. -/
def GEOSFile.record (f : GEOSFile) (d : Device) (index : Nat) : Res (List Byte) := do
  match ← f.recordStart index with
  | some l => chainContent d l
  | none => pure []

/-- `FileOps::record_count` (file.rs:254, 493; geos/file.rs:118-123). -/
def File.recordCount : File → Nat
  | .linear _ => 1
  | .relative f => f.records
  | .geosSequential f | .geosVLIR f =>
    match f.vlir with
    | some records => records.length
    | none => 1

/-- `FileOps::record` (file.rs:259-267, 497-509; geos/file.rs:125-136). -/
def File.record (f : File) (d : Device) (index : Nat) : Res (List Byte) :=
  match f with
  | .linear e => if index = 0 then chainContent d e.firstSector else fail .invalidRecord
  | .relative f => f.record d index
  | .geosSequential f => f.record d index
  | .geosVLIR f => f.record d index

/-- src/disk/geos/file.rs:213-219: the chains of the VLIR records. -/
def recordChains (d : Device) : List (Option Location) → Res (List Location)
  | [] => .ok []
  | none :: rest => recordChains d rest
  | some l :: rest => do
    let ls ← chainLocations d l
    let more ← recordChains d rest
    pure (ls ++ more)

/-- src/disk/geos/file.rs:200-222 `occupied_sectors`. -/
def GEOSFile.occupiedSectors (f : GEOSFile) (d : Device) : Res (List Location) := do
  let main ← chainLocations d f.entry.firstSector
  let info ← f.entry.infoLocation
  let records ← match f.vlir with
    | some records => recordChains d records
    | none => .ok []
  pure (dedupLocs (sortLocs (main ++ info.toList ++ records)))

/-- `FileOps::occupied_sectors` (file.rs:285-292, 530-537; geos/file.rs:200-222). -/
def File.occupiedSectors (f : File) (d : Device) : Res (List Location) :=
  match f with
  | .linear e => do
    let ls ← chainLocations d e.firstSector
    pure (dedupLocs (sortLocs ls))
  | .relative f => .ok (dedupLocs (sortLocs (f.dataSectors ++ f.sideSectors)))
  | .geosSequential f => f.occupiedSectors d
  | .geosVLIR f => f.occupiedSectors d

/-- `FileOps::reader` (file.rs:294-299, 539-541; geos/file.rs:224-236). -/
def File.reader : File → Res ChainReader
  | .linear e => .ok (ChainReader.new e.firstSector)
  | .relative _ => fail .nonLinearFile
  | .geosSequential f | .geosVLIR f =>
    match f.vlir with
    | some _ => fail .nonLinearFile
    | none => .ok (ChainReader.new f.entry.firstSector)

/-- `FileOps::writer` (file.rs:301-311, 543-545; geos/file.rs:238-243). -/
def File.writer (f : File) (d : Device) : Res ChainWriter :=
  match f with
  | .linear e => ChainWriter.new d e e.firstSector
  | .relative _ => fail .nonLinearFile
  | .geosSequential f | .geosVLIR f =>
    match f.vlir with
    | some _ => fail .nonLinearFile
    | none => fail .readOnly

/-! ## Deleting -/

/-- The entry a deletion writes (file.rs:246-247 and the same in 485-486 and
geos/file.rs:110-111). -/
def DirectoryEntry.scratch (e : DirectoryEntry) : DirectoryEntry :=
  { e with attributes := { e.attributes with fileType := .DEL, closed := false } }

/-- `FileOps::delete` up to the directory entry: file.rs:240-244 (linear), 473-482
(relative), geos/file.rs:92-108 (GEOS). -/
def File.freeBlocks : File → M St Unit
  | .linear e => removeChain e.firstSector
  | .relative f => do
    removeChain f.entry.firstSector
    M.forEach f.sideSectors fun l => St.updBam fun b => b.free l
  | .geosSequential f | .geosVLIR f => do
    removeChain f.entry.firstSector
    match ← M.lift f.entry.infoLocation with
    | some l => St.updBam fun b => b.free l
    | none => pure ()
    match f.vlir with
    | some records => M.forEach (records.filterMap id) removeChain
    | none => pure ()

/-- A file handle together with the shared state. -/
structure FSt where
  file : File
  st : St
  deriving DecidableEq, Repr

/-- `FileOps::delete` (file.rs:238-252, 471-491; geos/file.rs:90-116). -/
def File.delete : M FSt Unit := do
  let x ← M.get
  M.zoom FSt.st (fun s x => { x with st := s }) x.file.freeBlocks
  M.modify fun x => { x with file := x.file.setEntry x.file.entry.scratch }
  M.zoom FSt.st (fun s x => { x with st := s })
    (St.updDev fun d => d.writeEntry x.file.entry.scratch)

end Cbm
