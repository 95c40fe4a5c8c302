import Verif.Model.Block
/-!
# Block availability map (src/disk/bam.rs) and block allocation
(src/disk/format.rs:65-436)
-/

namespace Cbm

/-! ## Entries -/

/-- src/disk/bam.rs:106-109 `BamEntry`. -/
structure BamEntry where
  freeSectors : Byte
  sectorMap : BitVec 64
  deriving DecidableEq, Repr

/-- src/disk/bam.rs:113-116, the loop that shifts in one bit per sector. -/
def fullMap : Nat → BitVec 64
  | 0 => 0#64
  | n + 1 => (fullMap n <<< 1) ||| 1#64

/-- src/disk/bam.rs:112-121 `BamEntry::new`. -/
def BamEntry.new (sectors : Nat) : BamEntry := ⟨UInt8.ofNat sectors, fullMap sectors⟩

/-- src/disk/bam.rs:123-136 `BamEntry::from_bytes`: the loop runs over the bitmap
bytes from the last to the first. -/
def BamEntry.fromBytes (freeSectors : Byte) (bitmap : List Byte) : BamEntry :=
  ⟨freeSectors, bitmap.foldr (fun b map => (map <<< 8) ||| BitVec.ofNat 64 b.toNat) 0#64⟩

/-- src/disk/bam.rs:138-146 `write_bitmap`: the bytes written into a slice of `n`
bytes. -/
def writeBitmap : Nat → BitVec 64 → List Byte
  | 0, _ => []
  | n + 1, map => UInt8.ofNat (map &&& 0xFF#64).toNat :: writeBitmap n (map >>> 8)

/-- src/disk/bam.rs:149-151 `has_availability`. -/
def BamEntry.hasAvailability (e : BamEntry) : Bool := e.freeSectors > 0

/-- src/disk/bam.rs:170-179 the counting loop of `update_free_sectors`. -/
def countBits : Nat → BitVec 64 → Nat
  | 0, _ => 0
  | n + 1, map => (if map &&& 1#64 = 1#64 then 1 else 0) + countBits n (map >>> 1)

/-- src/disk/bam.rs:170-180 `update_free_sectors`. -/
def BamEntry.updateFreeSectors (e : BamEntry) : BamEntry :=
  { e with freeSectors := UInt8.ofNat (countBits 64 e.sectorMap) }

/-- src/disk/bam.rs:159-162 `allocate`; `1u64 << sector` panics from 64 on. -/
def BamEntry.allocate (e : BamEntry) (sector : Nat) : Res BamEntry :=
  if sector < 64 then
    .ok ({ e with sectorMap := e.sectorMap &&& ~~~(1#64 <<< sector) } : BamEntry).updateFreeSectors
  else rpanic

/-- src/disk/bam.rs:165-168 `free`. -/
def BamEntry.free (e : BamEntry) (sector : Nat) : Res BamEntry :=
  if sector < 64 then
    .ok ({ e with sectorMap := e.sectorMap ||| (1#64 <<< sector) } : BamEntry).updateFreeSectors
  else rpanic

/-! ## The map -/

/-- src/disk/bam.rs:185-190 `Bam`.  The `BamWriter` (49-52) is not a separate
object: it holds the device, which is passed in, and the section list, which is
the same static as `format.bam`. -/
structure Bam where
  format : DiskFormat
  entries : List BamEntry
  invalidated : Bool
  deriving DecidableEq, Repr

/-- src/disk/bam.rs:19-21 `BamFormat::tracks`. -/
def DiskFormat.bamTracks (f : DiskFormat) : Nat := (f.bam.map BamSection.tracks).sum

/-- src/disk/bam.rs:193-203 `Bam::new`. -/
def Bam.new (f : DiskFormat) : Res Bam := do
  let entries ← mapRes (fun i => do
    let row ← trackRow f.tracks (i + 1)
    return BamEntry.new row.sectors) (List.range f.bamTracks)
  return ⟨f, entries, false⟩

/-- src/disk/bam.rs:223-235: the entry of the `i`-th track of a section. -/
def readBamEntry (sec : BamSection) (freeBlock bitmapBlock : List Byte) (i : Nat) : Res BamEntry := do
  let free ← indexRes freeBlock (sec.freeOffset + i * sec.freeStride)
  let bitmap ← subSlice bitmapBlock (sec.bitmapOffset + i * sec.bitmapStride) sec.bitmapSize
  return BamEntry.fromBytes free bitmap

/-- src/disk/bam.rs:209-236: the entries of one section. -/
def readSection (d : Device) (sec : BamSection) : Res (List BamEntry) := do
  let freeBlock ← d.sector sec.freeLocation
  let bitmapBlock ← if sec.bitmapLocation ≠ sec.freeLocation
    then d.sector sec.bitmapLocation else .ok freeBlock
  mapRes (readBamEntry sec freeBlock bitmapBlock) (List.range sec.tracks)

/-- src/disk/bam.rs:205-243 `Bam::read`. -/
def Bam.read (d : Device) (f : DiskFormat) : Res Bam := do
  let parts ← mapRes (readSection d) f.bam
  return ⟨f, parts.flatten, false⟩

/-- src/disk/bam.rs:70-74: render the bitmaps of a section into a block. -/
def renderBitmaps (entries : List BamEntry) (sec : BamSection) (prev : Nat)
    (block : List Byte) : Res (List Byte) :=
  foldRes (fun block i => do
    let e ← indexRes entries (prev + i)
    let offset := sec.bitmapOffset + i * sec.bitmapStride
    if offset + sec.bitmapSize ≤ block.length
    then return splice block offset (writeBitmap sec.bitmapSize e.sectorMap)
    else rpanic) (List.range sec.tracks) block

/-- src/disk/bam.rs:88-91: render the free counts of a section into a block. -/
def renderCounts (entries : List BamEntry) (sec : BamSection) (prev : Nat)
    (block : List Byte) : Res (List Byte) :=
  foldRes (fun block i => do
    let e ← indexRes entries (prev + i)
    let offset := sec.freeOffset + i * sec.freeStride
    if offset < block.length then return splice block offset [e.freeSectors]
    else rpanic) (List.range sec.tracks) block

/-- `device.sector_mut(l)?...` as a state update. -/
def M.sectorMut (l : Location) (f : List Byte → Res (List Byte)) : M Device Unit :=
  M.update fun d => d.sectorMut l f

/-- src/disk/bam.rs:61-100: write one section. -/
def writeSection (entries : List BamEntry) (prev : Nat) (sec : BamSection) : M Device Unit := do
  let block ← M.read fun d => d.sector sec.bitmapLocation
  let block ← M.lift (renderBitmaps entries sec prev block)
  if sec.bitmapLocation ≠ sec.freeLocation then
    M.sectorMut sec.bitmapLocation (copyFromSlice block)
    let block ← M.read fun d => d.sector sec.freeLocation
    let block ← M.lift (renderCounts entries sec prev block)
    M.sectorMut sec.freeLocation (copyFromSlice block)
  else
    let block ← M.lift (renderCounts entries sec prev block)
    M.sectorMut sec.freeLocation (copyFromSlice block)

/-- src/disk/bam.rs:59-102 `BamWriter::write`. -/
def writeSections (entries : List BamEntry) : Nat → List BamSection → M Device Unit
  | _, [] => pure ()
  | prev, sec :: rest => do
    writeSection entries prev sec
    writeSections entries (prev + sec.tracks) rest

/-- src/disk/bam.rs:312-318 `check_validity`. -/
def Bam.checkValidity (b : Bam) : Res Unit :=
  if b.invalidated then fail .invalidBAM else .ok ()

/-- src/disk/bam.rs:276-279 `entry`; `track - 1` underflow and the index panic. -/
def Bam.entry (b : Bam) (track : Nat) : Res BamEntry := do
  b.checkValidity
  let i ← subU track 1
  indexRes b.entries i

/-- src/disk/bam.rs:281-284 `entry_mut` with an update of the entry. -/
def Bam.modifyEntry (b : Bam) (track : Nat) (f : BamEntry → Res BamEntry) : Res Bam := do
  b.checkValidity
  let i ← subU track 1
  let e ← indexRes b.entries i
  let e' ← f e
  return { b with entries := b.entries.set i e' }

/-- src/disk/bam.rs:286-290 `allocate`. -/
def Bam.allocate (b : Bam) (l : Location) : Res Bam :=
  b.modifyEntry l.track.toNat fun e => e.allocate l.sector.toNat

/-- src/disk/bam.rs:292-296 `free`. -/
def Bam.free (b : Bam) (l : Location) : Res Bam :=
  b.modifyEntry l.track.toNat fun e => e.free l.sector.toNat

/-- src/disk/bam.rs:303-306 `flush`. -/
def Bam.flush (b : Bam) : M Device Unit := do
  M.lift b.checkValidity
  writeSections b.entries 0 b.format.bam

/-- src/disk/bam.rs:308-310 `invalidate`. -/
def Bam.invalidate (b : Bam) : Bam := { b with invalidated := true }

/-- src/disk/bam.rs:265-274 `blocks_free` (`directory_track - 1` never
underflows: it is 18 or 40). -/
def Bam.blocksFree (b : Bam) : Res Nat :=
  foldRes (fun n track =>
    if track = b.format.directoryTrack - 1 then .ok n
    else do
      let e ← indexRes b.entries track
      return n + e.freeSectors.toNat) (List.range b.format.lastTrack) 0

/-- The inner loops of src/disk/bam.rs:324-329 and 338-343: the sectors whose bit,
after `sector` right shifts, has the wanted value. -/
def scanTrack (want : BitVec 64) : Nat → Nat → BitVec 64 → List Nat
  | 0, _, _ => []
  | n + 1, sector, map =>
    if map &&& 1#64 = want then sector :: scanTrack want n (sector + 1) (map >>> 1)
    else scanTrack want n (sector + 1) (map >>> 1)

/-- src/disk/bam.rs:320-332 / 334-346 with the wanted bit as parameter. -/
def Bam.sectorsWith (b : Bam) (want : BitVec 64) : Res (List Location) := do
  let parts ← mapRes (fun track => do
    let e ← indexRes b.entries track
    let row ← trackRow b.format.tracks (track + 1)
    return (scanTrack want row.sectors 0 e.sectorMap).map fun s =>
      (⟨UInt8.ofNat (track + 1), UInt8.ofNat s⟩ : Location)) (List.range b.format.lastTrack)
  return parts.flatten

/-- src/disk/bam.rs:320-332 `allocated_sectors`. -/
def Bam.allocatedSectors (b : Bam) : Res (List Location) := b.sectorsWith 0#64

/-- src/disk/bam.rs:334-346 `free_sectors`. -/
def Bam.freeSectorsList (b : Bam) : Res (List Location) := b.sectorsWith 1#64

/-! ## Format queries -/

/-- src/disk/format.rs:67-69 `sectors_in_track`. -/
def DiskFormat.sectorsInTrack (f : DiskFormat) (track : Nat) : Res Nat := do
  let row ← trackRow f.tracks track
  return row.sectors

/-- src/disk/format.rs:72-74 `is_reserved_track`. -/
def DiskFormat.isReservedTrack (f : DiskFormat) (track : Nat) : Bool :=
  track == f.directoryTrack || track == f.reservedTrack

/-- src/disk/format.rs:77-79 `first_directory_location`. -/
def DiskFormat.firstDirectoryLocation (f : DiskFormat) : Location :=
  ⟨UInt8.ofNat f.directoryTrack, UInt8.ofNat f.firstDirectorySector⟩

/-- src/disk/format.rs:101-107: the sectors of the reserved track, if any. -/
def DiskFormat.reservedLocations (f : DiskFormat) : Res (List Location) :=
  if f.reservedTrack ≠ 0 then do
    let row ← trackRow f.tracks f.reservedTrack
    pure ((List.range row.sectors).map fun s =>
      (⟨UInt8.ofNat f.reservedTrack, UInt8.ofNat s⟩ : Location))
  else .ok []

/-- src/disk/format.rs:88-112 `system_locations`. -/
def DiskFormat.systemLocations (f : DiskFormat) : Res (List Location) := do
  let reserved ← f.reservedLocations
  return dedupLocs (sortLocs (f.header.location :: f.bam.map BamSection.bitmapLocation ++
    [f.firstDirectoryLocation] ++ reserved))

/-- src/disk/format.rs:116-132 `max_directory_entries`. -/
def DiskFormat.maxDirectoryEntries (f : DiskFormat) : Res Nat := do
  let row ← trackRow f.tracks f.directoryTrack
  let sys ← f.systemLocations
  let used ← subU (sys.filter fun l => l.track.toNat == f.directoryTrack).length 1
  let sectors ← subU row.sectors used
  return sectors * BLOCK_SIZE / 32

/-- src/disk/format.rs:137-149 `total_data_blocks`. -/
def DiskFormat.totalDataBlocks (f : DiskFormat) : Nat :=
  ((f.tracks.zipIdx.filter fun (_, i) =>
    i ≥ f.firstTrack && i ≤ f.lastTrack && i != f.directoryTrack && i != f.reservedTrack).map
      fun (t, _) => t.sectors).sum

/-! ## Allocation -/

/-- src/disk/format.rs:159-164 and 168-173: the track if it is in range and has
free sectors. -/
def tryTrack (b : Bam) (inRange : Bool) (track : Nat) : Res (Option (Nat × BamEntry)) :=
  if inRange then do
    let e ← b.entry track
    pure (if e.hasAvailability then some (track, e) else none)
  else .ok none

/-- src/disk/format.rs:156-175: the loop of `first_free_track` over distances. -/
def firstFreeTrackLoop (f : DiskFormat) (b : Bam) : List Nat → Res (Nat × BamEntry)
  | [] => fail .diskFull
  | distance :: rest => do
    let below ← tryTrack b
      (distance ≤ f.directoryTrack && f.directoryTrack - distance ≥ f.firstTrack)
      (f.directoryTrack - distance)
    match below with
    | some r => pure r
    | none => do
      let track ← addU8 f.directoryTrack distance
      let above ← tryTrack b (track ≤ f.lastTrack) track
      match above with
      | some r => pure r
      | none => firstFreeTrackLoop f b rest

/-- src/disk/format.rs:151-177 `first_free_track`. -/
def DiskFormat.firstFreeTrack (f : DiskFormat) (b : Bam) : Res (Nat × BamEntry) := do
  let down ← subU f.directoryTrack f.firstTrack
  let up ← addU8 f.lastTrack 1
  let up ← subU up f.directoryTrack
  firstFreeTrackLoop f b ((List.range (max down up)).map (· + 1))

/-- src/disk/format.rs:204-262 inner loop (250-259): skip reserved tracks upwards,
wrapping at the last track.  Fuel as for `cbmLoop`. -/
def geosSkip (f : DiskFormat) : Nat → Nat → Nat → Bool → Res (Nat × Nat × Bool)
  | 0, _, _, _ => .error .diverge
  | fuel + 1, track, passes, reset =>
    if f.isReservedTrack track then do
      let track ← addU8 track 1
      if track > f.lastTrack then do
        let passes ← subU passes 1
        geosSkip f fuel f.firstTrack passes true
      else geosSkip f fuel track passes reset
    else return (track, passes, reset)

/-- Fuel of the track search loops; the theorems show that no search on the three
formats ever uses it up. -/
abbrev trackFuel : Nat := 1024

/-- src/disk/format.rs:227-260: the loop of `next_free_track_geos`. -/
def geosLoop (f : DiskFormat) (b : Bam) : Nat → Nat → Nat → Bool → Res (Nat × BamEntry × Bool)
  | 0, _, _, _ => .error .diverge
  | fuel + 1, track, passes, reset =>
    if passes > 0 then do
      let e ← b.entry track
      if e.hasAvailability then return (track, e, reset)
      else if track = f.directoryTrack then fail .diskFull
      else do
        let track ← addU8 track 1
        let (track, passes, reset) :=
          if track > f.lastTrack then (f.firstTrack, passes - 1, true) else (track, passes, reset)
        let (track, passes, reset) ← geosSkip f trackFuel track passes reset
        geosLoop f b fuel track passes reset
    else fail .diskFull

/-- src/disk/format.rs:204-262 `next_free_track_geos`. -/
def DiskFormat.nextFreeTrackGeos (f : DiskFormat) (b : Bam) (prev : Nat) :
    Res (Nat × BamEntry × Bool) :=
  geosLoop f b trackFuel prev (if prev = f.firstTrack then 1 else 2) false

/-- src/disk/format.rs:309-311: `while track > 0 && reserved { track -= 1 }`. -/
def cbmSkipDown (f : DiskFormat) : Nat → Nat
  | 0 => 0
  | t + 1 => if f.isReservedTrack (t + 1) then cbmSkipDown f t else t + 1

/-- src/disk/format.rs:329-331: `while reserved { track += 1 }` (`u8` overflow
panics). -/
def cbmSkipUp (f : DiskFormat) : Nat → Nat → Res Nat
  | 0, _ => .error .diverge
  | fuel + 1, t =>
    if f.isReservedTrack t then do
      let t ← addU8 t 1
      cbmSkipUp f fuel t
    else return t

/-- src/disk/format.rs:295-340: the loop of `next_free_track_cbm`. -/
def cbmLoop (f : DiskFormat) (b : Bam) : Nat → Nat → Nat → Bool → Res (Nat × BamEntry × Bool)
  | 0, _, _, _ => .error .diverge
  | fuel + 1, track, passes, reset =>
    if passes > 0 then do
      let e ← b.entry track
      if e.hasAvailability then return (track, e, reset)
      else if track < f.directoryTrack then do
        let track ← subU track 1
        let track := cbmSkipDown f track
        if track < f.firstTrack then do
          let track ← addU8 f.directoryTrack 1
          cbmLoop f b fuel track (passes - 1) true
        else cbmLoop f b fuel track passes reset
      else if track = f.directoryTrack then fail .diskFull
      else do
        let track ← addU8 track 1
        let track ← cbmSkipUp f trackFuel track
        if track > f.lastTrack then do
          let track ← subU f.directoryTrack 1
          cbmLoop f b fuel track (passes - 1) true
        else cbmLoop f b fuel track passes reset
    else fail .diskFull

/-- src/disk/format.rs:266-342 `next_free_track_cbm`. -/
def DiskFormat.nextFreeTrackCbm (f : DiskFormat) (b : Bam) (prev : Nat) :
    Res (Nat × BamEntry × Bool) :=
  cbmLoop f b trackFuel prev 3 false

/-- src/disk/format.rs:346-356 `next_free_track`. -/
def DiskFormat.nextFreeTrack (f : DiskFormat) (b : Bam) (prev : Nat) :
    Res (Nat × BamEntry × Bool) :=
  if f.geos then f.nextFreeTrackGeos b prev else f.nextFreeTrackCbm b prev

/-- src/disk/format.rs:399-406: wrap the sector into the track. -/
def wrapSector (geos : Bool) (num : Nat) : Nat → Nat → Res Nat
  | 0, _ => .error .diverge
  | fuel + 1, sector =>
    if sector ≥ num then
      let sector := sector - num
      let sector := if sector > 0 && !geos then sector - 1 else sector
      wrapSector geos num fuel sector
    else return sector

/-- src/disk/format.rs:411-427: scan the track circularly for a free sector.  The
shift `map >> sector` panics from 64 on. -/
def scanSector (map : BitVec 64) (num start : Nat) : Nat → Nat → Res Nat
  | 0, _ => .error .diverge
  | fuel + 1, sector =>
    if sector ≥ 64 then rpanic
    else if (map >>> sector) &&& 1#64 = 1#64 then return sector
    else do
      let sector ← addU8 sector 1
      let sector := if sector ≥ num then 0 else sector
      if sector = start then fail .invalidBAM
      else scanSector map num start fuel sector

/-- src/disk/format.rs:373-396: the sector to start scanning at, before wrapping.
`(track - previous.0) << 1` drops bits beyond the eighth. -/
def advanceSector (f : DiskFormat) (track prevTrack sector : Nat) (reset : Bool) : Res Nat := do
  let interleave := if track = f.directoryTrack then f.directoryInterleave else f.interleave
  if reset then return 0
  else if !f.geos || track == prevTrack then do
    let sector ← addU8 sector interleave
    if f.geos && track ≥ 25 then subU sector 1 else return sector
  else do
    let diff ← subU track prevTrack
    let s ← addU8 (diff * 2 % 256) 4
    addU8 s interleave

/-- src/disk/format.rs:358-428 `next_free_block_from_previous`. -/
def DiskFormat.nextFreeBlockFromPrevious (f : DiskFormat) (b : Bam) (prev : Location) :
    Res Location := do
  let (track, entry, reset) ← f.nextFreeTrack b prev.track.toNat
  let num ← f.sectorsInTrack track
  let sector ← advanceSector f track prev.track.toNat prev.sector.toNat reset
  let sector ← wrapSector f.geos num 257 sector
  let sector ← scanSector entry.sectorMap num sector 257 sector
  return ⟨UInt8.ofNat track, UInt8.ofNat sector⟩

/-- src/disk/format.rs:189-195: the sector loop of `first_free_block`. -/
def firstBit : Nat → Nat → BitVec 64 → Option Nat
  | 0, _, _ => none
  | n + 1, sector, map =>
    if map &&& 1#64 = 1#64 then some sector else firstBit n (sector + 1) (map >>> 1)

/-- src/disk/format.rs:179-200 `first_free_block`. -/
def DiskFormat.firstFreeBlock (f : DiskFormat) (b : Bam) : Res Location :=
  if f.geos then f.nextFreeBlockFromPrevious b ⟨UInt8.ofNat f.firstTrack, 0⟩
  else do
    let (track, entry) ← f.firstFreeTrack b
    let num ← f.sectorsInTrack track
    match firstBit num 0 entry.sectorMap with
    | some s => return ⟨UInt8.ofNat track, UInt8.ofNat s⟩
    | none => fail .diskFull

/-- src/disk/format.rs:430-435 `DiskFormat::next_free_block`. -/
def DiskFormat.nextFreeBlock (f : DiskFormat) (b : Bam) (prev : Option Location) : Res Location :=
  match prev with
  | some p => f.nextFreeBlockFromPrevious b p
  | none => f.firstFreeBlock b

/-- src/disk/bam.rs:298-301 `Bam::next_free_block`. -/
def Bam.nextFreeBlock (b : Bam) (prev : Option Location) : Res Location := do
  b.checkValidity
  b.format.nextFreeBlock b prev

end Cbm
