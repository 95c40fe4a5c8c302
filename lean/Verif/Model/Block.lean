import Verif.Model.Tables
/-!
# Disk image and block device (src/disk/image.rs, src/disk/block.rs, and
`Geometry` from src/disk/mod.rs)
-/

namespace Cbm

/-! ## Disk types -/

/-- src/disk/mod.rs:138-143 `DiskType`. -/
inductive DiskType where
  | d64 | d71 | d81
  deriving DecidableEq, Repr

/-- The native format of each disk type (d64.rs:213, d71.rs, d81.rs). -/
def DiskType.format : DiskType → DiskFormat
  | .d64 => D64.DISK_FORMAT
  | .d71 => D71.DISK_FORMAT
  | .d81 => D81.DISK_FORMAT

/-- The geometries each disk type accepts. -/
def DiskType.geometries : DiskType → List Geometry
  | .d64 => D64.ALLOWED_GEOMETRIES
  | .d71 => D71.ALLOWED_GEOMETRIES
  | .d81 => D81.ALLOWED_GEOMETRIES

/-! ## Geometry -/

/-- The row of a track table, `table[i]`; out of range is a Rust index panic. -/
def trackRow (tracks : List Track) (i : Nat) : Res Track :=
  match tracks[i]? with
  | some t => .ok t
  | none => rpanic

/-- src/disk/mod.rs:597-601 `size_without_error_table`.  `getD` stands for the
slice index; the six geometries index their last row, which exists. -/
def Geometry.sizeWithoutErrorTable (g : Geometry) : Nat :=
  let row := g.trackLayouts.getD g.tracks ⟨0, 0, 0⟩
  row.byteOffset + row.sectors * BLOCK_SIZE

/-- src/disk/mod.rs:605-612 `error_table_size`. -/
def Geometry.errorTableSize (g : Geometry) : Nat :=
  ((g.trackLayouts.take (g.tracks + 1)).map Track.sectors).sum

/-- src/disk/mod.rs:616-622 `size`. -/
def Geometry.size (g : Geometry) : Nat :=
  if g.withErrorTable then g.sizeWithoutErrorTable + g.errorTableSize
  else g.sizeWithoutErrorTable

/-- src/disk/mod.rs:626-632 `error_table_offset`. -/
def Geometry.errorTableOffset (g : Geometry) : Option Nat :=
  if g.withErrorTable then some g.sizeWithoutErrorTable else none

/-- src/disk/mod.rs:582-592 `find_by_size`. -/
def Geometry.findBySize (size : Nat) : List Geometry → Option Geometry
  | [] => none
  | g :: gs => if g.size == size then some g else findBySize size gs

/-! ## Image -/

/-- src/disk/image.rs:10-14 the three kinds of `Image`.  The memory mapping
itself is not modelled: a read-write map and a memory image are both a byte
vector.  Writes to a map reach the file. -/
inductive ImageKind where
  | readOnlyMap | readWriteMap | memory
  deriving DecidableEq, Repr

/-- src/disk/image.rs:10 `Image`. -/
structure Image where
  kind : ImageKind
  bytes : List Byte
  deriving DecidableEq, Repr

/-- src/disk/image.rs:17-19 `open_memory`. -/
def Image.openMemory (length : Nat) : Image := ⟨.memory, List.replicate length 0⟩

/-- src/disk/image.rs:44-50 `len`. -/
def Image.len (i : Image) : Nat := i.bytes.length

/-- src/disk/image.rs:52-58 `check_bounds`. -/
def Image.checkBounds (i : Image) (offset : Nat) : Res Unit :=
  if offset > i.len then fail .invalidOffset else .ok ()

/-- src/disk/image.rs:60-66 `check_writability`. -/
def Image.checkWritability (i : Image) : Res Unit :=
  match i.kind with
  | .readOnlyMap => fail .readOnly
  | .readWriteMap => .ok ()
  | .memory => .ok ()

/-- src/disk/image.rs:68-75 `slice`. -/
def Image.slice (i : Image) (offset length : Nat) : Res (List Byte) := do
  i.checkBounds (offset + length)
  return Cbm.slice i.bytes offset length

/-- src/disk/image.rs:77-84 `slice_mut`.  The returned `&mut [u8]` becomes a
function `f` from the old slice to the new slice (or a panic); `f` must return
as many bytes as it was given, as a Rust slice cannot change length. -/
def Image.sliceMut (i : Image) (offset length : Nat)
    (f : List Byte → Res (List Byte)) : Res Image := do
  i.checkBounds (offset + length)
  match i.kind with
  | .readOnlyMap => fail .readOnly
  | _ => do
    let new ← f (Cbm.slice i.bytes offset length)
    return { i with bytes := splice i.bytes offset new }

/-- src/disk/image.rs:86-92 `flush` (an `msync` failure of a map is outside the
model). -/
def Image.flush (i : Image) : Res Unit :=
  match i.kind with
  | .readOnlyMap => fail .readOnly
  | .readWriteMap => .ok ()
  | .memory => .ok ()

/-! ## Locations -/

/-- src/disk/block.rs:156-159 `Location::from_bytes` (asserts two bytes). -/
def Location.fromBytes (bytes : List Byte) : Res Location :=
  match bytes with
  | a :: b :: _ => .ok ⟨a, b⟩
  | _ => rpanic

/-- The derived lexicographic order of `Location` (src/disk/block.rs:148). -/
def Location.le (a b : Location) : Bool :=
  a.track < b.track || (a.track == b.track && a.sector ≤ b.sector)

/-- `Vec::sort` followed by `Vec::dedup` on locations: insertion sort, then
removal of adjacent duplicates (any sorting algorithm gives the same list, the
order being total). -/
def insertLoc (x : Location) : List Location → List Location
  | [] => [x]
  | y :: ys => if x.le y then x :: y :: ys else y :: insertLoc x ys

@[inherit_doc insertLoc]
def sortLocs : List Location → List Location
  | [] => []
  | x :: xs => insertLoc x (sortLocs xs)

@[inherit_doc insertLoc]
def dedupLocs : List Location → List Location
  | [] => []
  | [x] => [x]
  | x :: y :: ys => if x = y then dedupLocs (y :: ys) else x :: dedupLocs (y :: ys)

/-! ## Block device -/

/-- src/disk/block.rs:77-80 `ImageBlockDevice`.  `hist` is a ghost field that no
operation reads: the contents of the image after each completed sector write,
most recent first.  It records the states a crash between two sector writes can
leave behind (a sector write itself is taken to be atomic). -/
structure Device where
  image : Image
  geometry : Geometry
  hist : List (List Byte) := []
  deriving DecidableEq, Repr

/-- src/disk/block.rs:87-99 `get_offset`. -/
def Device.getOffset (d : Device) (l : Location) : Res Nat := do
  let track := l.track.toNat
  if track < 1 || track > d.geometry.tracks then fail .invalidLocation
  else do
    let row ← trackRow d.geometry.trackLayouts track
    if l.sector.toNat ≥ row.sectors then fail .invalidLocation
    else return row.byteOffset + l.sector.toNat * BLOCK_SIZE

/-- src/disk/block.rs:104-106 `check_writability`. -/
def Device.checkWritability (d : Device) : Res Unit := d.image.checkWritability

/-- src/disk/block.rs:113-116 `sector` (and 25-27 `sector_owned`). -/
def Device.sector (d : Device) (l : Location) : Res (List Byte) := do
  let offset ← d.getOffset l
  d.image.slice offset BLOCK_SIZE

/-- src/disk/block.rs:118-122 `sector_mut`; see `Image.sliceMut` for `f`. -/
def Device.sectorMut (d : Device) (l : Location)
    (f : List Byte → Res (List Byte)) : Res Device := do
  d.image.checkWritability
  let offset ← d.getOffset l
  let image ← d.image.sliceMut offset BLOCK_SIZE f
  return { d with image := image, hist := image.bytes :: d.hist }

/-- src/disk/block.rs:124-129 `error_table`. -/
def Device.errorTable (d : Device) : Res (Option (List Byte)) :=
  match d.geometry.errorTableOffset with
  | some offset => do
    let t ← d.image.slice offset (d.image.len - offset)
    return some t
  | none => .ok none

/-- src/disk/block.rs:142-145 `flush`. -/
def Device.flush (d : Device) : Res Unit := do
  d.image.checkWritability
  d.image.flush

/-- `slice.copy_from_slice(src)`: panics unless the lengths agree. -/
def copyFromSlice (src : List Byte) (dst : List Byte) : Res (List Byte) :=
  if src.length = dst.length then .ok src else rpanic

/-- src/disk/mod.rs:479-481 `Disk::read_sector`. -/
def Device.readSector (d : Device) (l : Location) : Res (List Byte) := d.sector l

/-- src/disk/mod.rs:484-492 `Disk::write_sector`. -/
def Device.writeSector (d : Device) (l : Location) (data : List Byte) : Res Device :=
  if data.length ≠ BLOCK_SIZE then fail .writeUnderrun
  else d.sectorMut l (copyFromSlice data)

/-! ## Positioned access -/

/-- src/disk/block.rs:181-186 `Position`. -/
structure Position where
  location : Location
  offset : Byte
  size : Byte
  deriving DecidableEq, Repr

/-- `&block[off..off+size]`, panicking when it reaches past the block. -/
def subSlice (block : List Byte) (off size : Nat) : Res (List Byte) :=
  if off + size ≤ block.length then .ok (slice block off size) else rpanic

/-- src/disk/block.rs:29-32 `read_position`. -/
def Device.readPosition (d : Device) (p : Position) : Res (List Byte) := do
  let block ← d.sector p.location
  subSlice block p.offset.toNat p.size.toNat

/-- src/disk/block.rs:34-41 `positioned_read`: hand the slice at the position to
`f`, which stands for the data's own `positioned_read` method. -/
def Device.positionedRead {α : Type} (d : Device) (pos : Res Position)
    (f : List Byte → Res α) : Res α := do
  let p ← pos
  let block ← d.sector p.location
  let bytes ← subSlice block p.offset.toNat p.size.toNat
  f bytes

/-- src/disk/block.rs:43-50 `positioned_write`: the data's `positioned_write`
method `f` rewrites the slice at the position. -/
def Device.positionedWrite (d : Device) (pos : Res Position)
    (f : List Byte → Res (List Byte)) : Res Device := do
  let p ← pos
  d.sectorMut p.location fun block => do
    let bytes ← subSlice block p.offset.toNat p.size.toNat
    let new ← f bytes
    return splice block p.offset.toNat new

/-! ## Location iterators -/

/-- One step of src/disk/block.rs:232-250 (`LocationIterator` over the geometry):
the location after `l`, `none` at the end.  The `u8` increments cannot overflow
for rows of at most 40 sectors and at most 80 tracks. -/
def nextGeometryLocation (tracks : List Track) (lastTrack : Nat) (t s : Nat) :
    Res (Option (Nat × Nat)) := do
  let row ← trackRow tracks t
  if s + 1 ≥ row.sectors then
    if t + 1 > lastTrack then return none else return some (t + 1, 0)
  else return some (t, s + 1)

/-- One step of src/disk/format.rs:455-473 (`LocationIterator` over a disk
format). -/
def nextFormatLocation (tracks : List Track) (lastTrack : Nat) (t s : Nat) :
    Res (Option (Nat × Nat)) := do
  let row ← trackRow tracks t
  let (t', s') := if s + 1 = row.sectors then (t + 1, 0) else (t, s + 1)
  if t' > lastTrack then return none else return some (t', s')

/-- Collect an iterator from a step function.  The fuel stands for the unbounded
`while let Some(..)` of the caller; running out is `diverge`. -/
def collectLocations (step : Nat → Nat → Res (Option (Nat × Nat))) :
    Nat → Option (Nat × Nat) → Res (List (Nat × Nat))
  | _, none => .ok []
  | 0, some _ => .error .diverge
  | fuel + 1, some (t, s) => do
    let next ← step t s
    let rest ← collectLocations step fuel next
    return (t, s) :: rest

/-- src/disk/block.rs:211-218 `LocationIterator::from_geometry`, collected. -/
def Geometry.locations (g : Geometry) : Res (List (Nat × Nat)) :=
  collectLocations (nextGeometryLocation g.trackLayouts g.tracks) 65537 (some (1, 0))

/-- src/disk/format.rs:82-84, 443-450 `DiskFormat::location_iter`, collected. -/
def DiskFormat.locations (f : DiskFormat) : Res (List (Nat × Nat)) :=
  collectLocations (nextFormatLocation f.tracks f.lastTrack) 65537 (some (f.firstTrack, 0))

end Cbm
