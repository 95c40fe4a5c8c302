import Verif.Spec.Bam
import Verif.Spec.Chain
import Verif.Model.Disk
/-!
# What a disk holds (specification)

A volume is a disk header, a directory (a chain of sectors, eight slots of 32
bytes in each) and the files its slots describe.  `OnDisk` says that a device holds a given volume;
`Recorded` says that a BAM records exactly the sectors the volume occupies.
-/

namespace Cbm.Spec

/-- Where the directory starts. -/
def firstDirectory : DiskType → Location
  | .d64 => ⟨18, 1⟩
  | .d71 => ⟨18, 1⟩
  | .d81 => ⟨40, 3⟩

/-- The sectors with the header and the BAM, and on the 1571 the rest of the
track with the second half of the BAM. -/
def systemSector : DiskType → Location → Bool
  | .d64, l => l == ⟨18, 0⟩
  | .d71, l => l == ⟨18, 0⟩ || l.track == 53
  | .d81, l => l.track == 40 && l.sector < 3

/-- A sector that can hold file data: recorded in the BAM and not on a system
track. -/
def DataLoc (ty : DiskType) (l : Location) : Prop :=
  ValidLoc ty (bamTracks ty) l ∧ systemTrack ty l.track.toNat = false

/-- A file: the attribute byte, the name, the nine bytes after the name and the
block count stored in its directory slot, the chain of its sectors and its
content. -/
structure FileRec where
  attr : Byte
  name : List Byte
  extra : List Byte
  blocks : Nat
  locs : List Location
  data : List Byte
  deriving DecidableEq, Repr

/-- The first sector. -/
def FileRec.first (f : FileRec) : Location := f.locs.headD ⟨0, 0⟩

/-- The directory entry that describes the file, when its slot is at position
`p`. -/
def FileRec.entry (f : FileRec) (p : Position) : DirectoryEntry :=
  { attributes := .fromByte f.attr
    firstSector := f.first
    filename := f.name
    extra := .linear f.extra
    fileSize := f.blocks
    position := some p
    scheme := .linear
    geosBorder := false }

/-- The disk header, the directory sectors in order, and what each slot holds
(`none`: scratched or never used). -/
structure Volume where
  header : Header
  dir : List Location
  slots : List (Option FileRec)
  deriving DecidableEq, Repr

/-- The files, in directory order. -/
def Volume.files (v : Volume) : List FileRec := v.slots.filterMap id

/-- All sectors of all files. -/
def Volume.used (v : Volume) : List Location := v.files.flatMap FileRec.locs

/-- The same volume with slot `i` holding `x`. -/
def Volume.set (v : Volume) (i : Nat) (x : Option FileRec) : Volume :=
  { v with slots := v.slots.set i x }

/-- Where slot `i` is. -/
def slotPos (dir : List Location) (i : Nat) : Position :=
  ⟨dir.getD (i / 8) ⟨0, 0⟩, UInt8.ofNat (32 * (i % 8)), 32⟩

/-- The 32 bytes of slot `i`. -/
def slotAt (d : Device) (s : Shape) (dir : List Location) (i : Nat) : List Byte :=
  slice (d.blk s (dir.getD (i / 8) ⟨0, 0⟩)) (32 * (i % 8)) 32

/-- What 32 directory bytes say: a scratched entry, or an entry that is not
scratched and describes the file. -/
def SlotIs (bytes : List Byte) : Option FileRec → Prop
  | none => (FileAttributes.fromByte (byteAt bytes 2)).isScratched = true
  | some f => (FileAttributes.fromByte f.attr).isScratched = false ∧
      ∀ p, DirectoryEntry.parse32 bytes (some p) = f.entry p

/-- The device holds the volume: the header is that of the volume; the directory is a chain that starts at the
usual place, lies on the directory track, and is used up to the last byte; each
slot says what the volume says; each file is a chain of data sectors with its
content; no sector belongs to two files or twice to one. -/
structure OnDisk (d : Device) (s : Shape) (v : Volume) : Prop where
  wf : Wf d s
  head : Header.read d s.type.format.header = .ok v.header
  dirChain : ∃ content, IsChain d s v.dir content
  dirFirst : v.dir.head? = some (firstDirectory s.type)
  dirFull : ∀ t, v.dir.getLast? = some t → byteAt (d.blk s t) 1 = 0xFF
  dirTrack : ∀ l ∈ v.dir, l.track.toNat = directoryTrack s.type ∧ systemSector s.type l = false
  slotCount : v.slots.length = 8 * v.dir.length
  slots : ∀ i x, v.slots[i]? = some x → SlotIs (slotAt d s v.dir i) x
  chains : ∀ f ∈ v.files, IsChain d s f.locs f.data
  dataLocs : ∀ l ∈ v.used, DataLoc s.type l
  apart : v.used.Nodup

/-- The sectors a volume occupies. -/
def Volume.Occupies (v : Volume) (ty : DiskType) (l : Location) : Prop :=
  systemSector ty l = true ∨ l ∈ v.dir ∨ l ∈ v.used

/-- The BAM is consistent and marks exactly the sectors of the volume as
allocated. -/
structure Recorded (b : Bam) (ty : DiskType) (v : Volume) : Prop where
  consistent : Consistent b ty
  exact : ∀ l, ValidLoc ty (bamTracks ty) l → (isFree b l = false ↔ v.Occupies ty l)

/-- The block counts in the directory are the lengths of the chains. -/
def Exact (v : Volume) : Prop := ∀ f ∈ v.files, f.blocks = f.locs.length

/-- The device holds the volume, the BAM in memory records it, and the image can be
written. -/
structure Mounted (st : St) (s : Shape) (v : Volume) : Prop where
  onDisk : OnDisk st.dev s v
  recorded : Recorded st.bam s.type v
  writable : Writable st.dev

/-- All sectors that can hold file data. -/
def dataSectors (ty : DiskType) : List Location :=
  ((allSectors ty (bamTracks ty)).filter fun p => !systemTrack ty p.1).map
    fun p => ⟨UInt8.ofNat p.1, UInt8.ofNat p.2⟩

/-- How many sectors can hold file data. -/
def dataBlocks : DiskType → Nat
  | .d64 => 664
  | .d71 => 1328
  | .d81 => 3160

/-- Directory slots of a full directory. -/
def maxSlots : DiskType → Nat
  | .d64 => 144
  | .d71 => 144
  | .d81 => 296

/-- Data sectors not used by any file. -/
def Volume.room (v : Volume) (ty : DiskType) : Nat := dataBlocks ty - v.used.length

/-- The directory entries of the files, in slot order. -/
def Volume.listing (v : Volume) : List DirectoryEntry :=
  (List.range v.slots.length).filterMap fun i =>
    match v.slots[i]? with
    | some (some f) => some (f.entry (slotPos v.dir i))
    | _ => none

end Cbm.Spec
