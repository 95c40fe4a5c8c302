import Verif.Spec.Geos
import Verif.Spec.Observe
import Verif.Model.Session
/-!
# The blocks of relative and GEOS files (specification)

What it means that such a file, found in a listing and opened, is deleted.
-/

namespace Cbm.Spec

/-- A relative file: the chain of its data, and the side sectors that name the same
sectors. -/
structure RelativeBlocks (d : Device) (s : Shape) (e : DirectoryEntry) (data side : List Location) :
    Prop where
  start : data.head? = some e.firstSector
  chain : ∃ content, IsChain d s data content
  sides : ∃ ex, e.extra = .relative ex ∧ SideSectors d s ex.firstSideSector side data

/-- The info block of a GEOS file, unless the entry says there is none. -/
def InfoBlock (e : DirectoryEntry) (info : List Location) : Prop :=
  ∃ ex, e.extra = .geos ex ∧ info = if ex.infoBlock = ⟨0, 0⟩ then [] else [ex.infoBlock]

/-- A GEOS file with sequential structure: a chain and an info block. -/
structure SequentialBlocks (d : Device) (s : Shape) (e : DirectoryEntry) (data info : List Location) :
    Prop where
  start : data.head? = some e.firstSector
  chain : ∃ content, IsChain d s data content
  info : InfoBlock e info

/-- The chains of the records that an index names. -/
inductive RecordChains (d : Device) (s : Shape) : List Location → List (List Location) → Prop
  | nil : RecordChains d s [] []
  | absent {ps chains} : RecordChains d s ps chains → RecordChains d s (noRecord :: ps) chains
  | present {p locs content ps chains} : p ≠ noRecord → locs.head? = some p →
      IsChain d s locs content → RecordChains d s ps chains →
      RecordChains d s (p :: ps) (locs :: chains)

/-- A GEOS file with VLIR structure: an index sector, marked as the last of its chain with
all bytes used, an info block, and the chains of the records. -/
structure VlirBlocks (d : Device) (s : Shape) (e : DirectoryEntry) (info : List Location)
    (chains : List (List Location)) : Prop where
  index : s.Valid e.firstSector
  marked : linkBytes (d.blk s e.firstSector) = ⟨0, 0xFF⟩
  info : InfoBlock e info
  records : RecordChains d s (vlirIndex (d.blk s e.firstSector)) chains

/-- A block that `delete` can give back: a sector of the disk that the BAM has a bit for,
and that does not hold the BAM itself. -/
def Usable (ty : DiskType) (l : Location) : Prop :=
  ValidLoc ty (bamTracks ty) l ∧ ¬ ∃ j, bamArea ty l j

/-- A program found the entry `e` in the listing `es` of a disk that can be written to, with
a directory that is in order, and opened it as handle `k`. -/
structure OpenedEntry (x : Session) (s : Shape) (b : Bam) (k : Nat) (e : DirectoryEntry)
    (es : List DirectoryEntry) : Prop where
  wf : Wf x.disk.dev s
  writable : Writable x.disk.dev
  bam : bamOf x.disk = some b
  consistent : Consistent b s.type
  listed : x.disk.directory = .ok es
  entry : e ∈ es
  directory : ∃ f h dir content, x.disk.format = some f ∧ x.disk.header = some h ∧
    dir.head? = some f.firstDirectoryLocation ∧ IsChain x.disk.dev s dir content ∧
    ∀ l ∈ dir ++ (h.geos.map GEOSDiskHeader.border).toList, ¬ ∃ j, bamArea s.type l j
  handle : ∃ f r, x.disk.openFileFromEntry e = .ok (f, r) ∧ x.files[k]? = some (f, r)

/-- The file of the entry `e` is gone: it is not listed any more, exactly the blocks `mem`
were given back, the BAM on the image says so of the blocks `stored`, and nothing else
changed. -/
structure Gone (x x' : Session) (s : Shape) (b : Bam) (e : DirectoryEntry)
    (es : List DirectoryEntry) (mem stored : List Location) : Prop where
  listing : x'.disk.directory = .ok (es.filter fun e' => e'.position ≠ e.position)
  bam : ∃ b', bamOf x'.disk = some b' ∧ ∀ l, isFree b' l = true ↔ l ∈ mem ∨ isFree b l = true
  count : mem.Nodup → (∀ l ∈ mem, isFree b l = false) → ∃ n, x.disk.blocksFree = .ok n ∧
    x'.disk.blocksFree =
      .ok (n + (mem.filter fun l => l.track.toNat ≠ directoryTrack s.type).length)
  saved : ∃ b'', Bam.read x'.disk.dev s.type.format = .ok b'' ∧
    ∀ l, isFree b'' l = true ↔ l ∈ stored ∨ isFree b l = true
  others : ∀ l j, s.Valid l → ¬ bamArea s.type l j →
    (∀ p, e.position = some p → l = p.location →
      j < p.offset.toNat + 2 ∨ p.offset.toNat + 32 ≤ j) →
    (x'.disk.dev.blk s l)[j]? = (x.disk.dev.blk s l)[j]?
  wf : Wf x'.disk.dev s
  consistent : ∀ b', bamOf x'.disk = some b' → Consistent b' s.type
  kept : x'.disk.header = x.disk.header ∧ x'.disk.format = x.disk.format ∧ x'.disk.bam = x.disk.bam

end Cbm.Spec
