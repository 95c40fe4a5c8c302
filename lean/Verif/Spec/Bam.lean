import Verif.Model.Bam
import Verif.Spec.Layout
/-!
# What a block availability map says (specification)

A BAM is a set of free sectors together with one recorded count per track.
-/

namespace Cbm.Spec

/-- Tracks recorded in the BAM of the three formats. -/
def bamTracks : DiskType → Nat
  | .d64 => 35
  | .d71 => 70
  | .d81 => 80

/-- The track that holds the directory. -/
def directoryTrack : DiskType → Nat
  | .d64 => 18
  | .d71 => 18
  | .d81 => 40

/-- The tracks that never hold file data: the directory track, and on the 1571
the track with the second half of the BAM. -/
def systemTrack : DiskType → Nat → Bool
  | .d64, t => t == 18
  | .d71, t => t == 18 || t == 53
  | .d81, t => t == 40

/-- Sector `sector` of track `track` is marked free. -/
def freeAt (b : Bam) (track sector : Nat) : Bool :=
  match b.entries[track - 1]? with
  | some e => decide (1 ≤ track) && e.sectorMap.getLsbD sector
  | none => false

/-- The sector is marked free. -/
abbrev isFree (b : Bam) (l : Location) : Bool := freeAt b l.track.toNat l.sector.toNat

/-- The free count recorded for a track. -/
def recorded (b : Bam) (track : Nat) : Option Nat :=
  (b.entries[track - 1]?).map fun e => e.freeSectors.toNat

/-- Number of sectors of a track that are marked free. -/
def freeOn (b : Bam) (ty : DiskType) (track : Nat) : Nat :=
  ((List.range (sectorsPerTrack ty track)).filter fun s => freeAt b track s).length

/-- A BAM of a disk of the given type, whatever it says: it has one entry for
every track, its format is the one of the disk type, possibly with the GEOS
policy, and it was not invalidated by re-formatting. -/
structure BamOf (b : Bam) (ty : DiskType) : Prop where
  format : b.format = { ty.format with geos := b.format.geos }
  length : b.entries.length = bamTracks ty
  live : b.invalidated = false

/-- Counts agree with bitmaps, and only existing sectors are marked free. -/
structure Consistent (b : Bam) (ty : DiskType) : Prop extends BamOf b ty where
  counts : ∀ t, 1 ≤ t → t ≤ bamTracks ty → recorded b t = some (freeOn b ty t)
  noStray : ∀ t s, sectorsPerTrack ty t ≤ s → freeAt b t s = false

/-- The bytes of the image that hold the BAM. -/
def bamArea : DiskType → Location → Nat → Prop
  | .d64, l, j => l = ⟨18, 0⟩ ∧ 4 ≤ j ∧ j < 144
  | .d71, l, j => (l = ⟨18, 0⟩ ∧ ((4 ≤ j ∧ j < 144) ∨ (0xDD ≤ j ∧ j < 256))) ∨
      (l = ⟨53, 0⟩ ∧ j < 105)
  | .d81, l, j => (l = ⟨40, 1⟩ ∨ l = ⟨40, 2⟩) ∧ 16 ≤ j ∧ j < 256

/-- Width in bits of the bitmap of one track on the image. -/
def bitmapBits : DiskType → Nat
  | .d64 => 24
  | .d71 => 24
  | .d81 => 40

end Cbm.Spec
