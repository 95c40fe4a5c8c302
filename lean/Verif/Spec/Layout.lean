import Verif.Model.Block
/-!
# What the disks look like (specification)

The numbers of the three drives, stated independently of the tables in the code.
-/

namespace Cbm.Spec

/-- Sectors on a track of a 1541 disk: four speed zones. -/
def zone (track : Nat) : Nat :=
  if track ≤ 17 then 21 else if track ≤ 24 then 19 else if track ≤ 30 then 18 else 17

/-- Sectors per track: one side of a 1541 (D64), two such sides of 35 tracks
(D71), forty sectors on every track (D81). -/
def sectorsPerTrack : DiskType → Nat → Nat
  | .d64, t => zone t
  | .d71, t => if t ≤ 35 then zone t else zone (t - 35)
  | .d81, _ => 40

/-- Number of sectors on tracks `1, …, n`. -/
def sectorsUpTo (ty : DiskType) : Nat → Nat
  | 0 => 0
  | n + 1 => sectorsUpTo ty n + sectorsPerTrack ty (n + 1)

/-- A location that exists on a disk with the given number of tracks. -/
def ValidLoc (ty : DiskType) (tracks : Nat) (l : Location) : Prop :=
  1 ≤ l.track.toNat ∧ l.track.toNat ≤ tracks ∧ l.sector.toNat < sectorsPerTrack ty l.track.toNat

instance (ty : DiskType) (tracks : Nat) (l : Location) : Decidable (ValidLoc ty tracks l) :=
  inferInstanceAs (Decidable (_ ∧ _ ∧ _))

/-- Position of a sector in the sequence of all sectors of the disk, track by
track. -/
def sectorNumber (ty : DiskType) (l : Location) : Nat :=
  sectorsUpTo ty (l.track.toNat - 1) + l.sector.toNat

/-- The sectors of tracks `1..n` in increasing order. -/
def allSectors (ty : DiskType) (n : Nat) : List (Nat × Nat) :=
  (List.range n).flatMap fun t => (List.range (sectorsPerTrack ty (t + 1))).map fun s => (t + 1, s)

/-- The image sizes: type, tracks, and whether a table of one error byte per
sector follows the sectors. -/
structure Shape where
  type : DiskType
  tracks : Nat
  errorTable : Bool
  deriving DecidableEq, Repr

/-- The eight shapes. -/
def shapes : List Shape :=
  [⟨.d64, 35, false⟩, ⟨.d64, 35, true⟩, ⟨.d64, 40, false⟩, ⟨.d64, 40, true⟩,
   ⟨.d71, 70, false⟩, ⟨.d71, 70, true⟩, ⟨.d81, 80, false⟩, ⟨.d81, 80, true⟩]

/-- Number of sectors. -/
def Shape.sectors (s : Shape) : Nat := sectorsUpTo s.type s.tracks

/-- Image size in bytes. -/
def Shape.size (s : Shape) : Nat :=
  256 * s.sectors + if s.errorTable then s.sectors else 0

/-- A device as the constructors make it: the image has one of the eight shapes
and exactly the size of that shape. -/
structure Wf (d : Device) (s : Shape) : Prop where
  shape : s ∈ shapes
  geometry : d.geometry ∈ s.type.geometries
  tracks : d.geometry.tracks = s.tracks
  errorTable : d.geometry.withErrorTable = s.errorTable
  size : d.image.bytes.length = s.size

/-- The image accepts writes. -/
def Writable (d : Device) : Prop := d.image.kind ≠ .readOnlyMap

end Cbm.Spec

namespace Cbm
open Spec

/-- Existing locations of a shape. -/
abbrev Spec.Shape.Valid (s : Shape) (l : Location) : Prop := ValidLoc s.type s.tracks l

/-- Contents of sector `l` of an image of shape `s`. -/
def Device.blk (d : Device) (s : Shape) (l : Location) : List Byte :=
  slice d.image.bytes (256 * sectorNumber s.type l) 256

end Cbm
