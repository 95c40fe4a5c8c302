import Verif.Model.File
/-!
# Validation (src/disk/validation.rs)
-/

namespace Cbm

/-- src/disk/validation.rs:20-27 `ValidationError` (`Unknown` is never
constructed). -/
inductive ValidationError where
  | systemSectorNotAllocated (l : Location)
  | sectorMisallocated (l : Location)
  | sectorMisoccupied (l : Location) (owner : Petscii)
  | sectorOveroccupied (l : Location) (owner other : Petscii)
  | fileScanError (e : DiskError) (name : Petscii)
  deriving DecidableEq, Repr

/-- src/disk/validation.rs:109 `SYSTEM_OWNER`, as PETSCII. -/
def SYSTEM_OWNER : Petscii := fromStrLossy [0x43, 0x42, 0x4d, 0x20, 0x44, 0x4f, 0x53]

/-- `HashMap::insert` / `HashMap::get` on an association list (latest first). -/
def lookupOwner (m : List (Location × Petscii)) (l : Location) : Option Petscii :=
  match m with
  | [] => none
  | (k, v) :: rest => if k = l then some v else lookupOwner rest l

/-- src/disk/validation.rs:149-162: enter the sectors of a file. -/
def occupy (name : Petscii) : List Location → List (Location × Petscii) × List ValidationError →
    List (Location × Petscii) × List ValidationError
  | [], acc => acc
  | l :: rest, (m, errors) =>
    match lookupOwner m l with
    | some owner => occupy name rest (m, errors ++ [.sectorOveroccupied l owner name])
    | none => occupy name rest ((l, name) :: m, errors)

/-- src/disk/validation.rs:95-100 `scan_file`. -/
def scanFile (disk : Disk) (entry : DirectoryEntry) : Res (List Location) := do
  let (f, _) ← disk.openFileFromEntry entry
  f.occupiedSectors disk.dev

/-- src/disk/validation.rs:137-163: the loop over all files.  Every `io::Error` the
modelled code produces wraps a `DiskError`, so the `None` case does not arise. -/
def scanAll (disk : Disk) : List (Res DirectoryEntry) →
    List (Location × Petscii) × List ValidationError →
    Res (List (Location × Petscii) × List ValidationError)
  | [], acc => .ok acc
  | .error e :: _, _ => .error e
  | .ok entry :: rest, acc =>
    match scanFile disk entry with
    | .ok ls => scanAll disk rest (occupy entry.filename ls acc)
    | .error (.err e) => scanAll disk rest (acc.1, acc.2 ++ [.fileScanError e entry.filename])
    | .error e => .error e

/-- src/disk/validation.rs:79-90 `invert_locations`. -/
def invertLocations (occupied : List Location) (f : DiskFormat) : Res (List Location) := do
  let parts ← mapRes (fun i => do
    let row ← trackRow f.tracks (f.firstTrack + i)
    pure ((List.range row.sectors).map fun s =>
      (⟨UInt8.ofNat (f.firstTrack + i), UInt8.ofNat s⟩ : Location)))
    (List.range (f.lastTrack + 1 - f.firstTrack))
  pure (parts.flatten.filter fun l => !occupied.contains l)

/-- src/disk/validation.rs:105-196 `validate`.  The sets are lists; the order of
the errors of one category, which in the code depends on hash iteration order, is
the list order here, so the theorems speak about membership only. -/
def Disk.validate (disk : Disk) : Res (List ValidationError) := do
  let f ← disk.diskFormat
  let ref ← disk.bamRef
  let bam ← indexRes disk.cells ref
  let system ← f.systemLocations
  let allocated ← bam.allocatedSectors
  let free ← bam.freeSectorsList
  let dirLocs ← chainLocations disk.dev f.firstDirectoryLocation
  let header ← disk.getHeader
  let dirLocs := dirLocs ++ (header.geos.map GEOSDiskHeader.border).toList
  let owners := (system ++ dirLocs).map fun l => (l, SYSTEM_OWNER)
  let (owners, errors) ← scanAll disk disk.items (owners, [])
  let occupied := owners.map Prod.fst
  let unoccupied ← invertLocations occupied f
  let notAllocated := (system.filter fun l => !allocated.contains l).map
    ValidationError.systemSectorNotAllocated
  let misallocated := (allocated.filter fun l => unoccupied.contains l).map
    ValidationError.sectorMisallocated
  let misoccupied := (free.filter fun l => occupied.contains l && !system.contains l).map
    fun l => .sectorMisoccupied l ((lookupOwner owners l).getD [])
  pure (errors ++ notAllocated ++ misallocated ++ misoccupied)

end Cbm
