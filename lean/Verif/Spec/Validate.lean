import Verif.Spec.Volume
import Verif.Model.Validation
/-!
# What `validate` must report (specification)
-/

namespace Cbm.Spec

/-- The sectors that belong to the disk itself, whatever it holds: header, BAM, the
reserved track and the first directory sector. -/
def ownSector (ty : DiskType) (l : Location) : Bool :=
  systemSector ty l || l == firstDirectory ty

/-- The list of them. -/
def ownSectors (ty : DiskType) : List Location :=
  ((allSectors ty (bamTracks ty)).map fun p => ⟨UInt8.ofNat p.1, UInt8.ofNat p.2⟩).filter
    (ownSector ty)

/-- The name under which the system's sectors are reported: `CBM DOS` in PETSCII, with the upper-case letters
at 0x61 to 0x7A. -/
def systemName : Petscii := [0x63, 0x62, 0x6D, 0x20, 0x64, 0x6F, 0x73]

/-- Who claims which sectors: first the system, for its own sectors, the directory
and the GEOS border sector; then every file, in directory order, whose sectors can be
determined. -/
def claims (disk : Disk) (ty : DiskType) (dir : List Location) (border : Option Location)
    (entries : List DirectoryEntry) : List (Petscii × List Location) :=
  (systemName, ownSectors ty ++ dir ++ border.toList) ::
    entries.filterMap fun e =>
      match scanFile disk e with
      | .ok ls => some (e.filename, ls)
      | .error _ => none

/-- The first claimant of a sector. -/
def owner (cs : List (Petscii × List Location)) (l : Location) : Option Petscii :=
  (cs.find? fun c => c.2.contains l).map Prod.fst

/-- The violations.  `b` is the BAM, `cs` the claims, `scans` the entries with the
outcome of looking for their sectors. -/
inductive Violation (b : Bam) (ty : DiskType) (cs : List (Petscii × List Location))
    (scans : List (Petscii × Res (List Location))) : ValidationError → Prop
  /-- The sectors of a file cannot be determined. -/
  | scan {x : DiskError} {name : Petscii} : (name, fail x) ∈ scans →
      Violation b ty cs scans (.fileScanError x name)
  /-- A file claims a sector that someone before it claims. -/
  | over {pre post : List (Petscii × List Location)} {name first : Petscii} {ls : List Location}
      {l : Location} : cs = pre ++ (name, ls) :: post → l ∈ ls → owner pre l = some first →
      Violation b ty cs scans (.sectorOveroccupied l first name)
  /-- A system sector is marked free. -/
  | system {l : Location} : ValidLoc ty (bamTracks ty) l → ownSector ty l = true →
      isFree b l = true → Violation b ty cs scans (.systemSectorNotAllocated l)
  /-- A sector nobody claims is marked as allocated. -/
  | misallocated {l : Location} : ValidLoc ty (bamTracks ty) l → isFree b l = false →
      owner cs l = none → Violation b ty cs scans (.sectorMisallocated l)
  /-- A sector that is claimed (and not a system sector) is marked free. -/
  | misoccupied {l : Location} {name : Petscii} : ValidLoc ty (bamTracks ty) l →
      isFree b l = true → ownSector ty l = false → owner cs l = some name →
      Violation b ty cs scans (.sectorMisoccupied l name)

end Cbm.Spec
