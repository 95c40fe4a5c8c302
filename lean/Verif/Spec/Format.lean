import Verif.Spec.Header
/-!
# A newly formatted disk (specification)
-/

namespace Cbm.Spec

/-- The header of a newly formatted disk: the name filled up with padding, the id, and
the type bytes of the format; not a GEOS disk. -/
def freshHeader (ty : DiskType) (name : List Byte) (id : Byte × Byte) : Header :=
  { firstDirectorySector := firstDirectory ty
    diskFormatType := match ty with | .d64 => 0x41 | .d71 => 0x41 | .d81 => 0x44
    diskName := paddedName name
    diskId := id
    directoryDosVersion := match ty with | .d64 => 0x32 | .d71 => 0x32 | .d81 => 0x33
    directoryFormatType := match ty with | .d64 => 0x41 | .d71 => 0x41 | .d81 => 0x44
    geos := none }

/-- The volume of a newly formatted disk: one directory sector, no files. -/
def emptyVolume (ty : DiskType) (name : List Byte) (id : Byte × Byte) : Volume :=
  ⟨freshHeader ty name id, [firstDirectory ty], List.replicate 8 none⟩

end Cbm.Spec
