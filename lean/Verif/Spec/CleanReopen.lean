import Verif.Model.File
import Verif.Spec.Bam
/-!
# What it means that a file outlives the program (specification)
-/

namespace Cbm.Spec

/-- The entry `e` opens on `disk'` as the file it opens as on `disk`: it takes up the same sectors and each of its records
reads the same. (The two disks need not keep their map in the same place in memory.) -/
def SameOpened (disk disk' : Disk) (e : DirectoryEntry) : Prop :=
  ∃ f r r', disk.openFileFromEntry e = .ok (f, r) ∧ disk'.openFileFromEntry e = .ok (f, r') ∧
    f.occupiedSectors disk'.dev = f.occupiedSectors disk.dev ∧ ∀ i, f.record disk'.dev i = f.record disk.dev i

/-- The map on the image says what the map in memory says: the same sectors are free. -/
def MapStored (d : Device) (ty : DiskType) (b : Bam) : Prop :=
  ∃ b', Bam.read d ty.format = .ok b' ∧ ∀ l, isFree b' l = isFree b l

end Cbm.Spec
