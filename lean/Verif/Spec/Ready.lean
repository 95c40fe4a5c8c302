import Verif.Spec.Volume
import Verif.Model.Session
/-!
# A disk in use (specification)
-/

namespace Cbm.Spec

/-- The disk holds the volume and is ready for use: the header, the format and the
BAM in memory are those of the image, the image can be written, the disk is not a
GEOS disk, and the block counts in the directory are right.  `r` and `b` are the BAM
cell and its contents. -/
structure ReadyAt (disk : Disk) (s : Shape) (v : Volume) (r : Nat) (b : Bam) : Prop where
  native : disk.native = s.type.format
  format : disk.format = some s.type.format
  header : disk.header = some v.header
  noGeos : v.header.geos = none
  bam : disk.bam = some r
  cell : disk.cells[r]? = some b
  bamFormat : b.format = s.type.format
  mounted : Mounted ⟨disk.dev, b⟩ s v
  exact : Exact v

/-- The disk holds the volume and is ready for use. -/
def Ready (disk : Disk) (s : Shape) (v : Volume) : Prop := ∃ r b, ReadyAt disk s v r b

end Cbm.Spec
