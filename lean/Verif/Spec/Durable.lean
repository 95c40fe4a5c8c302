import Verif.Spec.Observe
/-!
# Two disks that hold the same files (specification)
-/

namespace Cbm.Spec

/-- The two disks have the same image and a program finds the same header, the same
directory and the same files in them. -/
structure SameFiles (disk disk' : Disk) : Prop where
  image : disk'.dev.image = disk.dev.image
  header : disk'.header = disk.header
  format : disk'.format = disk.format
  directory : disk'.directory = disk.directory
  reads : ∀ name content, ReadsName disk' name content ↔ ReadsName disk name content
  missing : ∀ name, disk'.openFile name = fail .notFound ↔ disk.openFile name = fail .notFound

/-- And the same BAM; both validate. -/
structure SameState (disk disk' : Disk) : Prop extends SameFiles disk disk' where
  bam : bamOf disk' = bamOf disk
  known : (bamOf disk).isSome
  blocksFree : disk'.blocksFree = disk.blocksFree
  valid : disk.validate = .ok []
  valid' : disk'.validate = .ok []

end Cbm.Spec
