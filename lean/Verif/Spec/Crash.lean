import Verif.Spec.Durable
/-!
# Crash points (specification)

A sector is written as a whole; a crash can happen between two such writes.
-/

namespace Cbm.Spec

/-- The image before the first, and after each, of the sector writes that turned device
`d` into `d'`, newest first. -/
def crashPoints (d d' : Device) : List Image :=
  (d'.hist.take (d'.hist.length - d.hist.length) ++ [d.image.bytes]).map
    fun bytes => { d.image with bytes := bytes }

/-- Both disks show the same name, directory and files. -/
structure SameView (disk disk' : Disk) : Prop where
  header : disk'.header = disk.header
  format : disk'.format = disk.format
  directory : disk'.directory = disk.directory
  reads : ∀ name content, ReadsName disk' name content ↔ ReadsName disk name content
  missing : ∀ name, disk'.openFile name = fail .notFound ↔ disk.openFile name = fail .notFound

/-- Every crash point between the two disks shows what was there before or what is there
after. -/
def Atomic (ty : DiskType) (disk disk' : Disk) : Prop :=
  ∀ image ∈ crashPoints disk.dev disk'.dev, ∃ seen, Disk.new ty image = .ok seen ∧
    (SameView disk seen ∨ SameView disk' seen)

/-- The directory but for the block counts. -/
def entriesOf (es : List DirectoryEntry) : List DirectoryEntry :=
  es.map fun e => { e with fileSize := 0 }

/-- The calls: open the file of that name, open a writer on it, write the chunks, flush
or drop the writer. -/
def appendNameCalls (x : Session) (name : Petscii) (chunks : List (List Byte)) (fin : Call) :
    List Call :=
  .openFile name :: .openWriter x.files.length ::
    (chunks.map (Call.write x.writers.length) ++ [fin])

end Cbm.Spec
