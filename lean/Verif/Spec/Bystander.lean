import Verif.Spec.Footprint
import Verif.Spec.Validate
/-!
# Files that a program does not touch (specification)
-/

namespace Cbm.Spec

/-- The calls of a program that works with the files it has opened and with new ones. -/
def Work : Call → Bool
  | .create _ _ _ => true
  | .openWriter _ => true
  | .write _ _ => true
  | .flush _ => true
  | .drop _ => true
  | .delete _ => true
  | .nextFreeDirectoryEntry => true
  | .bamAllocate _ _ => true
  | .bamFlush _ => true
  | .flushHeader => true
  | _ => false

/-- The program takes a disk, opens the files of some entries of its listing, and makes calls that work on
these and on new files.  It goes on whether or not the calls succeed. -/
def working (disk : Disk) (opens : List DirectoryEntry) (calls : List Call) : Session :=
  Session.run (opens.map Call.openEntry ++ calls) ⟨disk, [], []⟩

/-- Of a relative file: the chain that starts at the first sector of the entry can be read, and its sectors are
among those that the validation takes to be the file's, which are the ones listed in the side sectors. -/
def ScanCovers (disk : Disk) (e : DirectoryEntry) : Prop :=
  e.scheme = .relative → ∃ locs, chainLocations disk.dev e.firstSector = .ok locs ∧
    ∀ ls, scanFile disk e = .ok ls → ∀ l ∈ locs, l ∈ ls

/-- The file of an entry, with the sectors `ls`, is as it was on `disk`: it is listed, opens to the same file, and
reads the same, record by record; its sectors are not marked as free; and the bytes of its sectors and of its
entry did not change at any time. -/
structure Untouched (s : Shape) (disk disk' : Disk) (e : DirectoryEntry) (ls : List Location) : Prop where
  listed : .ok e ∈ disk'.items
  opens : disk'.openFileFromEntry e = disk.openFileFromEntry e
  sectors : scanFile disk' e = .ok ls
  reads : ∀ f r, disk.openFileFromEntry e = .ok (f, r) → ∀ i, f.record disk'.dev i = f.record disk.dev i
  allocated : ∀ b ∈ disk'.cells, ∀ l ∈ ls, s.Valid l → isFree b l = false
  bytes : ChangesOnly s (fun l j => l ∉ ls ∧ ∀ p, e.position = some p → ¬ Field p 2 30 l j) disk.dev disk'.dev

end Cbm.Spec
