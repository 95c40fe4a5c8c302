import Verif.Spec.Robust
import Verif.Model.Display
import Verif.Model.Export
/-!
# The `cdisk` program on any file (specification)

A command line, whether it comes back, and when it may crash.  Nothing is assumed about the bytes of the file
that is given as the image.
-/

namespace Cbm.Spec

/-- A command line of `cdisk`, without the name of the image.  The sizes are those of the buffers with which the
standard library copies; the pieces are what it reads from the other file. -/
inductive Line where
  | dir (verbosity : Nat)
  | validate
  | dump (name : Option (List Nat))
  | bamShow
  | bamEdit (track sector : Option Nat) (allocate : Bool)
  | read (name sizes : List Nat)
  | write (name : List Nat) (type : FileType) (pieces : List (List Byte))
  | append (name : List Nat) (pieces : List (List Byte))
  | rename (original new : List Nat)
  | delete (name : List Nat)
  | format (name id : List Nat)

/-- How the command ends. -/
def Line.ends (ext : Option (List Char)) (bytes : List Byte) : Line → Res Unit
  | .dir verbosity => (cmdDirText ext verbosity bytes).1
  | .validate => (cmdValidateText ext bytes).1.map fun _ => ()
  | .dump name => (cmdDump ext name bytes).1
  | .bamShow => (cmdBamShow ext bytes).1
  | .bamEdit track sector allocate => (cmdBamEdit ext track sector allocate bytes).1
  | .read name sizes => (cmdRead ext name sizes bytes).1.map fun _ => ()
  | .write name type pieces => (cmdWrite ext name type pieces bytes).1
  | .append name pieces => (cmdAppend ext name pieces bytes).1
  | .rename original new => (cmdRename ext original new bytes).1
  | .delete name => (cmdDelete ext name bytes).1
  | .format name id => (cmdFormat ext name id bytes).1

/-- What the command-line parser lets through, and buffers that are not empty and of which there are enough. -/
def Line.Sensible : Line → Prop
  | .bamEdit track sector _ => (∀ t, track = some t → 1 ≤ t ∧ t ≤ 40) ∧ ∀ n, sector = some n → n ≤ 20
  | .read _ sizes => (∀ k ∈ sizes, 0 < k) ∧ 256 * 3200 < sizes.length
  | _ => True

/-- The first file of that name is a relative file with the damage that cannot be survived. -/
def NamesBad (disk : Disk) (s : Shape) (name : List Nat) : Prop :=
  ∃ e, disk.findDirectoryEntry (fromStrLossy name) = .ok e ∧ BadRelative disk.dev s e

/-- A sector that belongs to the directory, as far as it can be followed, is marked as free. -/
def FreeDirectory (disk : Disk) (s : Shape) : Prop :=
  ∃ f r b locs l, disk.format = some f ∧ disk.bam = some r ∧ disk.cells[r]? = some b ∧
    Path disk.dev s f.firstDirectoryLocation locs l ∧ isFree b l = true

/-- When the command may panic or loop for ever, given the disk that is in the file. -/
def Line.Risk (disk : Disk) (s : Shape) : Line → Prop
  | .dir verbosity => 2 ≤ verbosity ∧ ∃ e, .ok e ∈ disk.items ∧ BadRelative disk.dev s e
  | .validate => ∃ e, .ok e ∈ disk.items ∧ BadRelative disk.dev s e
  | .dump (some name) => NamesBad disk s name
  | .bamEdit track _ _ => s.type = .d64 ∧ ∃ t, track = some t ∧ 36 ≤ t
  | .read name _ => NamesBad disk s name
  | .write _ _ _ => BadTail disk s ∨ FreeDirectory disk s
  | .append name _ => NamesBad disk s name ∨
      ∃ e, disk.findDirectoryEntry (fromStrLossy name) = .ok e ∧ e.scheme = .linear ∧
        chainContent disk.dev e.firstSector = fail .chainLoop
  | .delete name => NamesBad disk s name ∨ ∃ e, disk.findDirectoryEntry (fromStrLossy name) = .ok e ∧
      ((s.type = .d64 ∧ s.tracks = 40) ∨
        ∃ g, e.extra = .geos g ∧ g.infoBlock ≠ ⟨0, 0⟩ ∧ ¬ InMap s.type g.infoBlock)
  | _ => False

/-- Some command of the line may crash on this file. -/
def Line.Excused (ext : Option (List Char)) (bytes : List Byte) (c : Line) : Prop :=
  ∃ writable disk s, Disk.openPath ext writable bytes = .ok disk ∧ Wf disk.dev s ∧ c.Risk disk s

end Cbm.Spec
