import Verif.Spec.Store
import Verif.Model.File
/-!
# Renaming a file of any kind (specification)
-/

namespace Cbm.Spec

/-- An entry of a listing after the file in slot `p` was given the name `new`. -/
def renamedAt (p : Position) (new : Petscii) (e : DirectoryEntry) : DirectoryEntry :=
  if e.position = some p then { e with filename := storedName new } else e

/-- The file of the entry `e'` on `disk'` is, but for its name, the file of the entry `e` on `disk`: it takes up the
same sectors, has the same number of records, and each of them reads the same. -/
def SameFile (disk disk' : Disk) (e e' : DirectoryEntry) : Prop :=
  ∃ f f' r, disk.openFileFromEntry e = .ok (f, r) ∧ disk'.openFileFromEntry e' = .ok (f', r) ∧
    f' = f.setEntry e' ∧ f'.recordCount = f.recordCount ∧
    f'.occupiedSectors disk'.dev = f.occupiedSectors disk.dev ∧
    ∀ i, f'.record disk'.dev i = f.record disk.dev i

/-- The result of giving the name `new` to the file `original` on a disk with the listing `es`. -/
def renameResult (es : List DirectoryEntry) (readOnly : Bool) (original new : Petscii) : Res Unit :=
  if ∀ e ∈ es, e.filename ≠ original then .error (.err .notFound)
  else if 16 < new.length then .error (.err .filenameTooLong)
  else if ∃ e ∈ es, e.filename = new then .error (.err .fileExists)
  else if readOnly then .error (.err .readOnly)
  else .ok ()

end Cbm.Spec
