import Verif.Spec.Policy
import Verif.Spec.Observe
/-!
# Where a file lies (specification)
-/

namespace Cbm.Spec

/-- The file of that name can be opened, and its blocks are these, in order. -/
def LiesAt (disk : Disk) (name : List Byte) (ls : List Location) : Prop :=
  ∃ e r, disk.openFile name = .ok (.linear e, r) ∧ chainLocations disk.dev e.firstSector = .ok ls

/-- The sectors that are free, by the allocation map in memory. -/
def freeNow (disk : Disk) : Nat → Nat → Bool := fun t s =>
  match disk.bam.bind (disk.cells[·]?) with
  | some b => freeAt b t s
  | none => false

/-- Each block of the list is the one the policy puts after the block before it, given
the sectors that were free before the first of them was taken. -/
def Interleaved (ty : DiskType) (free : Nat → Nat → Bool) : List Location → Prop
  | l :: m :: ls => nextBlock ty false (without free l) l = some m ∧
      Interleaved ty (without free l) (m :: ls)
  | _ => True

end Cbm.Spec
