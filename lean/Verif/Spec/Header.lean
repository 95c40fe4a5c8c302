import Verif.Spec.Volume
/-!
# The disk header (specification)
-/

namespace Cbm.Spec

/-- The sector with the disk name. -/
def headerSector : DiskType → Location
  | .d64 => ⟨18, 0⟩
  | .d71 => ⟨18, 0⟩
  | .d81 => ⟨40, 0⟩

/-- The bytes of the image that hold the disk header: the directory pointer and the
format byte, on the 1571 the double-sided flag, and the block with the name, the id
and the DOS type. -/
def headerArea : DiskType → Location → Nat → Prop
  | .d64, l, j => l = ⟨18, 0⟩ ∧ (j < 3 ∨ (0x90 ≤ j ∧ j < 0xAB))
  | .d71, l, j => l = ⟨18, 0⟩ ∧ (j < 4 ∨ (0x90 ≤ j ∧ j < 0xAB))
  | .d81, l, j => l = ⟨40, 0⟩ ∧ (j < 3 ∨ (0x04 ≤ j ∧ j < 0x1D))

/-- A disk name as it is stored and shown: filled up with shifted spaces to sixteen
bytes. -/
def paddedName (name : List Byte) : List Byte := name ++ List.replicate (16 - name.length) 0xA0

end Cbm.Spec
