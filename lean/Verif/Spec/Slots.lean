import Verif.Spec.Volume
/-!
# The slots of a directory (specification)

Whatever the image holds: the slots of a directory are the whole 32-byte pieces of its
sectors, in the order of the chain.  In the last sector only the bytes the link says
are used count.
-/

namespace Cbm.Spec

/-- How many bytes of a sector of a chain are in use, the link included. -/
def usedBytes (blk : List Byte) : Nat :=
  if byteAt blk 0 = 0 then (byteAt blk 1).toNat + 1 else 256

/-- The positions of the slots. -/
def dirSlots (d : Device) (s : Shape) (dir : List Location) : List Position :=
  dir.flatMap fun l =>
    (List.range (usedBytes (d.blk s l) / 32)).map fun k => ⟨l, UInt8.ofNat (32 * k), 32⟩

/-- The 32 bytes of a slot. -/
def slotData (d : Device) (s : Shape) (p : Position) : List Byte :=
  slice (d.blk s p.location) p.offset.toNat 32

/-- A slot without a file: the file type is `DEL` and the `closed` bit is not set. -/
def slotFree (d : Device) (s : Shape) (p : Position) : Bool :=
  byteAt (slotData d s p) 2 &&& 0x8F == 0

/-- The entry in a slot. -/
def entryAt (d : Device) (s : Shape) (p : Position) : DirectoryEntry :=
  DirectoryEntry.parse32 (slotData d s p) (some p)

/-- The slots of one sector that is used up to the end. -/
def sectorSlots (l : Location) : List Position :=
  (List.range 8).map fun k => ⟨l, UInt8.ofNat (32 * k), 32⟩

end Cbm.Spec
