import Verif.Spec.Observe
import Verif.Spec.Slots
/-!
# What a call may change (specification)

For any image: the bytes of the disk that a call may change, and the sectors that it may mark as
free.  Nothing is assumed about the files, the chains or the BAM.
-/

namespace Cbm.Spec

/-- The two images differ at most in the bytes `A` of the sectors; the error table is the same. -/
def SameBut (s : Shape) (A : Location → Nat → Prop) (old new : List Byte) : Prop :=
  new.length = old.length ∧
  (∀ l j, s.Valid l → j < 256 → ¬ A l j →
    new[256 * sectorNumber s.type l + j]? = old[256 * sectorNumber s.type l + j]?) ∧
  ∀ i, 256 * s.sectors ≤ i → new[i]? = old[i]?

/-- From `d` to `d'` only the bytes `A` changed, and at no point in between, after any of the sector
writes, was another byte different. -/
def ChangesOnly (s : Shape) (A : Location → Nat → Prop) (d d' : Device) : Prop :=
  ∃ new, d'.hist = new ++ d.hist ∧ ∀ img ∈ d'.image.bytes :: new, SameBut s A d.image.bytes img

/-- Byte `j` of sector `l` is one of the `n` bytes from offset `o` of the directory slot `p`. -/
def Field (p : Position) (o n : Nat) (l : Location) (j : Nat) : Prop :=
  l = p.location ∧ p.offset.toNat + o ≤ j ∧ j < p.offset.toNat + o + n

/-- Following the links from `start` one comes to `l`. -/
def LeadsTo (d : Device) (s : Shape) (start l : Location) : Prop := ∃ ls, Path d s start ls l

/-- The bytes that a search for a free directory slot may change, and that a new entry may be written
to: the sectors marked as free, the link of the last sector of the directory, and the slots of the
directory without a file. -/
def NewEntry (disk : Disk) (s : Shape) (l : Location) (j : Nat) : Prop :=
  (∃ b, bamOf disk = some b ∧ isFree b l = true) ∨
  (LeadsTo disk.dev s (firstDirectory s.type) l ∧ byteAt (disk.dev.blk s l) 0 = 0 ∧ j < 2) ∨
  ∃ p ∈ sectorSlots l, LeadsTo disk.dev s (firstDirectory s.type) l ∧ slotFree disk.dev s p = true ∧
    Field p 2 30 l j

/-- The bytes that a call may change. -/
def Footprint (x : Session) (s : Shape) : Call → Location → Nat → Prop
  | .format _ _, _, _ => True
  | .flushHeader, l, j => headerArea s.type l j
  | .create _ _ _, l, j => NewEntry x.disk s l j
  | .nextFreeDirectoryEntry, l, j => NewEntry x.disk s l j
  | .write i _, l, j => ∃ w r, x.writers[i]? = some (w, r) ∧
      (l = w.location ∨ (∃ b, x.disk.cells[r]? = some b ∧ isFree b l = true) ∨
        ∃ p, w.entry.position = some p ∧ Field p 30 2 l j)
  | .flush i, l, j => bamArea s.type l j ∨ ∃ w r, x.writers[i]? = some (w, r) ∧ l = w.location
  | .drop i, l, j => bamArea s.type l j ∨ ∃ w r, x.writers[i]? = some (w, r) ∧ l = w.location
  | .delete i, l, j => bamArea s.type l j ∨
      ∃ f r p, x.files[i]? = some (f, r) ∧ f.entry.position = some p ∧ Field p 2 30 l j
  | .rename original _, l, j => ∃ e p, x.disk.findDirectoryEntry original = .ok e ∧
      e.position = some p ∧ Field p 5 16 l j
  | .writeDirectoryEntry e, l, j => ∃ p, e.position = some p ∧ Field p 2 30 l j
  | .writeSector l' _, l, _ => l = l'
  | .sectorMut l' _, l, _ => l = l'
  | .bamFlush _, l, j => bamArea s.type l j
  | _, _, _ => False

/-- A sector that belongs to an open file: of its chain, or a side sector, or the info block, or of
the chain of a record.  (Between the chain of the file and those of the records the map of the disk is
written; a chain that runs through a sector of the map is followed as it is by then.) -/
def BlockOf (d : Device) (s : Shape) (f : File) (l : Location) : Prop :=
  LeadsTo d s f.entry.firstSector l ∨
  (∃ g, f = .relative g ∧ l ∈ g.sideSectors) ∨
  (∃ g x, (f = .geosSequential g ∨ f = .geosVLIR g) ∧ g.entry.extra = .geos x ∧ x.infoBlock ≠ ⟨0, 0⟩ ∧
    l = x.infoBlock) ∨
  ∃ g records start d', (f = .geosSequential g ∨ f = .geosVLIR g) ∧ g.vlir = some records ∧
    some start ∈ records ∧ ChangesOnly s (bamArea s.type) d d' ∧ LeadsTo d' s start l

/-- The sectors that a call may mark as free in the map of cell `r`. -/
def Released (x : Session) (s : Shape) : Call → Nat → Location → Prop
  | .format _ _, _, _ => True
  | .init, _, l => ∃ b, Bam.read x.disk.dev s.type.format = .ok b ∧ isFree b l = true
  | .setBam (some b), _, l => isFree b l = true
  | .delete i, r, l => ∃ f, x.files[i]? = some (f, r) ∧ BlockOf x.disk.dev s f l
  | .bamFree r' l', r, l => r = r' ∧ l = l'
  | _, _, _ => False

end Cbm.Spec
