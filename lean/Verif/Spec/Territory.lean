import Verif.Spec.Footprint
import Verif.Spec.Robust
/-!
# What a program may work with (specification)

A program claims some sectors and some directory slots of a disk: those that are free, and those of the files
it means to change.  Everything else is to stay as it is, whatever the program does with its own files.
-/

namespace Cbm.Spec

/-- What the program claims. -/
structure Territory where
  sectors : Location → Prop
  slots : Position → Prop

/-- A slot is claimed, itself or with its sector. -/
def Territory.HasSlot (t : Territory) (p : Position) : Prop := t.slots p ∨ t.sectors p.location

/-- The claim includes what is free, and no sector of the map and of the header; nor does the directory run
through those. -/
structure Claimed (t : Territory) (disk : Disk) (s : Shape) : Prop where
  free : ∀ b ∈ disk.cells, ∀ l, isFree b l = true → t.sectors l
  slots : ∀ l p, LeadsTo disk.dev s (firstDirectory s.type) l → p ∈ sectorSlots l →
    slotFree disk.dev s p = true → t.slots p
  aligned : ∀ p, t.slots p → p ∈ sectorSlots p.location
  system : ∀ l j, t.sectors l ∨ LeadsTo disk.dev s (firstDirectory s.type) l →
    ¬ bamArea s.type l j ∧ ¬ headerArea s.type l j

/-- The bytes that may change: the claimed sectors, the claimed slots, the map, the header, and the link at
the end of the directory, to which a new sector can be appended. -/
def Changeable (t : Territory) (disk : Disk) (s : Shape) (l : Location) (j : Nat) : Prop :=
  t.sectors l ∨ bamArea s.type l j ∨ headerArea s.type l j ∨ (∃ p, t.slots p ∧ Field p 2 30 l j) ∨
  (LeadsTo disk.dev s (firstDirectory s.type) l ∧ byteAt (disk.dev.blk s l) 0 = 0 ∧ j < 2)

/-- An open file that is claimed with all its sectors. -/
def Territory.HasFile (t : Territory) (d : Device) (s : Shape) (f : File) : Prop :=
  (∀ p, f.entry.position = some p → t.HasSlot p) ∧ ∀ l, BlockOf d s f l → t.sectors l

/-- The call opens or names only what is claimed.  What is done with files that are open, or with new ones, is
not restricted at all: they may be deleted twice, or written to by two writers at a time, or after they were
deleted. -/
def Within (t : Territory) (x : Session) (s : Shape) : Call → Prop
  | .format _ _ => False
  | .writeSector _ _ => False
  | .sectorMut _ _ => False
  | .setBam (some _) => False
  | .setFormat (some _) => False
  | .init => ∀ b, Bam.read x.disk.dev s.type.format = .ok b → ∀ l, isFree b l = true → t.sectors l
  | .openFile name => ∀ f r, x.disk.openFile name = .ok (f, r) → t.HasFile x.disk.dev s f
  | .openEntry e => ∀ f r, x.disk.openFileFromEntry e = .ok (f, r) → t.HasFile x.disk.dev s f
  | .rename original _ => ∀ e p, x.disk.findDirectoryEntry original = .ok e → e.position = some p → t.HasSlot p
  | .writeDirectoryEntry e => ∀ p, e.position = some p → t.HasSlot p
  | .bamFree _ l => t.sectors l
  | _ => True

/-- All calls of a program, each in the state it is made in. -/
def AllWithin (t : Territory) (s : Shape) : Session → List Call → Prop
  | _, [] => True
  | x, c :: cs => Plain s c ∧ Within t x s c ∧ AllWithin t s (Session.step c x).2 cs

end Cbm.Spec
