import Verif.Spec.Bam
import Verif.Spec.Relative
import Verif.Spec.Slots
import Verif.Model.Session
/-!
# Damaged images (specification)

Nothing is assumed about the bytes of the image: the header, the BAM, the directory, the chains,
the side sectors and the index blocks can hold anything.
-/

namespace Cbm.Spec

/-- The call comes back with a result or an error: it does not panic and it does not loop for
ever. -/
def Returns {α : Type} (r : Res α) : Prop := r ≠ .error .panic ∧ r ≠ .error .diverge

/-- A disk object over an image of some shape, with whatever bytes.  The format, the header and
the BAM can be missing; if they are there, the format is the one of the disk type, and the BAM has
an entry for each track it should cover, with any contents. -/
structure Standing (disk : Disk) (s : Shape) : Prop where
  wf : Wf disk.dev s
  native : disk.native = s.type.format
  format : ∀ f, disk.format = some f → ∃ g, f = { s.type.format with geos := g }
  bam : ∀ r, disk.bam = some r → ∃ b, disk.cells[r]? = some b ∧ BamOf b s.type

/-- The damage that the code does not survive: a relative file whose chain of side sectors ends in
a sector with fewer than 16 used bytes, or whose record length is zero although its side sectors and
its last data sector are in order. -/
def BadRelative (d : Device) (s : Shape) (e : DirectoryEntry) : Prop :=
  e.scheme = .relative ∧ ∃ ex, e.extra = .relative ex ∧
    ((∃ side content t, side.head? = some ex.firstSideSector ∧ IsChain d s side content ∧
        side.getLast? = some t ∧ usedBytes (d.blk s t) < 16) ∨
      (ex.recordLength = 0 ∧ ∃ side data size, SideSectors d s ex.firstSideSector side data ∧
        DataSize d s data size))

/-- The results of successive reads, each of so many bytes and each on the disk as it is by then. -/
def across {R : Type} (read : R → Device → Nat → Res (List Byte) × R) : R → List (Device × Nat) →
    List (Res (List Byte))
  | _, [] => []
  | r, (d, n) :: rest => (read r d n).1 :: across read (read r d n).2 rest

/-- The calls that put a format or a BAM of the caller's making into the disk object. -/
def Installs : Call → Bool
  | .setFormat (some _) => true
  | .setBam (some _) => true
  | _ => false

/-! ## Calls that change the disk -/

/-- The entry fits into a directory slot of a disk of this shape. -/
structure Placed (s : Shape) (e : DirectoryEntry) : Prop where
  position : ∃ p, e.position = some p ∧ s.Valid p.location ∧ p.offset.toNat + 32 ≤ 256 ∧ p.size = 32
  name : e.filename.length ≤ 16
  extra : ∀ old : List Byte, old.length = 9 → ∃ x, e.extra.toBytes old = .ok x

/-- The calls that put nothing of the caller's making into the program that could not come from a disk: no
format, no BAM, and no directory entry to be opened but one like those in a listing. -/
def Plain (s : Shape) : Call → Prop
  | .setFormat (some _) => False
  | .setBam (some _) => False
  | .openEntry e => Placed s e ∧
      (e.scheme = .geosSequential ∨ e.scheme = .geosVLIR → ∃ g, e.extra = .geos g)
  | _ => True

/-- The file, the writer or the BAM that the call names exists. -/
def Named (x : Session) : Call → Prop
  | .openWriter i => i < x.files.length
  | .delete i => i < x.files.length
  | .write i _ => i < x.writers.length
  | .flush i => i < x.writers.length
  | .drop i => i < x.writers.length
  | .bamAllocate r _ => r < x.disk.cells.length
  | .bamFree r _ => r < x.disk.cells.length
  | .bamFlush r => r < x.disk.cells.length
  | _ => True

/-- There is no free slot in the directory, and its last sector does not hold a whole number of slots,
or lies on a track without an entry in the BAM. -/
def BadTail (disk : Disk) (s : Shape) : Prop :=
  ∃ f dir content t, disk.format = some f ∧ dir.head? = some f.firstDirectoryLocation ∧
    IsChain disk.dev s dir content ∧ dir.getLast? = some t ∧
    (∀ p ∈ dirSlots disk.dev s dir, slotFree disk.dev s p = false) ∧
    (usedBytes (disk.dev.blk s t) % 32 ≠ 0 ∨ bamTracks s.type < t.track.toNat)

/-- A sector that a BAM can have a bit for. -/
def InMap (ty : DiskType) (l : Location) : Prop :=
  1 ≤ l.track.toNat ∧ l.track.toNat ≤ bamTracks ty ∧ l.sector.toNat < 64

/-- The size stored in the slot of the entry. -/
def storedSize (d : Device) (s : Shape) (p : Position) : Nat := (entryAt d s p).fileSize

/-- How many sectors are marked as free. -/
def marked (ty : DiskType) (b : Bam) : Nat :=
  (allSectors ty (bamTracks ty)).countP fun q => freeAt b q.1 q.2

/-- When a call may panic or loop for ever. -/
def Excuse (x : Session) (s : Shape) : Call → Prop
  | .openFile name => ∃ e, x.disk.findDirectoryEntry name = .ok e ∧ BadRelative x.disk.dev s e
  | .openEntry e => BadRelative x.disk.dev s e
  | .create _ _ scheme => scheme ≠ .linear ∨ BadTail x.disk s
  | .nextFreeDirectoryEntry => BadTail x.disk s
  | .openWriter i => ∃ e r, x.files[i]? = some (.linear e, r) ∧
      chainContent x.disk.dev e.firstSector = fail .chainLoop
  | .write i buf => ∃ w r b p, x.writers[i]? = some (w, r) ∧ x.disk.cells[r]? = some b ∧
      w.entry.position = some p ∧
      (65535 < storedSize x.disk.dev s p + min ((buf.length + 253) / 254) (marked s.type b) ∨ p.location = w.location ∨
        isFree b p.location = true)
  | .delete i => (s.type = .d64 ∧ s.tracks = 40) ∨ ∃ f r g, x.files[i]? = some (f, r) ∧
      f.entry.extra = .geos g ∧ g.infoBlock ≠ ⟨0, 0⟩ ∧ ¬ InMap s.type g.infoBlock
  | .writeDirectoryEntry e => ¬ Placed s e
  | .sectorMut _ data => data.length ≠ 256
  | .bamAllocate _ l => ¬ InMap s.type l
  | .bamFree _ l => ¬ InMap s.type l
  | _ => False

end Cbm.Spec
