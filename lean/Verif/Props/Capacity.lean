import Verif.Props.Robust
import Verif.Props.Format
import Verif.Props.Directory
/-!
# C12, C31: the capacities a format reports

`total_data_blocks` and `max_directory_entries` are computed from the tables of the format; a program sizes its
work by them.  They agree with what `C13` and `C31` show of the disk itself.
-/

namespace Cbm
open Spec

variable {ty : DiskType} {disk : Disk} {image : Image}

theorem capacity_of (g : Bool) :
    ({ ty.format with geos := g } : DiskFormat).totalDataBlocks = dataBlocks ty ∧
    ({ ty.format with geos := g } : DiskFormat).maxDirectoryEntries = .ok (maxSlots ty) := by
  cases ty <;> cases g <;> decide +kernel

/-- **C12** Whatever the image holds and whatever calls were made, the format of the disk reports as its number
of data blocks the number of blocks that `blocks_free` counts on an empty disk. -/
theorem C12_total_data_blocks (hnew : Disk.new ty image = .ok disk) (calls : List Call)
    (hcalls : ∀ c ∈ calls, Installs c = false) {f : DiskFormat}
    (hf : (Session.run calls ⟨disk, [], []⟩).disk.format = some f) :
    f.totalDataBlocks = dataBlocks ty ∧
    ∀ name id empty, EmptyDisk ty name id empty → empty.blocksFree = .ok f.totalDataBlocks := by
  obtain ⟨s, rfl, h⟩ := C78_kept hnew calls hcalls
  obtain ⟨g, rfl⟩ := h.format f hf
  refine ⟨(capacity_of g).1, fun name id empty he => ?_⟩
  rw [he.blocksFree, (capacity_of g).1]
  cases s.type <;> rfl

/-- **C31** Whatever the image holds and whatever calls were made, the format of the disk reports as its number
of directory entries the number of files that can be created on an empty disk. -/
theorem C31_max_directory_entries (hnew : Disk.new ty image = .ok disk) (calls : List Call)
    (hcalls : ∀ c ∈ calls, Installs c = false) {f : DiskFormat}
    (hf : (Session.run calls ⟨disk, [], []⟩).disk.format = some f) :
    f.maxDirectoryEntries = .ok (maxSlots ty) := by
  obtain ⟨s, rfl, h⟩ := C78_kept hnew calls hcalls
  obtain ⟨g, rfl⟩ := h.format f hf
  exact (capacity_of g).2

/-- An image of a 1571 disk with any bytes has a format after it was formatted, and its capacity is right. -/
example (bytes : List Byte) (hl : bytes.length = 349696) :
    ∃ disk x f, Disk.new .d71 ⟨.memory, bytes⟩ = .ok disk ∧
      Session.run [.format [0x41] (0x31, 0x32)] ⟨disk, [], []⟩ = x ∧ x.disk.format = some f ∧
      f.totalDataBlocks = 1328 ∧ x.disk.blocksFree = .ok f.totalDataBlocks ∧ f.maxDirectoryEntries = .ok 144 := by
  obtain ⟨disk, hd⟩ := (C05_accepts_exactly .d71 ⟨.memory, bytes⟩).1.2 (by
    show bytes.length ∈ _
    rw [hl]
    decide)
  obtain ⟨x, -, h1, h2, -⟩ := C13_format hd (show ImageKind.memory ≠ .readOnlyMap by decide) []
    (name := [0x41]) (by decide) (0x31, 0x32)
  have hx : Session.run [.format [0x41] (0x31, 0x32)] ⟨disk, [], []⟩ = x := congrArg Prod.snd h1
  cases hf : x.disk.format with
  | none =>
    have := h2.blocksFree
    obtain ⟨d2, hd2⟩ : ∃ es, x.disk.directory = .ok es := ⟨_, h2.directory⟩
    unfold Disk.directory Disk.items Disk.diskFormat at hd2
    rw [hf] at hd2
    simp [collectRes] at hd2
  | some f =>
    have hf' : (Session.run [.format [0x41] (0x31, 0x32)] ⟨disk, [], []⟩).disk.format = some f := by rw [hx]; exact hf
    have hc : ∀ c ∈ [Call.format [0x41] (0x31, 0x32)], Installs c = false := by
      intro c hc
      rw [List.mem_singleton.1 hc]
      rfl
    obtain ⟨g1, g2⟩ := C12_total_data_blocks hd _ hc hf'
    exact ⟨disk, x, f, hd, hx, hf, g1, g2 _ _ _ h2, C31_max_directory_entries hd _ hc hf'⟩

end Cbm
