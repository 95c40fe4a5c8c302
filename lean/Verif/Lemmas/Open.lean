import Verif.Model.Disk
import Verif.Lemmas.BamFlush
/-!
# Opening an image
-/

namespace Cbm
open Spec

theorem findBySize_some {n : Nat} {g : Geometry} : ∀ {gs : List Geometry},
    Geometry.findBySize n gs = some g → g ∈ gs ∧ g.size = n
  | [], h => by cases h
  | x :: xs, h => by
    unfold Geometry.findBySize at h
    split at h
    · rename_i he
      cases h
      exact ⟨by simp, by simpa using he⟩
    · have := findBySize_some h
      exact ⟨by simp [this.1], this.2⟩

theorem findBySize_none {n : Nat} : ∀ {gs : List Geometry},
    Geometry.findBySize n gs = none → ∀ g ∈ gs, g.size ≠ n
  | [], _, _, hg => by cases hg
  | x :: xs, h, g, hg => by
    unfold Geometry.findBySize at h
    split at h
    · cases h
    · rename_i he
      rcases List.mem_cons.1 hg with rfl | hg
      · simpa using he
      · exact findBySize_none h g hg

/-- A device of the right size is well-formed. -/
theorem wf_of_size {ty : DiskType} {g : Geometry} (hg : g ∈ ty.geometries) {d : Device}
    (hd : d.geometry = g) (hs : d.image.bytes.length = g.size) :
    Wf d ⟨ty, g.tracks, g.withErrorTable⟩ := by
  refine ⟨shape_of_geometry hg, ?_, ?_, ?_, ?_⟩
  · rw [hd]; exact hg
  · rw [hd]
  · rw [hd]
  · rw [hs, geometry_size hg]

theorem header_valid : ∀ s ∈ shapes, s.Valid s.type.format.header.location := by decide

theorem Spec.Wf.headerRead {d : Device} {s : Shape} (h : Wf d s) :
    Header.read d s.type.format.header =
      Header.parse s.type.format.header (d.blk s s.type.format.header.location) := by
  unfold Header.read
  rw [h.sector (header_valid s h.shape)]; rfl

/-- The disk after a successful header check. -/
def initialized (disk : Disk) (s : Shape) (h : Header) : Disk :=
  { disk.setBam (some ⟨formatFor disk.native h, storedEntries disk.dev s, false⟩) with
    header := some h, format := some (formatFor disk.native h) }

/-- The disk after a failed header check. -/
def uninitialized (disk : Disk) : Disk :=
  { disk.setBam none with header := none, format := none }

theorem initialize_of_header {disk : Disk} {s : Shape} (hw : Wf disk.dev s)
    (hn : disk.native = s.type.format) {h : Header}
    (hh : Header.parse s.type.format.header
      (disk.dev.blk s s.type.format.header.location) = .ok h) :
    disk.initialize = .ok (initialized disk s h) := by
  unfold Disk.initialize initialized
  rw [hn, hw.headerRead, hh]
  simp only [okOpt, res_bind_ok]
  rw [hw.readBam _ rfl]
  rfl

theorem initialize_of_no_header {disk : Disk} {s : Shape} (hw : Wf disk.dev s)
    (hn : disk.native = s.type.format) {e : DiskError}
    (hh : Header.parse s.type.format.header
      (disk.dev.blk s s.type.format.header.location) = fail e) :
    disk.initialize = .ok (uninitialized disk) := by
  unfold Disk.initialize uninitialized
  rw [hn, hw.headerRead, hh]
  rfl

theorem parse_cases (hf : HeaderFormat) (block : List Byte) :
    (∃ h, Header.parse hf block = .ok h) ∨ Header.parse hf block = fail .invalidHeader := by
  unfold Header.parse
  split
  · exact Or.inl ⟨_, rfl⟩
  · exact Or.inr rfl

theorem initialize_ok {disk : Disk} {s : Shape} (hw : Wf disk.dev s)
    (hn : disk.native = s.type.format) : ∃ disk', disk.initialize = .ok disk' := by
  rcases parse_cases s.type.format.header (disk.dev.blk s s.type.format.header.location) with
    ⟨h, hh⟩ | hh
  · exact ⟨_, initialize_of_header hw hn hh⟩
  · exact ⟨_, initialize_of_no_header hw hn hh⟩

end Cbm
