import Verif.Lemmas.StoreFacts
/-!
# Where programs start: opening an image, formatting it
-/

namespace Cbm
open Spec

variable {s : Shape} {v : Volume} {r : Nat} {b : Bam} {a a' : Store} {x x' : Session}
  {disk : Disk} {image : Image} {ty : DiskType}

/-- What opening an image gives. -/
theorem new_ok (h : Disk.new ty image = .ok disk) :
    ∃ s : Shape, s.type = ty ∧ Wf disk.dev s ∧ disk.native = ty.format ∧ disk.dev.image = image ∧
      disk.dev.hist = [] ∧ ∀ r, disk.bam = some r → r < disk.cells.length := by
  unfold Disk.new Disk.fromImage at h
  cases hf : Geometry.findBySize image.len ty.geometries with
  | none => rw [hf] at h; cases h
  | some g =>
    rw [hf] at h
    simp only at h
    obtain ⟨hg, hs⟩ := findBySize_some hf
    have hw : Wf (Device.mk image g []) ⟨ty, g.tracks, g.withErrorTable⟩ :=
      wf_of_size hg rfl hs.symm
    rcases parse_cases ty.format.header (Device.blk (Device.mk image g [])
        ⟨ty, g.tracks, g.withErrorTable⟩ ty.format.header.location) with ⟨hd, hp⟩ | hp
    · rw [initialize_of_header (disk := ⟨ty.format, ⟨image, g, []⟩, none, none, none, []⟩) hw rfl hp]
        at h
      cases h
      exact ⟨_, rfl, hw, rfl, rfl, rfl, by
        intro r hr
        simp only [initialized, setBam_some, Disk.cellRef, Disk.cellsWith] at hr ⊢
        cases hr
        simp⟩
    · rw [initialize_of_no_header (disk := ⟨ty.format, ⟨image, g, []⟩, none, none, none, []⟩) hw rfl
        hp] at h
      cases h
      exact ⟨_, rfl, hw, rfl, rfl, rfl, by
        intro r hr
        simp only [uninitialized, Disk.setBam] at hr
        cases hr⟩

theorem storeOf_empty (name : List Byte) (id : Byte × Byte) :
    storeOf ty (emptyVolume ty name id) true = Store.empty ty name id := by
  simp [storeOf, emptyVolume, Store.empty, freshHeader]

/-- Formatting any writable disk. -/
theorem reaches_format (h : Wf disk.dev s) (hw : Writable disk.dev)
    (hn : disk.native = s.type.format) (hr : ∀ r, disk.bam = some r → r < disk.cells.length)
    {name : Petscii} (hname : name.length ≤ 16) (id : Byte × Byte) :
    ∃ x, Session.step (.format name id) ⟨disk, [], []⟩ = (.ok (), x) ∧
      Reaches x (Store.empty s.type name id) := by
  obtain ⟨d', b, ws, hrun, hready, hsync, -, -, -, -⟩ := writeFormat_ok h hw hn hr hname id
  refine ⟨⟨⟨disk.native, d', some (freshHeader s.type name id), some s.type.format,
    some disk.cellRef, disk.cellsWith b⟩, [], []⟩, onDisk_run hrun, ?_⟩
  refine ⟨_, s, _, _, b, true, [], [], hready, ?_, fun _ => hsync, rfl, ?_⟩
  · intro f hf
    simp [emptyVolume, Volume.files] at hf
  · rw [storeOf_empty]; rfl

theorem reaches_new (h : Disk.new ty image = .ok disk) (hw : image.kind ≠ .readOnlyMap)
    {name : Petscii} (hname : name.length ≤ 16) (id : Byte × Byte) :
    ∃ x, Session.step (.format name id) ⟨disk, [], []⟩ = (.ok (), x) ∧
      Reaches x (Store.empty ty name id) := by
  obtain ⟨s, rfl, hwf, hn, hi, -, hr⟩ := new_ok h
  exact reaches_format hwf (by unfold Writable; rw [hi]; exact hw) hn hr hname id

/-- There is such a disk of each type. -/
theorem exists_formatted (ty : DiskType) (name : Petscii) (hname : name.length ≤ 16)
    (id : Byte × Byte) : ∃ x, Reaches x (Store.empty ty name id) := by
  have hlen : (Image.openMemory (match ty with
      | .d64 => 174848 | .d71 => 349696 | .d81 => 819200)).bytes.length ∈ imageSizes ty := by
    simp only [Image.openMemory, List.length_replicate]
    cases ty <;> decide
  obtain ⟨disk, hd⟩ := (C05_accepts_exactly ty _).1.2 hlen
  obtain ⟨x, -, hx⟩ := reaches_new hd (by simp [Image.openMemory]) hname id
  exact ⟨x, hx⟩

/-- Reading the image of a saved disk again. -/
theorem Rep.reopen (h : Rep x s v r b a) (hs : a.saved = true) :
    ∃ disk', Disk.new a.type x.disk.dev.image = .ok disk' ∧ disk'.bam = some 0 ∧
      disk'.cells = [b] ∧ disk'.dev.image = x.disk.dev.image ∧
      Core disk' s v 0 b { a with handles := [] } := by
  obtain ⟨hr, hn⟩ := reopen_ready h.ready (h.saved hs)
  exact ⟨_, (congrArg (fun t => Disk.new t x.disk.dev.image) h.type).trans hn, rfl, rfl, rfl, hr, h.type, h.label, h.slots, h.settled⟩

end Cbm
