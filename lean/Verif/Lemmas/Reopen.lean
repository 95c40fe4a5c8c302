import Verif.Lemmas.Format
import Verif.Lemmas.Rep
import Verif.Props.Open
/-!
# Reading a disk again, and writing its header back
-/

namespace Cbm
open Spec

variable {d d' : Device} {s : Shape} {v : Volume} {r : Nat} {disk : Disk} {b : Bam} {ty : DiskType}

theorem header_bam_apart (ty : DiskType) (j : Nat) : headerArea ty (headerSector ty) j →
    ¬ bamArea ty (headerSector ty) j := by
  cases ty
  · rintro ⟨-, h⟩ ⟨-, h'⟩; omega
  · rintro ⟨-, h⟩ (⟨-, h'⟩ | ⟨h', -⟩)
    · omega
    · simp [headerSector] at h'
  · rintro - ⟨h' | h', -⟩ <;> simp [headerSector] at h'

theorem headerArea_loc {l : Location} {j : Nat} (h : headerArea ty l j) : l = headerSector ty := by
  cases ty <;> exact h.1

/-- The stored BAM depends only on the bytes of the BAM area. -/
theorem Spec.Synced.area (hs : Synced d s b) (h : Wf d s) (h' : Wf d' s)
    (hb : ∀ l j, s.Valid l → bamArea s.type l j → (d'.blk s l)[j]? = (d.blk s l)[j]?) :
    Synced d' s b := by
  unfold Synced at hs ⊢
  rw [h.readBam _ rfl] at hs
  rw [h'.readBam _ rfl]
  have : storedEntries d' s = storedEntries d s := by
    unfold storedEntries
    congr 1
    apply List.map_congr_left
    intro sec hsec
    apply List.map_congr_left
    intro i hi
    have hi : i < sec.tracks := List.mem_range.1 hi
    have hok := section_ok s.type sec hsec
    have hin : ∀ l j, InSection sec l j → bamArea s.type l j := fun l j hj =>
      inSections_area _ _ _ ⟨sec, hsec, hj⟩
    have e1 : byteAt (d'.blk s sec.freeLocation) (sec.freeOffset + i * sec.freeStride) =
        byteAt (d.blk s sec.freeLocation) (sec.freeOffset + i * sec.freeStride) := by
      simp only [byteAt, List.getD_eq_getElem?_getD]
      rw [hb _ _ (h.bam_valid hok.validFree) (hin _ _ (inSection_free hi))]
    have e2 : slice (d'.blk s sec.bitmapLocation) (sec.bitmapOffset + i * sec.bitmapStride)
          sec.bitmapSize =
        slice (d.blk s sec.bitmapLocation) (sec.bitmapOffset + i * sec.bitmapStride)
          sec.bitmapSize := by
      apply List.ext_getElem?
      intro k
      simp only [slice, List.getElem?_take, List.getElem?_drop]
      split
      · rename_i hk
        exact hb _ _ (h.bam_valid hok.validBitmap) (hin _ _ (inSection_bitmap hi hk))
      · rfl
    unfold storedEntry
    rw [e1, e2]
  rw [this]; exact hs

theorem headerRead_name {h : Header} (hw : Wf d s)
    (hr : Header.read d s.type.format.header = .ok h) :
    h.diskName.length = 16 ∧ h.geos = GEOSDiskHeader.new (d.blk s (headerSector s.type)) := by
  have hv := header_valid s hw.shape
  rw [hw.headerRead, headerSector_format] at hr
  unfold Header.parse at hr
  split at hr
  · cases hr
    refine ⟨?_, rfl⟩
    rw [← headerSector_format]
    have hl := hw.blk_length hv
    simp only [slice, List.length_take, List.length_drop, hl]
    cases s.type <;> rfl
  · cases hr

theorem paddedName_full {n : List Byte} (h : n.length = 16) : paddedName n = n := by
  unfold paddedName
  rw [h]; simp

theorem flushHeader_ready (h : ReadyAt disk s v r b) :
    ∃ d', Disk.flushHeader disk = (.ok (), { disk with dev := d' }) ∧
      ReadyAt { disk with dev := d' } s v r b ∧ (Synced disk.dev s b → Synced d' s b) ∧
      (∃ new, d' = disk.dev.put s (headerSector s.type) new ∧ new.length = 256) ∧
      ∀ l j, s.Valid l → ¬ headerArea s.type l j → (d'.blk s l)[j]? = (disk.dev.blk s l)[j]? := by
  have hw := h.mounted.onDisk.wf
  obtain ⟨hn, hg⟩ := headerRead_name hw h.mounted.onDisk.head
  obtain ⟨new, hrun, hlen, hv, hread, hfr⟩ :=
    headerWrite_ok (hd := v.header) hw h.mounted.writable (by omega)
  have hsame : ({ v.header with diskName := paddedName v.header.diskName
                                geos := GEOSDiskHeader.new (disk.dev.blk s (headerSector s.type)) } :
      Header) = v.header := by
    rw [← hg, paddedName_full hn]
  rw [hsame] at hread
  have hsys : systemSector s.type (headerSector s.type) = true := by cases s.type <;> rfl
  have hframe : ∀ l j, s.Valid l → ¬ headerArea s.type l j →
      ((disk.dev.put s (headerSector s.type) new).blk s l)[j]? = (disk.dev.blk s l)[j]? := by
    intro l j hl hj
    rw [hw.blk_put hv hl hlen]
    split
    · rename_i he
      subst he
      exact hfr j hj
    · rfl
  refine ⟨disk.dev.put s (headerSector s.type) new, ?_, ?_, ?_, ⟨new, rfl, hlen⟩, hframe⟩
  · unfold Disk.flushHeader
    rw [M.bind_of_ok (s := disk) (s' := disk) (a := v.header)
        (by rw [M.run_read]; unfold Disk.getHeader; rw [h.header]),
      M.bind_of_ok (m := M.get) (s := disk) (s' := disk) (a := disk) rfl]
    refine onDev_run ?_
    rw [h.native]
    exact hrun
  · refine ⟨h.native, h.format, h.header, h.noGeos, h.bam, h.cell, h.bamFormat,
      ⟨?_, h.mounted.recorded, h.mounted.writable.put _⟩, h.exact⟩
    exact h.mounted.onDisk.system_writes (ws := [(headerSector s.type, new)])
      (WsOK.single hv hlen) (by simpa using hsys) (hread.trans h.mounted.onDisk.head.symm)
  · intro hs
    exact hs.area hw (hw.put hv hlen) fun l j hl hj => hframe l j hl fun hh => by
      have := headerArea_loc hh
      subst this
      exact header_bam_apart _ _ hh hj

theorem synced_entries (hs : Synced d s b) (h : Wf d s) : storedEntries d s = b.entries := by
  unfold Synced at hs
  rw [h.readBam _ rfl] at hs
  simpa using hs

theorem bam_eta (hf : b.format = s.type.format) (hc : b.invalidated = false) :
    (⟨s.type.format, b.entries, false⟩ : Bam) = b := by
  cases b
  simp only at hf hc
  rw [hf, hc]

/-- Re-reading a disk whose BAM is saved changes nothing. -/
theorem initialize_ready (h : ReadyAt disk s v r b) (hs : Synced disk.dev s b) :
    disk.initialize = .ok disk := by
  have hw := h.mounted.onDisk.wf
  have hp := h.mounted.onDisk.head
  rw [hw.headerRead] at hp
  rw [initialize_of_header hw h.native hp]
  unfold initialized
  have hfmt : formatFor disk.native v.header = s.type.format := by
    unfold formatFor
    rw [h.noGeos, h.native]; rfl
  have hset : disk.cells.set r b = disk.cells := by
    apply List.ext_getElem?
    intro k
    rw [List.getElem?_set]
    split
    · rename_i he
      subst he
      split
      · exact h.cell.symm
      · rename_i hk
        exact (List.getElem?_eq_none (by omega)).symm
    · rfl
  rw [hfmt, synced_entries hs hw, bam_eta h.bamFormat h.mounted.recorded.consistent.live]
  unfold Disk.setBam
  rw [h.bam, ← h.header, ← h.format]
  simp only [hset]
  rw [← h.bam]

theorem find_geometry (h : Wf d s) :
    Geometry.findBySize d.image.len s.type.geometries = some d.geometry := by
  have hsz : d.geometry.size = d.image.len := by
    have := geometry_size h.geometry
    rw [this, Image.len, h.size, h.tracks, h.errorTable]
  cases hf : Geometry.findBySize d.image.len s.type.geometries with
  | none => exact absurd hsz (findBySize_none hf _ h.geometry)
  | some g =>
    obtain ⟨hg, he⟩ := findBySize_some hf
    have hm : d.image.len ∈ imageSizes s.type := (mem_sizes _ _).2 ⟨g, hg, he⟩
    rw [(C05_unambiguous s.type s.type _ hm hm).2 g hg _ h.geometry he hsz]

/-- Opening the image of a disk whose BAM is saved gives a disk in the same state. -/
theorem reopen_ready (h : ReadyAt disk s v r b) (hs : Synced disk.dev s b) :
    ReadyAt ⟨s.type.format, ⟨disk.dev.image, disk.dev.geometry, []⟩, some v.header,
        some s.type.format, some 0, [b]⟩ s v 0 b ∧
      Disk.new s.type disk.dev.image = .ok ⟨s.type.format,
        ⟨disk.dev.image, disk.dev.geometry, []⟩, some v.header, some s.type.format, some 0, [b]⟩ := by
  have hw := h.mounted.onDisk.wf
  have hw' : Wf ⟨disk.dev.image, disk.dev.geometry, []⟩ s :=
    ⟨hw.shape, hw.geometry, hw.tracks, hw.errorTable, hw.size⟩
  have hr : Header.read ⟨disk.dev.image, disk.dev.geometry, []⟩ s.type.format.header =
      Header.read disk.dev s.type.format.header := by
    rw [hw.headerRead, hw'.headerRead]; rfl
  have hod : OnDisk ⟨disk.dev.image, disk.dev.geometry, []⟩ s v :=
    h.mounted.onDisk.frame hw' hr (fun _ _ => rfl) (fun _ _ => rfl)
  constructor
  · exact ⟨rfl, rfl, rfl, h.noGeos, rfl, rfl, h.bamFormat, ⟨hod, h.mounted.recorded,
      h.mounted.writable⟩, h.exact⟩
  · unfold Disk.new Disk.fromImage
    rw [find_geometry hw]
    simp only
    have hp := hod.head
    rw [hw'.headerRead] at hp
    rw [initialize_of_header (disk := ⟨s.type.format, ⟨disk.dev.image, disk.dev.geometry, []⟩, none,
      none, none, []⟩) (s := s) hw' rfl hp]
    have hst : storedEntries ⟨disk.dev.image, disk.dev.geometry, []⟩ s = b.entries := by
      rw [← synced_entries hs hw]; rfl
    unfold initialized
    have hfmt : formatFor s.type.format v.header = s.type.format := by
      unfold formatFor
      rw [h.noGeos]; rfl
    simp only [hfmt]
    rw [hst, bam_eta h.bamFormat h.mounted.recorded.consistent.live]
    rfl

end Cbm
