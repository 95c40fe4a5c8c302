import Verif.Lemmas.Crash
import Verif.Lemmas.Stale
/-!
# Disks opened read-only
-/

namespace Cbm
open Spec

variable {d : Device} {s : Shape} {v : Volume} {r i : Nat} {b : Bam} {disk : Disk} {f : FileRec}
  {name : Petscii} {type : FileType} {st : St}

/-- Flushing a BAM to a read-only image. -/
theorem flush_readOnly (hb : BamOf b s.type) (h : Wf d s) (hr : d.image.kind = .readOnlyMap) :
    b.flush d = (fail .readOnly, d) := by
  have hfmt : b.format.bam = s.type.format.bam := by rw [hb.format]
  unfold Bam.flush
  rw [checkValidity_ok hb, M.bind_of_ok (m := M.lift (.ok ())) (a := ()) (s := d) (s' := d) rfl, hfmt]
  have hsum : (s.type.format.bam.map BamSection.tracks).sum ≤ b.entries.length := by
    rw [bam_sum, hb.length]; omega
  have hne : s.type.format.bam ≠ [] := by cases s.type <;> nofun
  cases hsec : s.type.format.bam with
  | nil => exact absurd hsec hne
  | cons sec rest =>
    have hs := section_ok s.type sec (by rw [hsec]; simp)
    rw [hsec, List.map_cons, List.sum_cons] at hsum
    have he : 0 + sec.tracks ≤ b.entries.length := by omega
    have vb := h.bam_valid hs.validBitmap
    obtain ⟨b1, r1, l1, -⟩ := renderBitmaps_ok hs he (h.blk_length vb)
    have hmut : ∀ l f, M.sectorMut l f d = (fail .readOnly, d) := by
      intro l f
      unfold M.sectorMut
      exact M.update_error (sectorMut_readOnly hr f)
    have : writeSection b.entries 0 sec d = (fail .readOnly, d) := by
      unfold writeSection
      rw [M.bind_of_ok (a := d.blk s sec.bitmapLocation) (s' := d) (by rw [M.run_read, h.sector vb])]
      rw [M.bind_of_ok (a := b1) (s' := d) (by rw [M.run_lift, r1])]
      by_cases hne : sec.bitmapLocation = sec.freeLocation
      · rw [if_neg (by simp [hne])]
        obtain ⟨b2, r2, -⟩ := renderCounts_ok hs he l1
        rw [M.bind_of_ok (a := b2) (s' := d) (by rw [M.run_lift, r2])]
        exact hmut _ _
      · rw [if_pos hne]
        exact M.bind_of_error (hmut _ _)
    unfold writeSections
    exact M.bind_of_error this

/-- A disk that holds a volume, with the BAM in memory, on a read-only image. -/
structure Locked (disk : Disk) (s : Shape) (v : Volume) (r : Nat) (b : Bam) : Prop where
  opened : Opened disk s v
  bam : disk.bam = some r
  cell : disk.cells[r]? = some b
  recorded : Recorded b s.type v
  kind : disk.dev.image.kind = .readOnlyMap

theorem Locked.blocksFree (h : Locked disk s v r b) : disk.blocksFree = .ok (v.room s.type) := by
  rw [← blocksFree_volume h.recorded h.opened.onDisk]
  unfold Disk.blocksFree Disk.bamRef indexRes
  rw [h.bam]
  simp only [res_bind_ok]
  rw [h.cell]
  rfl

/-- Opening a saved image read-only. -/
theorem open_readOnly (h : ReadyAt disk s v r b) (hs : Synced disk.dev s b) :
    ∃ disk', Disk.new s.type ⟨.readOnlyMap, disk.dev.image.bytes⟩ = .ok disk' ∧
      Locked disk' s v 0 b := by
  have hw := h.mounted.onDisk.wf
  generalize hd : (⟨⟨.readOnlyMap, disk.dev.image.bytes⟩, disk.dev.geometry, []⟩ : Device) = d
  have hw' : Wf d s := by
    subst hd
    exact ⟨hw.shape, hw.geometry, hw.tracks, hw.errorTable, hw.size⟩
  have hblk : ∀ l, d.blk s l = disk.dev.blk s l := by subst hd; intro l; rfl
  have hr : Header.read d s.type.format.header = Header.read disk.dev s.type.format.header := by
    rw [hw.headerRead, hw'.headerRead, hblk]
  have hod : OnDisk d s v :=
    h.mounted.onDisk.frame hw' hr (fun l _ => hblk l) (fun l _ => hblk l)
  refine ⟨⟨s.type.format, d, some v.header, some s.type.format, some 0, [b]⟩, ?_,
    ⟨rfl, rfl, h.noGeos, rfl, hod⟩, rfl, rfl, h.mounted.recorded, by subst hd; rfl⟩
  unfold Disk.new Disk.fromImage
  have hg := find_geometry hw
  rw [show Geometry.findBySize (Image.len ⟨.readOnlyMap, disk.dev.image.bytes⟩) s.type.geometries =
    some disk.dev.geometry from hg]
  simp only [hd]
  have hp := hod.head
  rw [hw'.headerRead] at hp
  rw [initialize_of_header (disk := ⟨s.type.format, d, none, none, none, []⟩) (s := s) hw' rfl hp]
  have hst : storedEntries d s = b.entries := by
    rw [← synced_entries hs hw]
    subst hd
    rfl
  unfold initialized
  have hfmt : formatFor s.type.format v.header = s.type.format := by
    unfold formatFor
    rw [h.noGeos]; rfl
  simp only [hfmt]
  rw [hst, bam_eta h.bamFormat h.mounted.recorded.consistent.live]
  rfl

theorem blocksFree_withSt {b' : Bam} {n : Nat} (h : Locked disk s v r b) (hf : b'.blocksFree = .ok n) :
    (disk.withSt r ⟨disk.dev, b'⟩).blocksFree = .ok n := by
  have hc : (disk.withSt r ⟨disk.dev, b'⟩).cells[r]? = some b' := by
    show (disk.cells.set r b')[r]? = _
    rw [List.getElem?_set_self (List.getElem?_eq_some_iff.1 h.cell).1]
  unfold Disk.blocksFree Disk.bamRef indexRes
  rw [show (disk.withSt r ⟨disk.dev, b'⟩).bam = some r from h.bam]
  simp only [res_bind_ok]
  rw [hc]
  exact hf

/-- The same volume on a writable device. -/
theorem thawed (h : OnDisk d s v) : ∃ d', OnDisk d' s v ∧ Writable d' := by
  have hw := h.wf
  generalize hd : ({ d with image := ⟨.memory, d.image.bytes⟩ } : Device) = d'
  have hw' : Wf d' s := by
    subst hd
    exact ⟨hw.shape, hw.geometry, hw.tracks, hw.errorTable, hw.size⟩
  have hblk : ∀ l, d'.blk s l = d.blk s l := by subst hd; intro l; rfl
  have hr : Header.read d' s.type.format.header = Header.read d s.type.format.header := by
    rw [hw.headerRead, hw'.headerRead, hblk]
  exact ⟨d', h.frame hw' hr (fun l _ => hblk l) (fun l _ => hblk l), by subst hd; nofun⟩

theorem exists_created (h : OnDisk d s v) (hr : Recorded b s.type v) (hi : v.slots[i]? = some none)
    (hn : name.length ≤ 16) {first : Location} (hnf : b.nextFreeBlock none = .ok first) :
    ∃ d', OnDisk d' s (v.set i (some (newFile name .PRG first))) := by
  obtain ⟨d1, h1, hw1⟩ := thawed h
  rcases createIn_spec (st := ⟨d1, b⟩) (slot := DirectoryEntry.parse32 [] (some (slotPos v.dir i)))
    (name := name) (type := .PRG) ⟨h1, hr, hw1⟩ hi rfl hn (by decide) with
    ⟨-, st', first', hc, -, -, hm, -⟩ | ⟨-, hc⟩
  · obtain ⟨f2, hf2, he⟩ := createIn_inv hc
    have : first' = first := by
      have e1 := congrArg DirectoryEntry.firstSector he
      rw [show b.nextFreeBlock none = .ok f2 from hf2] at hnf
      rw [← Except.ok.inj hnf]
      exact e1
    subst this
    exact ⟨st'.dev, hm.onDisk⟩
  · exfalso
    unfold createIn at hc
    rcases nextFreeBlock_volume hr h1 with ⟨h0, -⟩ | ⟨-, h0⟩
    · rcases createIn_spec (st := ⟨d1, b⟩) (slot := DirectoryEntry.parse32 [] (some (slotPos v.dir i)))
        (name := name) (type := .PRG) ⟨h1, hr, hw1⟩ hi rfl hn (by decide) with
        ⟨-, st', first', hc', -⟩ | ⟨hz, -⟩
      · unfold createIn at hc'
        rw [hc'] at hc
        cases (Prod.ext_iff.1 hc).1
      · omega
    · rw [h0] at hnf; cases hnf

theorem exists_deleted {file : File} (h : OnDisk d s v) (hr : Recorded b s.type v)
    (hh : Handle file v i f) : ∃ d', OnDisk d' s (v.set i none) := by
  obtain ⟨d1, h1, hw1⟩ := thawed h
  obtain ⟨x, -, hm, -⟩ := delete_spec (st := ⟨d1, b⟩) ⟨h1, hr, hw1⟩ hh
  exact ⟨_, hm.onDisk⟩

/-- `create_file` on a read-only disk with a free slot: the block is allocated in memory, then
the write is refused. -/
theorem Locked.create (h : Locked disk s v r b) (hn : name.length ≤ 16)
    (hnew : ∀ g ∈ v.files, g.name ≠ name) (hi : v.slots[i]? = some none)
    (hroom : 0 < v.room s.type) :
    ∃ disk', Disk.createFile name type .linear disk = (fail .readOnly, disk') ∧
      disk'.blocksFree = .ok (v.room s.type - 1) := by
  have hod := h.opened.onDisk
  have hitems := h.opened.items
  have havail : disk.checkFilenameAvailability name = .ok () := by
    unfold Disk.checkFilenameAvailability Disk.findDirectoryEntry
    rw [hitems]
    rcases find_volume (v := v) name with ⟨j, g, hj, hgn, -, -⟩ | ⟨-, hf⟩
    · exact absurd hgn (hnew g (mem_files.2 ⟨j, hj⟩))
    · rw [hf]
  have hfmt : disk.diskFormat = .ok s.type.format := by
    unfold Disk.diskFormat; rw [h.opened.format]
  have hslot : ∃ slot, Disk.nextFreeDirectoryEntry disk = (.ok slot, disk) := by
    rcases scanFree_volume hod s.type.format.firstDirectoryLocation with ⟨j, -, -, hs⟩ | ⟨hno, -⟩
    · rw [← firstDirectory_format s.type] at hs
      refine ⟨DirectoryEntry.parse32 (slotAt disk.dev s v.dir j) (some (slotPos v.dir j)), ?_⟩
      unfold Disk.nextFreeDirectoryEntry
      rw [M.bind_of_ok (m := M.get) (s := disk) (s' := disk) (a := disk) rfl]
      rw [M.bind_of_ok (s := disk) (s' := disk) (a := s.type.format) (by rw [M.run_lift, hfmt])]
      rw [M.bind_of_ok (s := disk) (s' := disk) (by rw [M.run_lift, hs])]
      rfl
    · exact absurd hi (hno i)
  obtain ⟨slot, hslot⟩ := hslot
  rcases nextFreeBlock_volume h.recorded hod with ⟨-, first, hnf, hdl, hnu⟩ | ⟨h0, -⟩
  · obtain ⟨b', hb', hr', hbf⟩ := h.recorded.allocate (f := newFile name .PRG first) hi hdl.1
      (fun m => by simp [slotLocs, newFile])
    have hin : createIn slot name type ⟨disk.dev, b⟩ = (fail .readOnly, ⟨disk.dev, b'⟩) := by
      unfold createIn
      rw [M.bind_of_ok (a := first) (s' := ⟨disk.dev, b⟩) (by
        unfold St.readBam; rw [M.run_read]; exact congrArg (·, _) hnf)]
      rw [M.bind_of_ok (a := ()) (s' := ⟨disk.dev, b'⟩) (by
        unfold St.updBam
        exact M.update_ok (by simp only [hb']; rfl))]
      exact M.bind_of_error (by
        unfold St.updDev
        exact M.update_error (by simp only [sectorMut_readOnly h.kind]; rfl))
    refine ⟨disk.withSt r ⟨disk.dev, b'⟩, ?_, ?_⟩
    · unfold Disk.createFile
      rw [if_neg (by simp)]
      rw [M.bind_of_ok (a := ()) (s' := disk) (by
        rw [M.run_lift]; unfold checkFilenameValidity; rw [if_neg (Nat.not_lt.2 hn)])]
      rw [M.bind_of_ok (a := ()) (s' := disk) (by rw [M.run_read, havail])]
      rw [M.bind_of_ok hslot]
      rw [M.bind_of_ok (a := r) (s' := disk) (by rw [M.run_read]; unfold Disk.bamRef; rw [h.bam])]
      exact M.bind_of_error (withBam_run h.cell hin)
    · obtain ⟨d', hd'⟩ := exists_created hod h.recorded hi hn hnf
      have hf := blocksFree_volume hr' hd'
      rw [room_create hi rfl] at hf
      exact blocksFree_withSt h hf
  · omega

/-- `delete` on a read-only disk: the blocks are freed in memory, then the write is refused. -/
theorem Locked.delete (h : Locked disk s v r b) {file : File} (hh : Handle file v i f) :
    ∃ b', File.delete ⟨file, ⟨disk.dev, b⟩⟩ = (fail .readOnly, ⟨file, ⟨disk.dev, b'⟩⟩) ∧
      (disk.withSt r ⟨disk.dev, b'⟩).blocksFree = .ok (v.room s.type + f.locs.length) := by
  have hod := h.opened.onDisk
  obtain ⟨hs0, e, y, he, hp, hfs, hfn, hx, hxl⟩ := id hh
  subst he
  have hc := hod.chains f (mem_files.2 ⟨i, hs0⟩)
  have hdl : ∀ l ∈ f.locs, DataLoc s.type l := fun l hl =>
    hod.dataLocs l (List.mem_flatMap.2 ⟨f, mem_files.2 ⟨i, hs0⟩, hl⟩)
  have hhead : f.locs.head? = some e.firstSector := by
    rw [hfs]
    obtain ⟨init, t, hl, -⟩ := hc.last
    unfold FileRec.first
    rw [hl]
    cases init <;> rfl
  have hlocs := chainLocations_chain hod.wf hc hhead
  obtain ⟨b1, r1, f1, o1, c1, fr1⟩ := freeAll_ok disk.dev f.locs (b := b) h.recorded.consistent.toBamOf
    (fun l hl => (hdl l hl).1)
  have hflush : St.flushBam ⟨disk.dev, b1⟩ = (fail .readOnly, ⟨disk.dev, b1⟩) := by
    unfold St.flushBam
    rw [M.bind_of_ok (m := M.get) (s := (⟨disk.dev, b1⟩ : St)) (s' := ⟨disk.dev, b1⟩) (a := ⟨disk.dev, b1⟩) rfl]
    unfold St.onDev
    rw [M.run_zoom, flush_readOnly o1 hod.wf h.kind]
  have hrem : removeChain e.firstSector ⟨disk.dev, b⟩ = (fail .readOnly, ⟨disk.dev, b1⟩) := by
    unfold removeChain
    rw [M.bind_of_ok (a := f.locs) (s' := ⟨disk.dev, b⟩) (by
      unfold St.readDev; rw [M.run_read]; exact congrArg (·, _) hlocs)]
    rw [M.bind_of_ok r1]
    exact hflush
  refine ⟨b1, ?_, ?_⟩
  · unfold File.delete
    rw [M.bind_of_ok (m := M.get) (s := (⟨.linear e, ⟨disk.dev, b⟩⟩ : FSt)) rfl]
    exact M.bind_of_error (by rw [M.run_zoom]; simp only [File.freeBlocks, hrem])
  · have hr1 := h.recorded.remove hod hs0 (c1 h.recorded.consistent) fr1
    obtain ⟨d', hd'⟩ := exists_deleted hod h.recorded hh
    have hf := blocksFree_volume hr1 hd'
    rw [room_remove hod hs0] at hf
    exact blocksFree_withSt h hf

end Cbm
