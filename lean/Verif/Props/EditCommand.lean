import Verif.Props.Cdisk
import Verif.Props.Commands
import Verif.Lemmas.Crash
/-!
# C56 for the command `cdisk bam edit` as a whole
-/

namespace Cbm
open Spec

variable {ext : Option (List Char)} {bytes : List Byte} {c : Contents} {d : Device} {s : Shape} {v : Volume}
  {b : Bam} {track sector : Option Nat}

/-- Opening the bytes of an image that holds a volume and a map. -/
theorem new_onDisk (h : OnDisk d s v) (hg : v.header.geos = none) (hs : Synced d s b) (hb : b.invalidated = false)
    (hbf : b.format = s.type.format) {image : Image} (hi : image.bytes = d.image.bytes) :
    ∃ disk, Disk.new s.type image = .ok disk ∧ Opened disk s v ∧ bamOf disk = some b := by
  have hw := h.wf
  have hlen : image.len = d.image.len := by unfold Image.len; rw [hi]
  have hblk : ∀ l, Device.blk ⟨image, d.geometry, []⟩ s l = d.blk s l := by
    intro l
    unfold Device.blk
    simp only [hi]
  have hw' : Wf ⟨image, d.geometry, []⟩ s :=
    ⟨hw.shape, hw.geometry, hw.tracks, hw.errorTable, hlen.trans hw.size⟩
  have hr : Header.read ⟨image, d.geometry, []⟩ s.type.format.header = Header.read d s.type.format.header := by
    rw [hw.headerRead, hw'.headerRead, hblk]
  have hod : OnDisk ⟨image, d.geometry, []⟩ s v := h.frame hw' hr (fun l _ => hblk l) (fun l _ => hblk l)
  have hfmt : formatFor s.type.format v.header = s.type.format := by
    unfold formatFor
    rw [hg]
    rfl
  have hst : storedEntries ⟨image, d.geometry, []⟩ s = b.entries := by
    refine (synced_entries (b := b) ?_ hw')
    exact hs.frame hw hw' fun l _ _ => hblk l
  refine ⟨⟨s.type.format, ⟨image, d.geometry, []⟩, some v.header, some s.type.format, some 0, [b]⟩, ?_,
    ⟨rfl, rfl, hg, rfl, hod⟩, rfl⟩
  unfold Disk.new Disk.fromImage
  rw [find_geometry hw']
  simp only
  have hp := hod.head
  rw [hw'.headerRead] at hp
  rw [initialize_of_header (disk := ⟨s.type.format, ⟨image, d.geometry, []⟩, none, none, none, []⟩) (s := s) hw' rfl hp]
  unfold initialized
  simp only [hfmt]
  rw [show (⟨s.type.format, storedEntries ⟨image, d.geometry, []⟩ s, false⟩ : Bam) = b by
    rw [hst]
    exact bam_eta hbf hb]
  rfl

/-- **C56** (partial: for sectors that exist on tracks that have an entry in the BAM) The command `cdisk bam
edit` on an image that cdisk keeps files in succeeds, and changes the image: whoever opens it afterwards
finds a map in which exactly the selected sectors are marked as asked for and all others as before, with
right counts, and the same header, listing and files. -/
theorem C56_command_partial (h : HoldsFiles ext bytes c) (allocate : Bool)
    (ht : ∀ t, track = some t → 1 ≤ t ∧ t ≤ bamTracks c.map.type)
    (hs : ∀ t n, trackSelected track t = true → sector = some n → n < sectorsPerTrack c.map.type t) :
    ∃ bytes', cmdBamEdit ext track sector allocate bytes = (.ok (), bytes') ∧ bytes'.length = bytes.length ∧
      ∀ w, ∃ disk disk' b b', Disk.openPath ext w bytes = .ok disk ∧ Disk.openPath ext w bytes' = .ok disk' ∧
        bamOf disk = some b ∧ bamOf disk' = some b' ∧ Consistent b' c.map.type ∧
        (∀ t n, freeAt b' t n = if trackSelected track t ∧ sectorSelected c.map.type sector t n then !allocate
          else freeAt b t n) ∧
        disk'.header = disk.header ∧ disk'.directory = disk.directory ∧
        ∀ name content, ReadsName disk' name content ↔ ReadsName disk name content := by
  obtain ⟨disk, he, hsz, hn, ho, hr, hi⟩ := holds_inv h
  obtain ⟨s, v, r, b, hrep⟩ := hr.rep
  have hty : c.map.type = s.type := hrep.type
  rw [hty] at ht hs hsz he ⊢
  have hready : ReadyAt disk s v r b := hrep.ready
  have hod := hready.mounted.onDisk
  obtain ⟨hoa, hb⟩ := hready.openAt
  have hts : ∀ t ∈ editTracks track, 1 ≤ t ∧ t ≤ bamTracks s.type ∧
      ∀ n, sector = some n → n < sectorsPerTrack s.type t := by
    cases track with
    | some t =>
      intro u hu
      simp only [editTracks, List.mem_singleton] at hu
      subst hu
      exact ⟨(ht u rfl).1, (ht u rfl).2, fun n => hs u n (by simp [trackSelected])⟩
    | none =>
      intro u hu
      obtain ⟨k, hk, rfl⟩ := List.mem_map.1 hu
      have hk := List.mem_range.1 hk
      have : 35 ≤ bamTracks s.type := by cases s.type <;> decide
      exact ⟨by omega, by omega, fun n => hs (k + 1) n (by simp [trackSelected]; omega)⟩
  obtain ⟨b', e, hc, hbf, hfree⟩ := edit_tracks (d := disk.dev) (geos := s.type.format.geos) allocate _ hts hb
  obtain ⟨d', hfl, -, hod', hsy⟩ := flushBam_gen (st := ⟨disk.dev, b'⟩) (P := fun _ => True) hod hc
    hready.mounted.writable fun _ _ => trivial
  have hrun : bamEdit track sector allocate disk = (.ok (), disk.withSt r ⟨d', b'⟩) := by
    unfold bamEdit
    have e1 : (M.read Disk.diskFormat : M Disk DiskFormat) disk = (.ok (fmt s.type s.type.format.geos), disk) := by
      simp [Disk.diskFormat, hready.format, fmt]
    have e2 : (M.read Disk.bamRef : M Disk Nat) disk = (.ok r, disk) := by
      simp [Disk.bamRef, hready.bam]
    rw [M.bind_of_ok e1, M.bind_of_ok e2]
    apply withBam_run hready.cell
    rw [M.bind_of_ok e]
    exact hfl
  have hlen : d'.image.bytes.length = bytes.length := by
    have h1 := hod'.wf.size
    have h2 := hod.wf.size
    unfold Image.len at h1 h2
    rw [h1, ← h2, hi]
    rfl
  refine ⟨d'.image.bytes, ?_, hlen, fun w => ?_⟩
  · refine inSession_run (x := ⟨disk.withSt r ⟨d', b'⟩, [], []⟩) ho ?_
    unfold Session.onDisk
    rw [M.run_zoom, hrun]
  · obtain ⟨k, k1, k2, k3⟩ := new_onDisk (b := b) hod hready.noGeos (hrep.saved rfl) hb.live
      hready.bamFormat (image := pathImage w bytes) (by rw [hi]; rfl)
    obtain ⟨k', k1', k2', k3'⟩ := new_onDisk (b := b') hod' hready.noGeos hsy hc.live
      (hbf.trans hready.bamFormat) (image := pathImage w d'.image.bytes) rfl
    refine ⟨k, k', b, b', ?_, ?_, k3, k3', hc, ?_, ?_, ?_, ?_⟩
    · rw [openPath_of he w hsz]
      exact k1
    · rw [openPath_of he w (by rw [hlen]; exact hsz)]
      exact k1'
    · intro t n
      rw [hfree]
      have hm : (t ∈ editTracks track) ↔ trackSelected track t = true := by
        cases track with
        | some u => simp [trackSelected, editTracks]
        | none =>
          simp only [trackSelected, editTracks, List.mem_map, List.mem_range, Bool.and_eq_true, decide_eq_true_eq]
          constructor
          · rintro ⟨k, hk, rfl⟩; omega
          · rintro ⟨h1, h2⟩; exact ⟨t - 1, by omega, by omega⟩
      by_cases hc : trackSelected track t = true
      · rw [hc]
        simp [hm.2 hc]
      · have : t ∉ editTracks track := fun hx => hc (hm.1 hx)
        simp [this, hc]
    · rw [k2.header, k2'.header]
    · rw [k2.directory, k2'.directory]
    · intro name content
      rw [k2.readsName, k2'.readsName]

/-- A formatted image; all sectors of track 1, and then the last sector of track 17 of a 1541 disk. -/
example (ext : Option (List Char)) : ∃ bytes c, HoldsFiles ext bytes c ∧
    (∃ bytes', cmdBamEdit ext (some 1) none true bytes = (.ok (), bytes')) ∧
    ∃ bytes', cmdBamEdit ext (some 17) (some 20) true bytes = (.ok (), bytes') := by
  obtain ⟨bytes, h⟩ := exists_holds ext [0x41] [0x42] (by decide)
  refine ⟨bytes, _, h, ?_, ?_⟩
  · obtain ⟨bytes', h1, -⟩ := C56_command_partial (track := some 1) (sector := none) h true
      (by rintro t ⟨⟩; show 1 ≤ 1 ∧ 1 ≤ bamTracks (namedType ext); cases namedType ext <;> decide) nofun
    exact ⟨bytes', h1⟩
  · obtain ⟨bytes', h1, -⟩ := C56_command_partial (track := some 17) (sector := some 20) h true
      (by rintro t ⟨⟩; show 1 ≤ 17 ∧ 17 ≤ bamTracks (namedType ext); cases namedType ext <;> decide)
      (by
        rintro t n ht ⟨⟩
        have : t = 17 := by simpa [trackSelected] using ht
        subst this
        show 20 < sectorsPerTrack (namedType ext) 17
        cases namedType ext <;> decide)
    exact ⟨bytes', h1⟩

end Cbm
