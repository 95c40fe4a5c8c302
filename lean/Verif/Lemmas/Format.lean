import Verif.Spec.Format
import Verif.Lemmas.Header
import Verif.Lemmas.ValidateReady
/-!
# Formatting
-/

namespace Cbm
open Spec

variable {d : Device} {s : Shape} {disk : Disk} {b : Bam} {ty : DiskType} {l : Location}

theorem shape_rows : ∀ s ∈ shapes, ∀ t ∈ List.range s.tracks,
    (trackRow s.type.format.tracks (t + 1)).map Track.sectors =
      .ok (sectorsPerTrack s.type (t + 1)) := by
  decide +kernel

theorem formatLocations_ok (h : Wf d s) :
    ∃ locs, formatLocations s.type.format d.geometry = .ok locs ∧ ∀ l, l ∈ locs ↔ s.Valid l := by
  have hfirst : s.type.format.firstTrack = 1 := by cases s.type <;> rfl
  have ht := shape_tracks_le s h.shape
  unfold formatLocations
  rw [hfirst, h.tracks]
  rw [mapRes_ok (g := fun i => (List.range (sectorsPerTrack s.type (1 + i))).map fun k =>
    (⟨UInt8.ofNat (1 + i), UInt8.ofNat k⟩ : Location))]
  · refine ⟨_, rfl, ?_⟩
    intro l
    simp only [List.mem_flatten, List.mem_map, List.mem_range]
    constructor
    · rintro ⟨_, ⟨i, hi, rfl⟩, hl⟩
      simp only [List.mem_map, List.mem_range] at hl
      obtain ⟨k, hk, rfl⟩ := hl
      have := sectorsPerTrack_le s.type (1 + i)
      show ValidLoc _ _ _
      unfold ValidLoc
      rw [show (UInt8.ofNat (1 + i)).toNat = 1 + i from by rw [UInt8.toNat_ofNat']; omega,
        show (UInt8.ofNat k).toNat = k from by rw [UInt8.toNat_ofNat']; omega]
      exact ⟨by omega, by omega, hk⟩
    · rintro ⟨h1, h2, h3⟩
      have he : 1 + (l.track.toNat - 1) = l.track.toNat := by omega
      refine ⟨_, ⟨l.track.toNat - 1, by omega, rfl⟩, ?_⟩
      simp only [List.mem_map, List.mem_range]
      rw [he]
      exact ⟨l.sector.toNat, h3, by simp⟩
  · intro i hi
    rw [List.mem_range] at hi
    have := shape_rows s h.shape i (List.mem_range.2 (by omega))
    rw [show 1 + i = i + 1 from Nat.add_comm _ _]
    cases hr : trackRow s.type.format.tracks (i + 1) with
    | error e => rw [hr] at this; cases this
    | ok row =>
      rw [hr] at this
      rw [res_bind_ok, res_pure, show row.sectors = _ from by simpa [Except.map] using this]

/-- A sector of zeros. -/
def zeros : List Byte := List.replicate 256 0

theorem length_zeros : zeros.length = 256 := List.length_replicate

theorem zero_loop : ∀ (locs : List Location) {d : Device}, Wf d s → Writable d →
    (∀ l ∈ locs, s.Valid l) →
    M.forEach locs (fun l => M.sectorMut l zeroBlock) d =
      (.ok (), d.puts s (locs.map fun l => (l, zeros)))
  | [], _, _, _, _ => rfl
  | l :: ls, d, h, hw, hv => by
    have hl := hv l (by simp)
    rw [M.run_forEach_cons]
    unfold M.sectorMut
    rw [M.update_ok (h.sectorMut_ok hw hl (new := zeros) (by
      unfold zeroBlock; rw [h.blk_length hl]; rfl))]
    exact zero_loop ls (h.put hl length_zeros) (hw.put _) (fun m hm => hv m (by simp [hm]))

theorem zeros_ok {locs : List Location} (hv : ∀ l ∈ locs, s.Valid l) :
    WsOK s (locs.map fun l => (l, zeros)) := by
  intro w hw
  obtain ⟨l, hl, rfl⟩ := List.mem_map.1 hw
  exact ⟨hv l hl, length_zeros⟩

theorem blk_zeroed {locs : List Location} (h : Wf d s) (hv : ∀ l ∈ locs, s.Valid l)
    (hl : l ∈ locs) : (d.puts s (locs.map fun l => (l, zeros))).blk s l = zeros := by
  rw [h.blk_puts (zeros_ok hv) (hv l hl)]
  have key : ∀ (ls : List Location) (b : List Byte), l ∈ ls ∨ b = zeros →
      (ls.map fun l => (l, zeros)).foldl (fun b w => if w.1 = l then w.2 else b) b = zeros := by
    intro ls
    induction ls with
    | nil =>
      intro b hb
      rcases hb with hb | hb
      · cases hb
      · exact hb
    | cons x xs ih =>
      intro b hb
      rw [List.map_cons, List.foldl_cons]
      apply ih
      simp only []
      by_cases hx : x = l
      · exact .inr (if_pos hx)
      · rw [if_neg hx]
        rcases hb with hb | hb
        · rcases List.mem_cons.1 hb with rfl | hb
          · exact absurd rfl hx
          · exact .inl hb
        · exact .inr hb
  exact key locs _ (.inl hl)

theorem bamNew_ok (ty : DiskType) : Bam.new ty.format = .ok (freshBam ty) := by
  have hbt : ty.format.bamTracks = bamTracks ty := by cases ty <;> rfl
  unfold Bam.new
  rw [hbt, mapRes_ok (g := fun i => BamEntry.new (sectorsPerTrack ty (i + 1)))]
  · rfl
  · intro i hi
    obtain ⟨row, hr, hs⟩ := format_row ty (List.mem_range.1 hi)
    rw [hr, res_bind_ok, hs]
    rfl

theorem allocateAll_ok : ∀ (ls : List Location) {b : Bam}, Consistent b ty →
    (∀ l ∈ ls, ValidLoc ty (bamTracks ty) l) →
    ∃ b', foldRes (fun b l => b.allocate l) ls b = .ok b' ∧ Consistent b' ty ∧
      b'.format = b.format ∧ ∀ m, isFree b' m = (decide (m ∉ ls) && isFree b m)
  | [], b, hc, _ => ⟨b, rfl, hc, rfl, by simp⟩
  | l :: ls, b, hc, hv => by
    obtain ⟨b1, h1, hf⟩ := allocate_ok hc.toBamOf (hv l (by simp)).inBam
    obtain ⟨b', h2, h3, h4, h5⟩ := allocateAll_ok ls (hf.consistent hc (hv l (by simp)))
      (fun m hm => hv m (by simp [hm]))
    refine ⟨b', ?_, h3, by rw [h4, hf.format], ?_⟩
    · unfold foldRes
      rw [h1, res_bind_ok, h2]
    · intro m
      rw [h5, isFree_flip hf]
      by_cases hm : m = l
      · simp [hm]
      · by_cases hml : m ∈ ls <;> simp [hm, hml]

theorem initialBam_ok (ty : DiskType) :
    ∃ b, initialBam ty.format = .ok b ∧ Consistent b ty ∧ b.format = ty.format ∧
      ∀ l, ValidLoc ty (bamTracks ty) l → (isFree b l = false ↔ ownSector ty l = true) := by
  obtain ⟨sys, hsys, hm⟩ := systemLocations_exact ty false
  have hg : ({ ty.format with geos := false } : DiskFormat) = ty.format := by cases ty <;> rfl
  rw [hg] at hsys
  obtain ⟨b, h1, h2, h3, h4⟩ := allocateAll_ok sys (freshBam_consistent ty)
    (fun l hl => (mem_ownSectors.1 ((hm l).1 hl)).1)
  refine ⟨b, ?_, h2, h3, ?_⟩
  · unfold initialBam
    rw [bamNew_ok, res_bind_ok, hsys, res_bind_ok, h1]
  · intro l hl
    rw [h4, show isFree (freshBam ty) l = true from by
      rw [isFree, freeAt_freshBam _ _ _ hl.1 hl.2.1]
      exact decide_eq_true hl.2.2, Bool.and_true, decide_eq_false_iff_not, Classical.not_not, hm,
      mem_ownSectors]
    exact ⟨fun h => h.2, fun h => ⟨hl, h⟩⟩

/-- A device with an empty directory sector holds a volume without files. -/
theorem onDisk_blank {hd : Header} (h : Wf d s)
    (hh : Header.read d s.type.format.header = .ok hd)
    (hb : d.blk s (firstDirectory s.type) = splice zeros 0 [0x00, 0xFF]) :
    OnDisk d s ⟨hd, [firstDirectory s.type], List.replicate 8 none⟩ := by
  have hfd : s.Valid (firstDirectory s.type) := by
    exact (by decide : ∀ s ∈ shapes, s.Valid (firstDirectory s.type)) s h.shape
  have hbytes : ∀ j, byteAt (splice zeros 0 [0x00, 0xFF]) j = if j = 1 then 0xFF else 0 := by
    intro j
    rw [byteAt_splice _ _ _ _ (Nat.zero_le _), if_neg (by omega)]
    match j with
    | 0 => rfl
    | 1 => rfl
    | j + 2 =>
      rw [if_neg (by simp), if_neg (by omega)]
      simp only [byteAt, zeros, List.getD_eq_getElem?_getD, List.getElem?_replicate]
      split <;> rfl
  refine ⟨h, hh, ?_, rfl, ?_, ?_, ?_, ?_, ?_, ?_, ?_⟩
  · refine ⟨_, ⟨?_, ?_, trivial, [], firstDirectory s.type, rfl, ?_, ?_, rfl⟩⟩
    · intro l hl
      rw [List.mem_singleton.1 hl]
      exact hfd
    · simp
    · rw [hb, hbytes]; rfl
    · rw [hb, hbytes]; decide
  · intro t ht
    cases ht
    show byteAt (d.blk s (firstDirectory s.type)) 1 = _
    rw [hb, hbytes]; rfl
  · intro l hl
    rw [List.mem_singleton.1 hl]
    cases s.type <;> exact ⟨rfl, rfl⟩
  · rfl
  · intro i x hx
    have hi : i < 8 := by
      have := (List.getElem?_eq_some_iff.1 hx).1
      simpa [emptyVolume] using this
    have hn : x = none := by
      simp only at hx
      rw [List.getElem?_replicate, if_pos hi] at hx
      exact (Option.some.inj hx).symm
    subst hn
    show (FileAttributes.fromByte (byteAt (slotAt d s [firstDirectory s.type] i) 2)).isScratched = true
    unfold slotAt
    rw [show i / 8 = 0 by omega, List.getD_cons_zero, hb, byteAt_slice _ _ _ _ (by omega), hbytes,
      if_neg (by omega)]
    decide
  · intro f hf
    simp [Volume.files] at hf
  · intro l hl
    simp [Volume.used, Volume.files] at hl
  · simp [Volume.used, Volume.files]

/-- A device with an empty directory sector and a fresh header holds the empty volume. -/
theorem onDisk_empty {name : List Byte} {id : Byte × Byte} (h : Wf d s)
    (hh : Header.read d s.type.format.header = .ok (freshHeader s.type name id))
    (hb : d.blk s (firstDirectory s.type) = splice zeros 0 [0x00, 0xFF]) :
    OnDisk d s (emptyVolume s.type name id) := onDisk_blank h hh hb

theorem recorded_empty {name : List Byte} {id : Byte × Byte} (hc : Consistent b ty)
    (he : ∀ l, ValidLoc ty (bamTracks ty) l → (isFree b l = false ↔ ownSector ty l = true)) :
    Recorded b ty (emptyVolume ty name id) := by
  refine ⟨hc, fun l hl => ?_⟩
  rw [he l hl]
  unfold ownSector Volume.Occupies
  rw [Bool.or_eq_true, beq_iff_eq]
  simp [emptyVolume, Volume.used, Volume.files]

/-- The BAM cell a disk uses after it got a BAM. -/
def Disk.cellRef (disk : Disk) : Nat := disk.bam.getD disk.cells.length

/-- The cells after that. -/
def Disk.cellsWith (disk : Disk) (b : Bam) : List Bam :=
  match disk.bam with
  | some r => disk.cells.set r b
  | none => disk.cells ++ [b]

theorem setBam_some (disk : Disk) (b : Bam) : disk.setBam (some b) =
    { disk with bam := some disk.cellRef, cells := disk.cellsWith b } := by
  unfold Disk.setBam Disk.cellRef Disk.cellsWith
  cases hb : disk.bam with
  | some r =>
    simp only [Option.getD_some]
  | none => rfl

theorem cellsWith_get (hr : ∀ r, disk.bam = some r → r < disk.cells.length) (b : Bam) :
    (disk.cellsWith b)[disk.cellRef]? = some b := by
  unfold Disk.cellsWith Disk.cellRef
  cases hb : disk.bam with
  | some r => simp [hr r hb]
  | none => simp

theorem freshHeader_eq (ty : DiskType) (name : List Byte) (id : Byte × Byte) :
    freshHeader ty name id =
      { Header.new ty.format name id with diskName := paddedName name, geos := none } := by
  cases ty <;> rfl

theorem onDev_run {α : Type} {m : M Device α} {res : Res α} {d' : Device}
    (h : m disk.dev = (res, d')) : Disk.onDev m disk = (res, { disk with dev := d' }) := by
  unfold Disk.onDev
  rw [M.run_zoom, h]

theorem writeFormat_ok (h : Wf disk.dev s) (hw : Writable disk.dev)
    (hn : disk.native = s.type.format) (hr : ∀ r, disk.bam = some r → r < disk.cells.length)
    {name : Petscii} (hname : name.length ≤ 16) (id : Byte × Byte) :
    ∃ d' b ws, Disk.writeFormat name id disk = (.ok (),
        ⟨disk.native, d', some (freshHeader s.type name id), some s.type.format,
          some disk.cellRef, disk.cellsWith b⟩) ∧
      ReadyAt ⟨disk.native, d', some (freshHeader s.type name id), some s.type.format,
          some disk.cellRef, disk.cellsWith b⟩ s (emptyVolume s.type name id) disk.cellRef b ∧
      Synced d' s b ∧ d' = disk.dev.puts s ws ∧ WsOK s ws ∧
      (∀ l, ValidLoc s.type (bamTracks s.type) l → (isFree b l = false ↔ ownSector s.type l = true)) ∧
      (∀ l, s.Valid l → ownSector s.type l = false → d'.blk s l = zeros) := by
  obtain ⟨locs, hlocs, hlm⟩ := formatLocations_ok h
  have hv : ∀ l ∈ locs, s.Valid l := fun l hl => (hlm l).1 hl
  have hz := zero_loop locs h hw hv
  have hzo := zeros_ok hv
  have hzb : ∀ l, s.Valid l → (disk.dev.puts s (locs.map fun l => (l, zeros))).blk s l = zeros :=
    fun l hl => blk_zeroed h hv ((hlm l).2 hl)
  generalize hd1 : disk.dev.puts s (locs.map fun l => (l, zeros)) = d1 at hz hzb
  have h1 : Wf d1 s := hd1 ▸ h.puts hzo
  have hw1 : Writable d1 := hd1 ▸ hw.puts
  -- the directory sector
  have hfd : s.Valid (firstDirectory s.type) :=
    (by decide : ∀ s ∈ shapes, s.Valid (firstDirectory s.type)) s h.shape
  have hl2 : (splice zeros 0 [0x00, 0xFF]).length = 256 := by
    rw [length_splice _ _ _ (by rw [length_zeros]; decide), length_zeros]
  have hs2 : M.sectorMut (firstDirectory s.type) (fun b => .ok (splice b 0 [0x00, 0xFF])) d1 =
      (.ok (), d1.put s (firstDirectory s.type) (splice zeros 0 [0x00, 0xFF])) := by
    unfold M.sectorMut
    exact M.update_ok (h1.sectorMut_ok hw1 hfd (by rw [hzb _ hfd]))
  have hb2 := fun l hl => h1.blk_put hfd (l' := l) hl hl2
  have hd2 : d1.put s (firstDirectory s.type) (splice zeros 0 [0x00, 0xFF]) =
      d1.puts s [(firstDirectory s.type, splice zeros 0 [0x00, 0xFF])] := rfl
  have h2 := h1.put hfd hl2
  have hw2 : Writable (d1.put s (firstDirectory s.type) (splice zeros 0 [0x00, 0xFF])) := hw1.put _
  generalize d1.put s (firstDirectory s.type) (splice zeros 0 [0x00, 0xFF]) = d2 at hs2 hb2 hd2 h2 hw2
  have hne : firstDirectory s.type ≠ headerSector s.type := by cases s.type <;> decide
  -- the header
  have hhn : (Header.new s.type.format name id).diskName.length ≤ 16 := hname
  obtain ⟨new, hs3, hl3, hv3, hread3, hfr3⟩ := headerWrite_ok h2 hw2 hhn
  have hblk2 : d2.blk s (headerSector s.type) = zeros := by
    rw [hb2 _ hv3, if_neg (Ne.symm hne), hzb _ hv3]
  have hgeos : GEOSDiskHeader.new zeros = none := by decide +kernel
  rw [hblk2, hgeos] at hread3
  replace hread3 : Header.read (d2.put s (headerSector s.type) new) s.type.format.header =
      .ok (freshHeader s.type name id) := by
    rw [hread3, freshHeader_eq]
    rfl
  have hb3 := fun l hl => h2.blk_put hv3 (l' := l) hl hl3
  have hd3 : d2.put s (headerSector s.type) new = d2.puts s [(headerSector s.type, new)] := rfl
  have h3 := h2.put hv3 hl3
  have hw3 : Writable (d2.put s (headerSector s.type) new) := hw2.put _
  generalize d2.put s (headerSector s.type) new = d3 at hs3 hread3 hb3 hd3 h3 hw3
  -- the BAM
  obtain ⟨b, hib, hc, hbf, hfree⟩ := initialBam_ok s.type
  obtain ⟨ws, hs4, ho4, hold, hfrm, hsys⟩ := flush_writes hc.toBamOf h3 hw3
  have h4 := h3.puts ho4
  have hw4 : Writable (d3.puts s ws) := hw3.puts
  have hread4 : Header.read (d3.puts s ws) s.type.format.header =
      .ok (freshHeader s.type name id) := by
    rw [← hread3]
    exact header_outside h3 h4 fun j hj =>
      hfrm.all (headerLoc_valid h3) fun hin => hj (inSections_area _ _ _ hin)
  have hb4 : ∀ l, s.Valid l → systemSector s.type l = false → (d3.puts s ws).blk s l = d3.blk s l := by
    intro l hl hns
    refine h3.blk_puts_other ho4 hl fun w hw he => ?_
    have := bamLoc_system (hsys w hw)
    rw [he, hns] at this
    cases this
  have hsync : Synced (d3.puts s ws) s b :=
    read_of_holds h4 hc.toBamOf hc.fits hold _ rfl
  have hst : storedEntries (d3.puts s ws) s = b.entries := by
    have := h4.readBam s.type.format rfl
    unfold Synced at hsync
    rw [hsync] at this
    simpa using this.symm
  have hbe : (⟨s.type.format, b.entries, false⟩ : Bam) = b := by
    have h5 := hbf
    have h6 := hc.live
    cases b
    simp only at h5 h6
    rw [h5, h6]
  have hhs : systemSector s.type (headerSector s.type) = true := by cases s.type <;> rfl
  have hfs : systemSector s.type (firstDirectory s.type) = false := by cases s.type <;> rfl
  have hd4 : d3.puts s ws = disk.dev.puts s (locs.map (fun l => (l, zeros)) ++
      [(firstDirectory s.type, splice zeros 0 [0x00, 0xFF])] ++ [(headerSector s.type, new)] ++ ws) := by
    rw [puts_append, puts_append, puts_append, hd1, ← hd2, ← hd3]
  have hzero : ∀ l, s.Valid l → ownSector s.type l = false → (d3.puts s ws).blk s l = zeros := by
    intro l hl ho
    unfold ownSector at ho
    rw [Bool.or_eq_false_iff] at ho
    have hne1 : l ≠ firstDirectory s.type := by simpa using ho.2
    have hne2 : l ≠ headerSector s.type := by
      rintro rfl
      rw [hhs] at ho
      cases ho.1
    rw [hb4 l hl ho.1, hb3 l hl, if_neg hne2, hb2 l hl, if_neg hne1, hzb l hl]
  have hdirb : (d3.puts s ws).blk s (firstDirectory s.type) = splice zeros 0 [0x00, 0xFF] := by
    rw [hb4 _ hfd hfs, hb3 _ hfd, if_neg hne, hb2 _ hfd, if_pos rfl]
  generalize hdd : d3.puts s ws = d4 at *
  refine ⟨d4, b, _, ?_, ?_, hsync, hd4, ?_, hfree, hzero⟩
  · have hfdl : s.type.format.firstDirectoryLocation = firstDirectory s.type := by
      cases s.type <;> rfl
    unfold Disk.writeFormat
    rw [M.bind_of_ok (m := M.get) (s := disk) (s' := disk) (a := disk) rfl]
    simp only [hn]
    rw [M.bind_of_ok (s := disk) (s' := disk) (by rw [M.run_lift, hlocs]),
      M.bind_of_ok (onDev_run hz), hfdl, M.bind_of_ok (onDev_run hs2), M.bind_of_ok (onDev_run hs3),
      M.bind_of_ok (M.run_modify _ _), M.bind_of_ok (by rw [M.run_lift, hib]),
      M.bind_of_ok (onDev_run hs4), M.bind_of_ok (M.run_modify _ _),
      M.bind_of_ok (by rw [M.run_read, setBam_some, device_flush hw4])]
    have hparse := hread4
    rw [h4.headerRead] at hparse
    refine (M.update_ok (initialize_of_header (disk := ⟨disk.native, d4,
      some (Header.new s.type.format name id), disk.format, some disk.cellRef,
      disk.cellsWith b⟩) (s := s) h4 hn hparse)).trans ?_
    congr 1
    unfold initialized
    have hfmt : ∀ x, formatFor x (freshHeader s.type name id) = x := fun x => rfl
    simp only [setBam_some, hfmt, hst, hn, hbe]
    congr 1
    unfold Disk.cellsWith Disk.cellRef
    cases hbm : disk.bam with
    | some r => simp
    | none => simp
  · refine ⟨hn, rfl, rfl, rfl, rfl, cellsWith_get hr b, hbf,
      ⟨onDisk_empty h4 hread4 hdirb, recorded_empty hc hfree, hw4⟩, ?_⟩
    intro f hf
    simp [emptyVolume, Volume.files] at hf
  · exact ((hzo.append (WsOK.single hfd hl2)).append (WsOK.single hv3 hl3)).append ho4

end Cbm
