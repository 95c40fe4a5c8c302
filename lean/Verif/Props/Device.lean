import Verif.Lemmas.Device
import Verif.Model.Disk
/-!
# Sector access: C01, C02, C03, C41 (and the iterators of C39)
-/

namespace Cbm
open Spec

/-- A memory image of the given shape, used as witness. -/
def blankDevice (g : Geometry) : Device := ⟨Image.openMemory g.size, g, []⟩

theorem blankDevice_wf {ty : DiskType} {g : Geometry} (hg : g ∈ ty.geometries) :
    Wf (blankDevice g) ⟨ty, g.tracks, g.withErrorTable⟩ where
  shape := shape_of_geometry hg
  geometry := hg
  tracks := rfl
  errorTable := rfl
  size := by simp [blankDevice, Image.openMemory, geometry_size hg]

/-- **C01** Sectors are disjoint 256-byte windows that tile the data area: each
existing location is read through a window of 256 bytes inside the data area,
windows of different locations are disjoint, every data byte lies in exactly one
window, and nothing else can be read. -/
theorem C01_windows_tile {d : Device} {s : Shape} (h : Wf d s) :
    ∃ window : Location → Nat,
      (∀ l, ValidLoc s.type s.tracks l →
        d.readSector l = .ok (slice d.image.bytes (window l) 256) ∧
        window l + 256 ≤ 256 * s.sectors) ∧
      (∀ l m, ValidLoc s.type s.tracks l → ValidLoc s.type s.tracks m → l ≠ m →
        window l + 256 ≤ window m ∨ window m + 256 ≤ window l) ∧
      (∀ i, i < 256 * s.sectors → ∃ l, (ValidLoc s.type s.tracks l ∧
        window l ≤ i ∧ i < window l + 256) ∧
        ∀ m, ValidLoc s.type s.tracks m → window m ≤ i → i < window m + 256 → m = l) ∧
      256 * s.sectors ≤ d.image.bytes.length ∧
      (∀ l, ¬ ValidLoc s.type s.tracks l → d.readSector l = fail .invalidLocation) := by
  refine ⟨fun l => 256 * sectorNumber s.type l, ?_, ?_, ?_, ?_, ?_⟩
  · intro l hl
    refine ⟨h.sector hl, ?_⟩
    have := sectorNumber_lt hl
    simp only [Shape.sectors]; omega
  · intro l m hl hm hne
    have : sectorNumber s.type l ≠ sectorNumber s.type m := fun e => hne (sectorNumber_inj hl hm e)
    simp only []; omega
  · intro i hi
    obtain ⟨l, hl, hn⟩ := sectorNumber_surj s.type s.tracks
      (by have := shape_tracks_le s h.shape; omega) (i / 256)
      (by simp only [Shape.sectors] at hi; omega)
    refine ⟨l, ⟨hl, by simp only []; omega, by simp only []; omega⟩, ?_⟩
    intro m hm h1 h2
    simp only [] at h1 h2
    exact sectorNumber_inj hm hl (by omega)
  · rw [h.size]; simp only [Shape.size]; omega
  · intro l hl; exact h.sector_invalid hl

example : Wf (blankDevice D71.GEOMETRY) ⟨.d71, 70, false⟩ :=
  blankDevice_wf (by simp [DiskType.geometries, D71.ALLOWED_GEOMETRIES])

/-- `write_sector` of a full buffer to an existing sector of a writable image
succeeds. -/
theorem C02_write_succeeds {disk : Disk} {s : Shape} (h : Wf disk.dev s) (hw : Writable disk.dev)
    {l : Location} (hl : ValidLoc s.type s.tracks l) {data : List Byte} (hd : data.length = 256) :
    ∃ disk', Disk.writeSector l data disk = (.ok (), disk') := by
  have : disk.dev.writeSector l data = .ok (disk.dev.put s l data) := by
    unfold Device.writeSector
    rw [if_neg (by simp [hd])]
    apply h.sectorMut_ok hw hl
    unfold copyFromSlice
    rw [if_pos (by rw [h.blk_length hl, hd])]
  refine ⟨{ disk with dev := disk.dev.put s l data }, ?_⟩
  simp only [Disk.writeSector, Disk.onDev, M.run_zoom, M.run_update, this]

theorem writeSector_ok_iff {d d' : Device} {s : Shape} (h : Wf d s) {l : Location}
    {data : List Byte} : d.writeSector l data = .ok d' ↔
      data.length = 256 ∧ Writable d ∧ ValidLoc s.type s.tracks l ∧ d' = d.put s l data := by
  unfold Device.writeSector
  constructor
  · intro hw
    split at hw
    · cases hw
    · rename_i hlen
      simp only [BLOCK_SIZE, ne_eq, Decidable.not_not] at hlen
      have hwr : Writable d := by
        intro hk; rw [sectorMut_readOnly hk] at hw; cases hw
      by_cases hl : s.Valid l
      · rw [h.sectorMut_ok hwr hl (new := data)
          (by unfold copyFromSlice; rw [if_pos (by rw [h.blk_length hl, hlen])])] at hw
        cases hw
        exact ⟨hlen, hwr, hl, rfl⟩
      · rw [h.sectorMut_invalid hwr hl] at hw; cases hw
  · rintro ⟨hlen, hwr, hl, rfl⟩
    rw [if_neg (by simp [hlen])]
    exact h.sectorMut_ok hwr hl
      (by unfold copyFromSlice; rw [if_pos (by rw [h.blk_length hl, hlen])])

/-- **C02** After a successful `write_sector` the sector reads back as written,
every other location reads as before, the image keeps its length and shape, and
no byte outside the sector's window changed. -/
theorem C02_write_read {disk disk' : Disk} {s : Shape} (h : Wf disk.dev s)
    {l : Location} {data : List Byte}
    (hw : Disk.writeSector l data disk = (.ok (), disk')) :
    disk'.readSector l = .ok data ∧
    (∀ m, m ≠ l → disk'.readSector m = disk.readSector m) ∧
    Wf disk'.dev s ∧
    disk'.dev.image.bytes.length = disk.dev.image.bytes.length ∧
    (∃ o, slice disk'.dev.image.bytes o 256 = data ∧ o + 256 ≤ 256 * s.sectors ∧
      ∀ i, i < o ∨ o + 256 ≤ i → disk'.dev.image.bytes[i]? = disk.dev.image.bytes[i]?) ∧
    disk' = { disk with dev := disk'.dev } := by
  have hdev : disk.dev.writeSector l data = .ok disk'.dev ∧ disk' = { disk with dev := disk'.dev } := by
    simp only [Disk.writeSector, Disk.onDev, M.run_zoom, M.run_update] at hw
    split at hw <;> rename_i heq
    · simp only [Prod.mk.injEq, true_and] at hw
      subst hw; exact ⟨heq, rfl⟩
    · simp at hw
  obtain ⟨hdev, hrest⟩ := hdev
  obtain ⟨hlen, hwr, hl, hd'⟩ := (writeSector_ok_iff h).1 hdev
  have hwf : Wf disk'.dev s := by rw [hd']; exact h.put hl hlen
  have hb := h.bound hl
  refine ⟨?_, ?_, hwf, ?_, ?_, hrest⟩
  · unfold Disk.readSector Device.readSector
    rw [hwf.sector hl, hd', h.blk_put_same hl hlen]
  · intro m hm
    unfold Disk.readSector Device.readSector
    by_cases hv : s.Valid m
    · rw [hwf.sector hv, h.sector hv, hd', h.blk_put_other hl hv hm hlen]
    · rw [hwf.sector_invalid hv, h.sector_invalid hv]
  · rw [hwf.size, h.size]
  · refine ⟨256 * sectorNumber s.type l, ?_, ?_, ?_⟩
    · rw [hd']; exact h.blk_put_same hl hlen
    · have := sectorNumber_lt hl; simp only [Shape.sectors]; omega
    · intro i hi
      rw [hd']; simp only [Device.put]
      rw [getElem?_splice _ _ _ _ (by omega)]
      split
      · rfl
      · rw [if_neg (by omega)]

example : ∃ disk' : Disk, Disk.writeSector ⟨18, 4⟩ (List.replicate 256 7)
    ⟨D64.DISK_FORMAT, blankDevice D64.GEOMETRY_35_ERRORS, none, none, none, []⟩ = (.ok (), disk') :=
  C02_write_succeeds (s := ⟨.d64, 35, true⟩)
    (blankDevice_wf (ty := .d64) (by simp [DiskType.geometries, D64.ALLOWED_GEOMETRIES]))
    (by simp [Writable, blankDevice, Image.openMemory]) (by decide) List.length_replicate

/-- **C03** `write_sector`: exactly which calls fail, with which error, in which
order of precedence. -/
theorem C03_write_result {disk : Disk} {s : Shape} (h : Wf disk.dev s) (l : Location)
    (data : List Byte) :
    (Disk.writeSector l data disk).1 =
      if data.length ≠ 256 then fail .writeUnderrun
      else if disk.dev.image.kind = .readOnlyMap then fail .readOnly
      else if ValidLoc s.type s.tracks l then .ok () else fail .invalidLocation := by
  have key : (Disk.writeSector l data disk).1 = (disk.dev.writeSector l data).map fun _ => () := by
    simp only [Disk.writeSector, Disk.onDev, M.run_zoom, M.run_update]
    cases disk.dev.writeSector l data <;> rfl
  rw [key]
  by_cases hlen : data.length ≠ 256
  · rw [if_pos hlen]; unfold Device.writeSector; rw [if_pos hlen]; rfl
  · rw [if_neg hlen]
    by_cases hk : disk.dev.image.kind = .readOnlyMap
    · rw [if_pos hk]; unfold Device.writeSector; rw [if_neg hlen, sectorMut_readOnly hk]; rfl
    · rw [if_neg hk]
      by_cases hl : ValidLoc s.type s.tracks l
      · rw [if_pos hl, (writeSector_ok_iff h).2 ⟨by simpa using hlen, hk, hl, rfl⟩]; rfl
      · rw [if_neg hl]; unfold Device.writeSector; rw [if_neg hlen, h.sectorMut_invalid hk hl]; rfl

/-- **C03** `read_sector` fails exactly on locations that do not exist. -/
theorem C03_read_result {disk : Disk} {s : Shape} (h : Wf disk.dev s) (l : Location) :
    (ValidLoc s.type s.tracks l ∧ ∃ data, data.length = 256 ∧ disk.readSector l = .ok data) ∨
    (¬ ValidLoc s.type s.tracks l ∧ disk.readSector l = fail .invalidLocation) := by
  by_cases hl : s.Valid l
  · exact .inl ⟨hl, _, h.blk_length hl, h.sector hl⟩
  · exact .inr ⟨hl, h.sector_invalid hl⟩

/-- **C03** A failing `write_sector` changes nothing. -/
theorem C03_failed_write_no_effect (disk disk' : Disk) (l : Location) (data : List Byte) (e : Fail)
    (hw : Disk.writeSector l data disk = (.error e, disk')) : disk' = disk := by
  simp only [Disk.writeSector, Disk.onDev, M.run_zoom, M.run_update] at hw
  split at hw
  · simp at hw
  · simp only [Prod.mk.injEq] at hw; exact hw.2.symm

example : (Disk.writeSector ⟨18, 19⟩ (List.replicate 256 7)
    ⟨D64.DISK_FORMAT, blankDevice D64.GEOMETRY_35, none, none, none, []⟩).1 =
      fail .invalidLocation := by
  rw [C03_write_result (s := ⟨.d64, 35, false⟩)
    (blankDevice_wf (ty := .d64) (by simp [DiskType.geometries, D64.ALLOWED_GEOMETRIES]))]
  rw [if_neg (fun hc => hc List.length_replicate), if_neg (by simp [blankDevice, Image.openMemory]), if_neg (by decide)]

/-! ## Positioned access -/

/-- **C41** A positioned write that succeeds is read back by the same position:
the item's reader is handed exactly the bytes its writer produced; every other
position is read as before. -/
theorem C41_positioned_write_read {d d' : Device} {s : Shape} (h : Wf d s) {p : Position}
    {f : List Byte → Res (List Byte)}
    (hlen : ∀ b b', f b = .ok b' → b'.length = b.length)
    (hw : d.positionedWrite (.ok p) f = .ok d') :
    (∃ old new, d.readPosition p = .ok old ∧ f old = .ok new ∧ d'.readPosition p = .ok new ∧
      (∀ (α : Type) (g : List Byte → Res α), d'.positionedRead (.ok p) g = g new)) ∧
    (∀ q : Position, (q.location ≠ p.location ∨
        q.offset.toNat + q.size.toNat ≤ p.offset.toNat ∨
        p.offset.toNat + p.size.toNat ≤ q.offset.toNat) →
      d'.readPosition q = d.readPosition q) ∧
    (∀ m, m ≠ p.location → d'.readSector m = d.readSector m) ∧ Wf d' s := by
  unfold Device.positionedWrite at hw
  simp only [res_bind_ok] at hw
  have hwr : Writable d := by
    intro hk; rw [sectorMut_readOnly hk] at hw; cases hw
  have hl : s.Valid p.location := by
    by_cases hl : s.Valid p.location
    · exact hl
    · rw [h.sectorMut_invalid hwr hl] at hw; cases hw
  have hbl := h.blk_length hl
  rw [h.sectorMut_eq hwr hl] at hw
  simp only [subSlice] at hw
  split at hw
  rotate_left
  · cases hw
  rename_i hb
  simp only [res_bind_ok] at hw
  cases hf : f (slice (d.blk s p.location) p.offset.toNat p.size.toNat) with
  | error e => rw [hf] at hw; cases hw
  | ok new =>
  rw [hf] at hw
  simp only [res_bind_ok, res_pure, Except.map, Except.ok.injEq] at hw
  have hnl : new.length = p.size.toNat := by
    rw [hlen _ _ hf, length_slice _ _ _ (by omega)]
  have hsl : (splice (d.blk s p.location) p.offset.toNat new).length = 256 := by
    rw [length_splice _ _ _ (by omega), hbl]
  have hwf : Wf d' s := by rw [← hw]; exact h.put hl hsl
  have hsame : d'.blk s p.location = splice (d.blk s p.location) p.offset.toNat new := by
    rw [← hw]; exact h.blk_put_same hl hsl
  have hoth : ∀ m, m ≠ p.location → d'.readSector m = d.readSector m := by
    intro m hm
    unfold Device.readSector
    by_cases hv : s.Valid m
    · rw [hwf.sector hv, h.sector hv, ← hw, h.blk_put_other hl hv hm hsl]
    · rw [hwf.sector_invalid hv, h.sector_invalid hv]
  have hread : d'.readPosition p = .ok new := by
    unfold Device.readPosition
    rw [hwf.sector hl, res_bind_ok, hsame]
    unfold subSlice
    rw [if_pos (by rw [length_splice _ _ _ (by omega)]; omega),
      slice_splice_same' _ _ _ _ hnl.symm (by omega)]
  refine ⟨⟨_, new, ?_, hf, hread, ?_⟩, ?_, hoth, hwf⟩
  · unfold Device.readPosition
    rw [h.sector hl, res_bind_ok]
    unfold subSlice
    rw [if_pos hb]
  · intro α g
    unfold Device.positionedRead
    unfold Device.readPosition at hread
    simp only [res_bind_ok]
    rw [hwf.sector hl] at hread ⊢
    simp only [res_bind_ok] at hread ⊢
    rw [hread]; rfl
  · intro q hq
    by_cases hqp : q.location = p.location
    · unfold Device.readPosition
      rw [hqp, hwf.sector hl, h.sector hl, hsame]
      simp only [res_bind_ok]
      unfold subSlice
      rw [length_splice _ _ _ (by omega)]
      split
      · rw [slice_splice_disjoint _ _ _ _ _ (by omega)]
        rcases hq with hq | hq | hq
        · exact absurd hqp hq
        · left; exact hq
        · right; rw [hnl]; exact hq
      · rfl
    · have := hoth _ hqp
      unfold Device.readSector at this
      unfold Device.readPosition
      rw [this]

example : ∃ d', (blankDevice D81.GEOMETRY).positionedWrite (.ok ⟨⟨40, 3⟩, 32, 32⟩)
    (fun b => .ok (b.map (· + 1))) = .ok d' := by
  have h := blankDevice_wf (ty := .d81) (g := D81.GEOMETRY)
    (by simp [DiskType.geometries, D81.ALLOWED_GEOMETRIES])
  have hl : Spec.Shape.Valid ⟨.d81, D81.GEOMETRY.tracks, D81.GEOMETRY.withErrorTable⟩ ⟨40, 3⟩ := by
    decide
  unfold Device.positionedWrite
  rw [res_bind_ok, h.sectorMut_eq (by simp [Writable, blankDevice, Image.openMemory]) hl]
  simp only [subSlice, h.blk_length hl]
  exact ⟨_, rfl⟩

/-! ## Iterators -/

/-- **C39** Iterating over a geometry yields every sector of every track, in
order, once, and ends. -/
theorem C39_geometry_iterator : ∀ (ty : DiskType), ∀ g ∈ ty.geometries,
    g.locations = .ok (allSectors ty g.tracks) := by
  intro ty g hg
  have : ∀ ty ∈ [DiskType.d64, .d71, .d81], ∀ g ∈ ty.geometries,
    g.locations = .ok (allSectors ty g.tracks) := by decide +kernel
  exact this ty (mem_diskTypes ty) g hg

/-- **C39** Iterating over a disk format yields every sector of tracks
`1..last_track`. -/
theorem C39_format_iterator (ty : DiskType) :
    ty.format.locations = .ok (allSectors ty ty.format.lastTrack) := by
  have : ∀ ty ∈ [DiskType.d64, .d71, .d81],
    ty.format.locations = .ok (allSectors ty ty.format.lastTrack) := by decide +kernel
  exact this ty (mem_diskTypes ty)

/-- The enumeration is duplicate-free, increasing, and contains exactly the
existing sectors. -/
theorem C39_enumeration_exact (ty : DiskType) (n : Nat) :
    (allSectors ty n).Pairwise (fun a b => a.1 < b.1 ∨ (a.1 = b.1 ∧ a.2 < b.2)) ∧
    ∀ t s, (t, s) ∈ allSectors ty n ↔ 1 ≤ t ∧ t ≤ n ∧ s < sectorsPerTrack ty t := by
  constructor
  · unfold allSectors
    rw [List.pairwise_flatMap]
    constructor
    · intro t _
      rw [List.pairwise_map]
      exact List.Pairwise.imp (fun h => .inr ⟨rfl, h⟩) List.pairwise_lt_range
    · refine List.Pairwise.imp ?_ List.pairwise_lt_range
      intro a b hab x hx y hy
      simp only [List.mem_map] at hx hy
      obtain ⟨_, _, rfl⟩ := hx
      obtain ⟨_, _, rfl⟩ := hy
      left; simp; exact hab
  · intro t s
    simp only [allSectors, List.mem_flatMap, List.mem_map, List.mem_range, Prod.mk.injEq]
    constructor
    · rintro ⟨a, ha, b, hb, rfl, rfl⟩; exact ⟨by omega, by omega, hb⟩
    · rintro ⟨h1, h2, h3⟩
      exact ⟨t - 1, by omega, s, by rw [show t - 1 + 1 = t by omega]; exact h3, by omega, rfl⟩

end Cbm
