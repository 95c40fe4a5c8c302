import Verif.Lemmas.DirSlots
import Verif.Lemmas.DirExtend
import Verif.Props.Validate
import Verif.Props.Alloc
import Verif.Props.Durable
/-!
# Listing any directory, placing new entries, damaged chains (C29, C30, C60)

None of these needs a disk this library wrote: the image is any image of one of the
supported sizes.
-/

namespace Cbm
open Spec

variable {disk : Disk} {s : Shape} {f : DiskFormat} {h : Header} {dir init : List Location}
  {t : Location} {content : List Byte} {b : Bam} {r k : Nat} {x : Session}

/-! ## C29: deleting a file with a damaged chain -/

/-- **C29** If following the links from the first sector of a file, of any kind, never
arrives at a proper last sector, `delete` fails; neither the image nor any BAM changes. -/
theorem C29_damaged_chain (hw : Wf x.disk.dev s) {file : File}
    (hk : x.files[k]? = some (file, r)) (hc : x.disk.cells[r]? = some b)
    (hbad : ¬ ∃ locs content, locs.head? = some file.entry.firstSector ∧
      IsChain x.disk.dev s locs content) :
    ∃ e, (Session.step (.delete k) x).1 = fail e ∧
      (Session.step (.delete k) x).2.disk = x.disk := by
  rcases locations_or hw file.entry.firstSector with ⟨locs, content, -, h1, h2⟩ | ⟨y, hy, -⟩
  · exact absurd ⟨locs, content, h1, h2⟩ hbad
  · have hrem : removeChain file.entry.firstSector ⟨x.disk.dev, b⟩ = (fail y, ⟨x.disk.dev, b⟩) := by
      unfold removeChain
      exact M.bind_of_error (by
        show (chainLocations x.disk.dev file.entry.firstSector, (⟨x.disk.dev, b⟩ : St)) = _
        rw [hy])
    have hfree : file.freeBlocks ⟨x.disk.dev, b⟩ = (fail y, ⟨x.disk.dev, b⟩) := by
      cases file with
      | linear e => exact hrem
      | relative f => exact M.bind_of_error hrem
      | geosSequential f => exact M.bind_of_error hrem
      | geosVLIR f => exact M.bind_of_error hrem
    have hdel : File.delete ⟨file, x.disk.dev, b⟩ = (fail y, ⟨file, x.disk.dev, b⟩) := by
      unfold File.delete
      rw [M.bind_of_ok (m := M.get) (s := (⟨file, x.disk.dev, b⟩ : FSt)) (s' := ⟨file, x.disk.dev, b⟩)
        (a := ⟨file, x.disk.dev, b⟩) rfl]
      apply M.bind_of_error
      show ((file.freeBlocks ⟨x.disk.dev, b⟩).1, (⟨file, (file.freeBlocks ⟨x.disk.dev, b⟩).2.dev,
        (file.freeBlocks ⟨x.disk.dev, b⟩).2.bam⟩ : FSt)) = _
      rw [hfree]
    have hrun := onFile_run (x := x) hk hc hdel
    refine ⟨y, ?_, ?_⟩
    · simp only [Session.step]; rw [hrun]
    · simp only [Session.step]; rw [hrun]
      show ({ x.disk with dev := x.disk.dev, cells := x.disk.cells.set r b } : Disk) = x.disk
      rw [set_getElem? hc]

/-- A file whose first sector links to itself. -/
example : ∃ x : Session, ∃ file b, Wf x.disk.dev ⟨.d64, 35, false⟩ ∧ x.files[0]? = some (file, 0) ∧
    x.disk.cells[0]? = some b ∧
    ¬ ∃ locs content, locs.head? = some file.entry.firstSector ∧
      IsChain x.disk.dev ⟨.d64, 35, false⟩ locs content := by
  refine ⟨⟨⟨DiskType.d64.format, sampleChain, none, none, some 0, [freshBam .d64]⟩,
    [(.linear { DirectoryEntry.parse32 [] none with firstSector := ⟨1, 2⟩ }, 0)], []⟩, _, _,
    sampleChain_wf, rfl, rfl, ?_⟩
  rintro ⟨locs, content, h1, h2⟩
  have hok := (C16_read_ok_iff sampleChain_wf ⟨1, 2⟩ content).2 ⟨locs, h1, h2⟩
  rw [(C16_loop_iff sampleChain_wf ⟨1, 2⟩).2 ⟨[⟨1, 2⟩], ⟨1, 2⟩,
    ⟨by decide, by decide, by decide +kernel, ⟨by decide +kernel, trivial⟩, rfl⟩, by decide⟩] at hok
  cases hok

/-! ## C30: the listing -/

theorem items_of (hf : disk.format = some f) (hh : disk.header = some h) :
    disk.items = directoryItems disk.dev f h.geos := by
  unfold Disk.items Disk.diskFormat Disk.getHeader
  rw [hf, hh]

/-- The entries a listing has for a list of slots. -/
def Spec.listed (d : Device) (s : Shape) (slots : List Position) : List DirectoryEntry :=
  (slots.filter fun p => !slotFree d s p).map (entryAt d s)

theorem listed_eq (d : Device) (s : Shape) (slots : List Position) :
    (slots.filterMap fun p => if slotFree d s p then none
      else some { entryAt d s p with geosBorder := false }) = listed d s slots := by
  unfold listed
  induction slots with
  | nil => rfl
  | cons p ps ih =>
    rw [List.filterMap_cons, List.filter_cons]
    cases slotFree d s p with
    | true => simpa using ih
    | false =>
      simp only [Bool.false_eq_true, if_false, Bool.not_false, if_true, List.map_cons]
      rw [ih]
      rfl

/-- **C30** The listing of a disk without GEOS data: the entries of the used slots of the
directory chain, in the order of the slots. -/
theorem C30_listing (hw : Wf disk.dev s) (hf : disk.format = some f) (hh : disk.header = some h)
    (hg : h.geos = none) (hd : dir.head? = some f.firstDirectoryLocation)
    (hc : IsChain disk.dev s dir content) :
    disk.directory = .ok (listed disk.dev s (dirSlots disk.dev s dir)) := by
  have hi : disk.items = (listed disk.dev s (dirSlots disk.dev s dir)).map .ok := by
    rw [items_of hf hh, hg]
    unfold directoryItems directoryBlocks
    simp only [List.append_nil]
    rw [chainItems_used hw hc hd, List.flatMap_map]
    unfold dirSlots
    rw [← listed_eq, List.filterMap_flatMap, List.map_flatMap]
    apply flatMap_congr_left
    intro l hl
    simp only
    rw [sectorEntries_used (hw.blk_length (hc.valid l hl))]
  unfold Disk.directory
  rw [hi, collectRes_ok]

/-- **C30** On a disk with GEOS data the slots of the border sector come last, and its entries
are marked. -/
theorem C30_listing_geos (hw : Wf disk.dev s) (hf : disk.format = some f)
    (hh : disk.header = some h) {g : GEOSDiskHeader} (hg : h.geos = some g)
    (hd : dir.head? = some f.firstDirectoryLocation) (hc : IsChain disk.dev s dir content)
    (hb : s.Valid g.border) (hnb : g.border ∉ dir) :
    disk.directory = .ok (listed disk.dev s (dirSlots disk.dev s dir) ++
      (listed disk.dev s (sectorSlots g.border)).map fun (e : DirectoryEntry) => { e with geosBorder := true }) := by
  have hborder : sectorEntries ⟨disk.dev.blk s g.border, g.border⟩ true =
      (listed disk.dev s (sectorSlots g.border)).map fun (e : DirectoryEntry) => { e with geosBorder := true } := by
    have hl := hw.blk_length hb
    have := chunks_take hl (Nat.le_refl 256)
    rw [List.take_of_length_le (by omega)] at this
    unfold sectorEntries
    simp only
    rw [this, if_pos (by decide), List.append_nil, zipIdx_map_range]
    unfold listed sectorSlots
    rw [List.filterMap_map, List.filter_map, List.map_map, List.map_map, ← List.filterMap_eq_map,
      List.filterMap_filter]
    apply filterMap_congr_left
    intro k hk
    rw [List.mem_range] at hk
    simp only [Function.comp]
    rw [if_neg]
    · unfold slotFree entryAt
      rw [slotData_at _ s _ (k := k) (by omega), ← scratched_iff]
      have e : (DirectoryEntry.parse32 (slice (disk.dev.blk s g.border) (32 * k) 32)
        (some ⟨g.border, UInt8.ofNat (ENTRY_SIZE * k), UInt8.ofNat ENTRY_SIZE⟩)).attributes =
          FileAttributes.fromByte (byteAt (slice (disk.dev.blk s g.border) (32 * k) 32) 2) := rfl
      rw [e]
      cases (FileAttributes.fromByte
        (byteAt (slice (disk.dev.blk s g.border) (32 * k) 32) 2)).isScratched <;> rfl
    · simp only [slice, List.length_take, List.length_drop, hl, ENTRY_SIZE]
      omega
  have hi : disk.items = (listed disk.dev s (dirSlots disk.dev s dir) ++
      (listed disk.dev s (sectorSlots g.border)).map fun (e : DirectoryEntry) => { e with geosBorder := true }).map .ok := by
    rw [items_of hf hh, hg]
    unfold directoryItems directoryBlocks
    simp only
    rw [chainItems_used hw hc hd, hw.sector hb, List.flatMap_append, List.map_append]
    congr 1
    · rw [List.flatMap_map]
      unfold dirSlots
      rw [← listed_eq, List.filterMap_flatMap, List.map_flatMap]
      apply flatMap_congr_left
      intro l hl
      simp only
      rw [sectorEntries_used (hw.blk_length (hc.valid l hl))]
      have : (g.border == l) = false := by
        rw [beq_eq_false_iff_ne]; rintro rfl; exact hnb hl
      rw [this]
    · simp only [List.flatMap_cons, List.flatMap_nil, List.append_nil, beq_self_eq_true]
      rw [hborder]
  unfold Disk.directory
  rw [hi, collectRes_ok]

theorem items_damaged (hw : Wf disk.dev s) (hf : disk.format = some f)
    (hh : disk.header = some h)
    (hbad : ¬ ∃ dir content, dir.head? = some f.firstDirectoryLocation ∧
      IsChain disk.dev s dir content) :
    ∃ (es : List DirectoryEntry) (y : DiskError) (rest : List (Res DirectoryEntry)), disk.items = es.map .ok ++ fail y :: rest ∧ y ≠ .notFound := by
  obtain ⟨ls, e, hit, hp, hs⟩ := chainItems_walk hw f.firstDirectoryLocation
  have hstop : ∃ y, stopItem disk.dev s ls e = fail y ∧ y ≠ .notFound := by
    cases hst : stopItem disk.dev s ls e with
    | error err =>
      unfold stopItem at hst
      split at hst
      · cases hst; exact ⟨_, rfl, nofun⟩
      · split at hst
        · cases hst; exact ⟨_, rfl, nofun⟩
        · split at hst
          · cases hst; exact ⟨_, rfl, nofun⟩
          · cases hst
    | ok c =>
      refine absurd ?_ hbad
      obtain ⟨locs, h1⟩ : ∃ locs, chainLocations disk.dev f.firstDirectoryLocation = .ok locs := by
        unfold chainLocations chainSectors
        rw [hit, hst]
        rw [show (ls.map (fun l => (Except.ok ⟨disk.dev.blk s l, l⟩ : Res ChainSector)) ++ [.ok c]) =
          (ls.map (fun l => (⟨disk.dev.blk s l, l⟩ : ChainSector)) ++ [c]).map .ok by simp, collectRes_ok]
        exact ⟨_, rfl⟩
      rcases locations_or hw f.firstDirectoryLocation with ⟨locs', content, -, h2, h3⟩ | ⟨y, hy, -⟩
      · exact ⟨locs', content, h2, h3⟩
      · rw [h1] at hy; cases hy
  obtain ⟨y, hy, hne⟩ := hstop
  rw [items_of hf hh]
  unfold directoryItems directoryBlocks
  rw [hit, hy, List.append_assoc, List.flatMap_append, List.flatMap_map]
  have : ∀ (border : Location → Bool), ls.flatMap (fun l =>
      ((sectorEntries ⟨disk.dev.blk s l, l⟩ (border l)).map .ok : List (Res DirectoryEntry))) =
      (ls.flatMap fun l => sectorEntries ⟨disk.dev.blk s l, l⟩ (border l)).map .ok := by
    intro border
    rw [List.map_flatMap]
  cases hg : h.geos with
  | none =>
    exact ⟨_, y, _, congrArg (fun z => z ++ _) (this fun _ => false), hne⟩
  | some g =>
    exact ⟨_, y, _, congrArg (fun z => z ++ _) (this fun l => g.border == l), hne⟩

/-- **C30** A directory whose chain cannot be followed to its end gives an error, not a
shorter listing. -/
theorem C30_damaged_directory (hw : Wf disk.dev s) (hf : disk.format = some f)
    (hh : disk.header = some h)
    (hbad : ¬ ∃ dir content, dir.head? = some f.firstDirectoryLocation ∧
      IsChain disk.dev s dir content) : ∃ y, disk.directory = fail y := by
  obtain ⟨es, y, rest, hi, -⟩ := items_damaged hw hf hh hbad
  refine ⟨y, ?_⟩
  unfold Disk.directory
  rw [hi]
  exact collectRes_error _ _ _

theorem findItem_damaged (name : Petscii) (e : Fail) (rest : List (Res DirectoryEntry)) :
    ∀ es : List DirectoryEntry,
      (∃ d ∈ es, d.filename = name ∧ findItem name (es.map .ok ++ .error e :: rest) = .ok d) ∨
      ((∀ d ∈ es, d.filename ≠ name) ∧ findItem name (es.map .ok ++ .error e :: rest) = .error e)
  | [] => .inr ⟨by simp, rfl⟩
  | d :: es => by
    simp only [List.map_cons, List.cons_append, findItem]
    by_cases h : d.filename = name
    · exact .inl ⟨d, by simp, h, by rw [if_pos h]⟩
    · rw [if_neg h]
      rcases findItem_damaged name e rest es with ⟨d', hd', h1, h2⟩ | ⟨h1, h2⟩
      · exact .inl ⟨d', by simp [hd'], h1, h2⟩
      · exact .inr ⟨by simpa using ⟨h, h1⟩, h2⟩

theorem unavailable_damaged (hw : Wf disk.dev s) (hf : disk.format = some f)
    (hh : disk.header = some h)
    (hbad : ¬ ∃ dir content, dir.head? = some f.firstDirectoryLocation ∧
      IsChain disk.dev s dir content) (name : Petscii) :
    ∃ y, disk.checkFilenameAvailability name = fail y := by
  obtain ⟨es, y, rest, hi, hne⟩ := items_damaged hw hf hh hbad
  unfold Disk.checkFilenameAvailability Disk.findDirectoryEntry
  rw [hi]
  rcases findItem_damaged name (.err y) rest es with ⟨d, -, -, h2⟩ | ⟨-, h2⟩
  · exact ⟨.fileExists, by rw [h2]⟩
  · refine ⟨y, ?_⟩
    rw [h2]
    split
    · rename_i heq; cases heq
    · rename_i heq; cases heq; exact absurd rfl hne
    · rename_i heq; cases heq; rfl

/-- No file is created or renamed on a disk whose directory cannot be read to its end, where
the new name might already be in use: the call fails and nothing changes. -/
theorem C30_damaged_directory_is_left_alone (hw : Wf disk.dev s) (hf : disk.format = some f)
    (hh : disk.header = some h)
    (hbad : ¬ ∃ dir content, dir.head? = some f.firstDirectoryLocation ∧
      IsChain disk.dev s dir content) (name new : Petscii) (type : FileType) :
    (∃ y, Disk.createFile name type .linear disk = (fail y, disk)) ∧
    ∃ y, Disk.rename name new disk = (fail y, disk) := by
  have hval : ∀ n : Petscii, (∃ y, checkFilenameValidity n = fail y) ∨ checkFilenameValidity n = .ok () := by
    intro n
    unfold checkFilenameValidity
    split
    · exact .inl ⟨_, rfl⟩
    · exact .inr rfl
  constructor
  · unfold Disk.createFile
    rw [if_neg (by simp)]
    rcases hval name with ⟨y, hy⟩ | hy
    · exact ⟨y, M.bind_of_error (by rw [M.run_lift, hy])⟩
    · rw [M.bind_of_ok (m := M.lift (checkFilenameValidity name)) (s := disk) (s' := disk) (a := ())
        (by rw [M.run_lift, hy])]
      obtain ⟨y, hy⟩ := unavailable_damaged hw hf hh hbad name
      exact ⟨y, M.bind_of_error (by rw [M.run_read, hy])⟩
  · unfold Disk.rename
    cases hfind : disk.findDirectoryEntry name with
    | error e =>
      obtain ⟨es, y, rest, hi, hne⟩ := items_damaged hw hf hh hbad
      unfold Disk.findDirectoryEntry at hfind
      rw [hi] at hfind
      rcases findItem_damaged name (.err y) rest es with ⟨d, -, -, h2⟩ | ⟨-, h2⟩
      · rw [h2] at hfind; cases hfind
      · refine ⟨y, M.bind_of_error (m := M.read fun disk : Disk => disk.findDirectoryEntry name) ?_⟩
        rw [M.run_read]
        unfold Disk.findDirectoryEntry
        rw [hi, h2]
    | ok e =>
      rw [M.bind_of_ok (m := M.read fun disk => disk.findDirectoryEntry name) (s := disk)
        (s' := disk) (a := e) (by rw [M.run_read, hfind])]
      rcases hval new with ⟨y, hy⟩ | hy
      · exact ⟨y, M.bind_of_error (by rw [M.run_lift, hy])⟩
      · rw [M.bind_of_ok (m := M.lift (checkFilenameValidity new)) (s := disk) (s' := disk) (a := ())
          (by rw [M.run_lift, hy])]
        obtain ⟨y, hy⟩ := unavailable_damaged hw hf hh hbad new
        exact ⟨y, M.bind_of_error (by rw [M.run_read, hy])⟩

/-- An image that was never formatted: the directory sector has no valid link. -/
example : ¬ ∃ dir content, dir.head? = some DiskType.d64.format.firstDirectoryLocation ∧
      IsChain sampleChain ⟨.d64, 35, false⟩ dir content := by
  rintro ⟨locs, content, h1, h2⟩
  have hok := (C16_read_ok_iff sampleChain_wf ⟨18, 1⟩ content).2 ⟨locs, h1, h2⟩
  rw [(C16_invalid_link_iff sampleChain_wf ⟨18, 1⟩).2 ⟨[], ⟨18, 1⟩,
    ⟨by simp, by simp, by simp, trivial, rfl⟩, by decide, by decide +kernel⟩] at hok
  cases hok

/-! ## C30: where a new entry goes -/

/-- **C30** With a free slot in the directory, the first one is chosen and nothing is
written. -/
theorem C30_first_free_slot (hw : Wf disk.dev s) (hf : disk.format = some f)
    (hd : dir.head? = some f.firstDirectoryLocation) (hc : IsChain disk.dev s dir content)
    {pre post : List Position} {p : Position} (hs : dirSlots disk.dev s dir = pre ++ p :: post)
    (hp : slotFree disk.dev s p = true) (hpre : ∀ q ∈ pre, slotFree disk.dev s q = false) :
    Disk.nextFreeDirectoryEntry disk = (.ok (entryAt disk.dev s p), disk) ∧
      (entryAt disk.dev s p).position = some p := by
  refine ⟨?_, rfl⟩
  obtain ⟨init, t, rfl, -⟩ := hc.last
  have hfind : (dirSlots disk.dev s (init ++ [t])).find? (slotFree disk.dev s) = some p := by
    rw [hs, List.find?_append, List.find?_cons, hp]
    rw [List.find?_eq_none.2 fun q hq => by rw [hpre q hq]; simp]
    rfl
  have hscan := scanFree_used hw init t f.firstDirectoryLocation hc.valid (chain_init hc)
  rw [hfind] at hscan
  unfold Disk.nextFreeDirectoryEntry
  rw [M.bind_of_ok (m := M.get) (s := disk) (s' := disk) (a := disk) rfl]
  rw [M.bind_of_ok (s' := disk) (a := f) (by rw [M.run_lift]; unfold Disk.diskFormat; rw [hf])]
  rw [M.bind_of_ok (s' := disk) (a := .inl (entryAt disk.dev s p))
    (by rw [M.run_lift, chainItems_used hw hc hd, hscan])]
  rfl

theorem parse32_congr {bytes bytes' : List Byte} (p : Option Position)
    (he : ∀ k, 2 ≤ k → bytes'[k]? = bytes[k]?) :
    DirectoryEntry.parse32 bytes' p = DirectoryEntry.parse32 bytes p := by
  have hb : ∀ k, 2 ≤ k → byteAt bytes' k = byteAt bytes k := fun k hk => by
    unfold byteAt; simp only [List.getD_eq_getElem?_getD, he k hk]
  have hs : ∀ o n, 2 ≤ o → slice bytes' o n = slice bytes o n := fun o n ho => by
    apply List.ext_getElem?
    intro k
    rw [getElem?_slice, getElem?_slice, he _ (by omega)]
  have hsch : entryScheme bytes' = entryScheme bytes := by
    unfold entryScheme isEntryGeos isEntryVlir
    simp only [hb _ (by omega : 2 ≤ 2), hb _ (by decide : 2 ≤ ENTRY_EXTRA_OFFSET + 2),
      hb _ (by decide : 2 ≤ ENTRY_EXTRA_OFFSET + 3)]
  unfold DirectoryEntry.parse32
  simp only [hb _ (by omega : 2 ≤ 2), hb _ (by omega : 2 ≤ 3), hb _ (by omega : 2 ≤ 4),
    hb _ (by decide : 2 ≤ 0x1F), hb _ (by decide : 2 ≤ 0x1E), hs _ _ (by omega : 2 ≤ 5),
    hs _ _ (by decide : 2 ≤ ENTRY_EXTRA_OFFSET), hsch]

theorem mem_dirSlots {d : Device} {p : Position} :
    p ∈ dirSlots d s dir ↔ ∃ l ∈ dir, ∃ k, k < usedBytes (d.blk s l) / 32 ∧
      p = ⟨l, UInt8.ofNat (32 * k), 32⟩ := by
  unfold dirSlots
  rw [List.mem_flatMap]
  constructor
  · rintro ⟨l, hl, hp⟩
    obtain ⟨k, hk, rfl⟩ := List.mem_map.1 hp
    exact ⟨l, hl, k, List.mem_range.1 hk, rfl⟩
  · rintro ⟨l, hl, k, hk, rfl⟩
    exact ⟨l, hl, List.mem_map.2 ⟨k, List.mem_range.2 hk, rfl⟩⟩

/-- **C30** With no free slot in a directory whose last sector is full, and the sectors of
the directory marked as allocated: either the operation fails and changes nothing, or a free
sector is linked to the end of the directory.  The new entry is the first slot of that sector;
the old slots hold the same entries as before, the eight new ones are free, the sector is
allocated, and no other sector changes. -/
theorem C30_new_block (hw : Wf disk.dev s) (hwr : Writable disk.dev) (hf : disk.format = some f)
    (hr : disk.bam = some r) (hcell : disk.cells[r]? = some b) (hb : BamOf b s.type)
    (hd : dir.head? = some f.firstDirectoryLocation) (hc : IsChain disk.dev s dir content)
    (ht : dir.getLast? = some t) (hfull : usedBytes (disk.dev.blk s t) = 256)
    (hnone : ∀ p ∈ dirSlots disk.dev s dir, slotFree disk.dev s p = false)
    (halloc : ∀ l ∈ dir, isFree b l = false) :
    (∃ y, b.nextFreeBlock (some t) = .error y ∧
      Disk.nextFreeDirectoryEntry disk = (.error y, disk)) ∨
    ∃ new e d' b', b.nextFreeBlock (some t) = .ok new ∧
      Disk.nextFreeDirectoryEntry disk =
        (.ok e, { disk with dev := d', cells := disk.cells.set r b' }) ∧
      s.Valid new ∧ new ∉ dir ∧ e.position = some ⟨new, 0, 32⟩ ∧
      (∃ c, IsChain d' s (dir ++ [new]) c) ∧
      dirSlots d' s (dir ++ [new]) = dirSlots disk.dev s dir ++ sectorSlots new ∧
      (∀ p ∈ sectorSlots new, slotFree d' s p = true) ∧
      (∀ p ∈ dirSlots disk.dev s dir, entryAt d' s p = entryAt disk.dev s p ∧
        slotFree d' s p = slotFree disk.dev s p) ∧
      (∀ l, s.Valid l → l ≠ new → l ≠ t → d'.blk s l = disk.dev.blk s l) ∧
      (∀ l, ValidLoc s.type (bamTracks s.type) l →
        (isFree b' l = true ↔ isFree b l = true ∧ l ≠ new)) := by
  obtain ⟨init, t', hit, l0, l1, -⟩ := hc.last
  have : t' = t := by
    rw [hit, List.getLast?_append] at ht
    simpa using ht
  subst this
  have hfind : (dirSlots disk.dev s (init ++ [t'])).find? (slotFree disk.dev s) = none := by
    rw [← hit]
    exact List.find?_eq_none.2 fun q hq => by rw [hnone q hq]; simp
  have hscan := scanFree_used hw init t' f.firstDirectoryLocation (hit ▸ hc.valid) (chain_init (hit ▸ hc))
  rw [hfind, ← hit] at hscan
  simp only [hfull] at hscan
  rw [if_pos (by decide)] at hscan
  have hrun : Disk.nextFreeDirectoryEntry disk = Disk.withBam r (extendDirectory t') disk := by
    unfold Disk.nextFreeDirectoryEntry
    rw [M.bind_of_ok (m := M.get) (s := disk) (s' := disk) (a := disk) rfl]
    rw [M.bind_of_ok (s' := disk) (a := f) (by rw [M.run_lift]; unfold Disk.diskFormat; rw [hf])]
    rw [M.bind_of_ok (s' := disk) (a := .inr t')
      (by rw [M.run_lift, chainItems_used hw hc hd, hscan])]
    simp only
    rw [M.bind_of_ok (s' := disk) (a := r) (by rw [M.run_lift]; unfold Disk.bamRef; rw [hr])]
  have htm : t' ∈ dir := by rw [hit]; simp
  have htv := hc.valid t' htm
  rw [hrun]
  unfold Disk.withBam
  rw [hcell]
  simp only
  cases hn : b.nextFreeBlock (some t') with
  | error y =>
    left
    refine ⟨y, rfl, ?_⟩
    have : extendDirectory t' ⟨disk.dev, b⟩ = (.error y, ⟨disk.dev, b⟩) := by
      unfold extendDirectory
      exact M.bind_of_error (by rw [readBam_run, hn])
    rw [this]
    simp only
    rw [set_getElem? hcell]
  | ok new =>
    right
    obtain ⟨hv, hfr, -, -⟩ := C08_result_valid hb (some t') hn
    have hnd : new ∉ dir := fun hm => by rw [halloc new hm] at hfr; cases hfr
    have hne : new ≠ t' := fun e => hnd (e ▸ htm)
    have hnv : s.Valid new := by
      have hle : bamTracks s.type ≤ s.tracks :=
        (by decide : ∀ s ∈ shapes, bamTracks s.type ≤ s.tracks) s hw.shape
      exact ⟨hv.1, Nat.le_trans hv.2.1 hle, hv.2.2⟩
    obtain ⟨fresh, hf1, hf2, hf3, hf4, hf5⟩ := freshDirectory_ok (hw.blk_length hnv)
    have w1 : Wf (disk.dev.put s new fresh) s := hw.put hnv hf2
    obtain ⟨b', hb', hfl⟩ := allocate_ok hb hv.inBam
    have hll : (splice ((disk.dev.put s new fresh).blk s t') 0 [new.track, new.sector]).length = 256 := by
      rw [length_splice _ _ _ (by rw [w1.blk_length htv]; simp), w1.blk_length htv]
    have hrun2 : extendDirectory t' ⟨disk.dev, b⟩ =
        (.ok (DirectoryEntry.parse32 (slice fresh 0 ENTRY_SIZE) (some ⟨new, 0, UInt8.ofNat ENTRY_SIZE⟩)),
          ⟨(disk.dev.put s new fresh).put s t'
            (splice ((disk.dev.put s new fresh).blk s t') 0 [new.track, new.sector]), b'⟩) := by
      unfold extendDirectory
      rw [M.bind_of_ok (s := (⟨disk.dev, b⟩ : St)) (s' := ⟨disk.dev, b⟩) (a := new)
        (by rw [readBam_run, hn])]
      rw [M.bind_of_ok (s := (⟨disk.dev, b⟩ : St)) (a := ()) (updDev_ok (hw.sectorMut_ok hwr hnv hf1))]
      have hsec : (disk.dev.put s new fresh).sector new = .ok fresh := by
        rw [w1.sector hnv, hw.blk_put_same hnv hf2]
      rw [M.bind_of_ok (s' := (⟨disk.dev.put s new fresh, b⟩ : St)) (a := fresh)
        (by rw [readDev_run, hsec])]
      rw [M.bind_of_ok (s' := (⟨disk.dev.put s new fresh, b⟩ : St))
        (a := DirectoryEntry.parse32 (slice fresh 0 ENTRY_SIZE)
          (some ⟨new, 0, UInt8.ofNat ENTRY_SIZE⟩))
        (by
          rw [M.run_lift]
          unfold DirectoryEntry.parse
          rw [if_pos (by rw [length_slice _ _ _ (by simp only [ENTRY_SIZE]; omega)])])]
      rw [M.bind_of_ok (a := ()) (updBam_ok (st := (⟨disk.dev.put s new fresh, b⟩ : St)) hb')]
      rw [M.bind_of_ok (a := ())
        (updDev_ok (st := ⟨disk.dev.put s new fresh, b'⟩)
          (w1.sectorMut_ok (hwr.put _) htv
            (f := fun block => .ok (splice block 0 [new.track, new.sector])) rfl))]
      rw [M.run_pure]
    generalize hd' : (disk.dev.put s new fresh).put s t'
            (splice ((disk.dev.put s new fresh).blk s t') 0 [new.track, new.sector]) = d' at hrun2
    have hnew : d'.blk s new = fresh := by
      rw [← hd', w1.blk_put_other htv hnv hne hll, hw.blk_put_same hnv hf2]
    have hlast : d'.blk s t' = splice (disk.dev.blk s t') 0 [new.track, new.sector] := by
      rw [← hd', w1.blk_put_same htv hll, hw.blk_put_other hnv htv hne.symm hf2]
    have hother : ∀ l, s.Valid l → l ≠ new → l ≠ t' → d'.blk s l = disk.dev.blk s l := by
      intro l hl h1 h2
      rw [← hd', w1.blk_put_other htv hl h2 hll, hw.blk_put_other hnv hl h1 hf2]
    have hinit : ∀ l ∈ init, d'.blk s l = disk.dev.blk s l := by
      intro l hl
      have hlm' : l ∈ dir := by rw [hit]; simp [hl]
      refine hother l (hc.valid l hlm') ?_ ?_
      · rintro rfl; exact hnd hlm'
      · rintro rfl
        have := hc.nodup
        rw [hit, List.nodup_append] at this
        exact this.2.2 l hl l (by simp) rfl
    have hlen := hw.blk_length htv
    have hchain : IsChain d' s (dir ++ [new]) (payload d' s dir ++
        slice (d'.blk s new) 2 ((byteAt (d'.blk s new) 1).toNat - 1)) := by
      refine ⟨?_, ?_, ?_, dir, new, rfl, by rw [hnew]; exact hf3, by rw [hnew, hf4]; decide, rfl⟩
      · intro l hl
        rcases List.mem_append.1 hl with hl | hl
        · exact hc.valid l hl
        · rw [List.mem_singleton.1 hl]; exact hnv
      · rw [List.nodup_append]
        refine ⟨hc.nodup, by simp, ?_⟩
        intro a ha c hc' hac
        rw [List.mem_singleton.1 hc'] at hac
        exact hnd (hac ▸ ha)
      · have e : dir ++ [new] = init ++ t' :: [new] := by rw [hit]; simp
        rw [e, linked_append_cons]
        refine ⟨Linked.frame_init (hit ▸ hc.linked) fun l hl => by rw [hinit l hl], ?_, trivial⟩
        rw [hlast]
        unfold linkBytes
        rw [byteAt_splice _ _ _ _ (by omega), byteAt_splice _ _ _ _ (by omega)]
        rfl
    have husedt : usedBytes (d'.blk s t') = 256 := by
      have := chain_init hchain t' htm
      unfold usedBytes
      rw [if_neg this]
    have husedn : usedBytes (d'.blk s new) = 256 := by
      unfold usedBytes
      rw [hnew, if_pos hf3, hf4]
      rfl
    have hused : ∀ l ∈ dir, usedBytes (d'.blk s l) = usedBytes (disk.dev.blk s l) := by
      intro l hl
      rw [hit] at hl
      rcases List.mem_append.1 hl with hl | hl
      · rw [hinit l hl]
      · rw [List.mem_singleton.1 hl, husedt, hfull]
    have hdata : ∀ p ∈ dirSlots disk.dev s dir, ∀ k, 2 ≤ k →
        (slotData d' s p)[k]? = (slotData disk.dev s p)[k]? := by
      intro p hp k hk
      obtain ⟨l, hl, i, hi, rfl⟩ := mem_dirSlots.1 hp
      have hi8 : i < 8 := by have := usedBytes_le (disk.dev.blk s l); omega
      rw [slotData_at _ _ _ hi8, slotData_at _ _ _ hi8]
      rw [hit] at hl
      rcases List.mem_append.1 hl with hl | hl
      · rw [hinit l hl]
      · rw [List.mem_singleton.1 hl, hlast, getElem?_slice, getElem?_slice]
        split
        · rw [getElem?_splice _ _ _ _ (by omega),
            if_neg (by omega), if_neg (by simp only [List.length_cons, List.length_nil]; omega)]
        · rfl
    refine ⟨new, _, d', b', rfl, by rw [hrun2], hnv, hnd, rfl, ⟨_, hchain⟩, ?_, ?_, ?_, hother, ?_⟩
    · unfold dirSlots
      rw [List.flatMap_append]
      congr 1
      · apply flatMap_congr_left
        intro l hl
        rw [hused l hl]
      · simp only [List.flatMap_cons, List.flatMap_nil, List.append_nil, husedn]
        rfl
    · intro p hp
      obtain ⟨k, hk, rfl⟩ := List.mem_map.1 hp
      rw [List.mem_range] at hk
      unfold slotFree
      rw [slotData_at _ _ _ hk, byteAt_slice _ _ _ _ (by omega), hnew, hf5 _ (by omega) (by omega)]
      rfl
    · intro p hp
      have hh := hdata p hp
      refine ⟨parse32_congr _ hh, ?_⟩
      unfold slotFree byteAt
      rw [List.getD_eq_getElem?_getD, List.getD_eq_getElem?_getD, hh 2 (by omega)]
    · intro l hl
      rw [isFree_flip hfl]
      split
      · rename_i e; simp [e]
      · rename_i e; simp [e]

theorem createIn_position {slot e : DirectoryEntry} {name : Petscii} {type : FileType} {st st' : St}
    (h : createIn slot name type st = (.ok e, st')) : e.position = slot.position := by
  unfold createIn at h
  obtain ⟨_, _, -, h⟩ := bind_inv h
  obtain ⟨_, _, -, h⟩ := bind_inv h
  obtain ⟨_, _, -, h⟩ := bind_inv h
  obtain ⟨_, _, -, h⟩ := bind_inv h
  cases h
  rfl

/-- **C30** The entry of a created file is in the slot that `next_free_directory_entry` chooses. -/
theorem C30_create_takes_the_slot {name : Petscii} {type : FileType} {e : DirectoryEntry}
    {disk' : Disk} (hcreate : Disk.createFile name type .linear disk = (.ok (e, r), disk')) :
    ∃ slot disk₁, Disk.nextFreeDirectoryEntry disk = (.ok slot, disk₁) ∧
      e.position = slot.position := by
  unfold Disk.createFile at hcreate
  rw [if_neg (by simp)] at hcreate
  obtain ⟨_, d1, h1, hcreate⟩ := bind_inv hcreate
  obtain ⟨_, d2, h2, hcreate⟩ := bind_inv hcreate
  obtain ⟨slot, d3, h3, hcreate⟩ := bind_inv hcreate
  obtain ⟨ref, d4, h4, hcreate⟩ := bind_inv hcreate
  obtain ⟨e', d5, h5, hcreate⟩ := bind_inv hcreate
  obtain ⟨_, d6, h6, hcreate⟩ := bind_inv hcreate
  cases hcreate
  have e1 : d1 = disk := (Prod.ext_iff.1 h1).2.symm
  have e2 : d2 = d1 := (Prod.ext_iff.1 h2).2.symm
  rw [e2, e1] at h3
  refine ⟨slot, d3, h3, ?_⟩
  unfold Disk.withBam at h5
  split at h5
  · cases h5
  · rename_i b hb
    have h5' := (Prod.ext_iff.1 h5).1
    exact createIn_position (st := ⟨d4.dev, b⟩) (st' := (createIn slot name type ⟨d4.dev, b⟩).2)
      (Prod.ext h5' rfl)

/-! ### The hypotheses are met by the disks this library makes -/

theorem slots_of_ready {v : Volume} (hod : OnDisk disk.dev s v) {p : Position}
    (hp : p ∈ dirSlots disk.dev s v.dir) :
    ∃ i, i < v.slots.length ∧ p = slotPos v.dir i ∧
      slotData disk.dev s p = slotAt disk.dev s v.dir i := by
  obtain ⟨l, hl, k, hk, rfl⟩ := mem_dirSlots.1 hp
  have hk8 : k < 8 := by have := usedBytes_le (disk.dev.blk s l); omega
  obtain ⟨j, hj, rfl⟩ := List.getElem_of_mem hl
  have hc := hod.slotCount
  have e1 : (8 * j + k) / 8 = j := by omega
  have e2 : (8 * j + k) % 8 = k := by omega
  refine ⟨8 * j + k, by omega, ?_, ?_⟩
  · unfold slotPos
    rw [e1, e2, List.getD_eq_getElem?_getD, List.getElem?_eq_getElem hj]
    rfl
  · rw [slotData_at _ _ _ hk8]
    unfold slotAt
    rw [e1, e2, List.getD_eq_getElem?_getD, List.getElem?_eq_getElem hj]
    rfl

/-- A disk in use meets the hypotheses of `C30_listing` and `C30_new_block`. -/
theorem meets_hypotheses {a : Store} (h : Reaches x a) :
    ∃ s f hd dir content r b t, Wf x.disk.dev s ∧ Writable x.disk.dev ∧ x.disk.format = some f ∧
      x.disk.header = some hd ∧ hd.geos = none ∧ x.disk.bam = some r ∧ x.disk.cells[r]? = some b ∧
      BamOf b s.type ∧ dir.head? = some f.firstDirectoryLocation ∧ IsChain x.disk.dev s dir content ∧
      dir.getLast? = some t ∧ usedBytes (x.disk.dev.blk s t) = 256 ∧
      (∀ l ∈ dir, isFree b l = false) ∧
      ((∀ y ∈ a.slots, y ≠ none) → ∀ p ∈ dirSlots x.disk.dev s dir, slotFree x.disk.dev s p = false) := by
  obtain ⟨s, v, r, b, hrep⟩ := h.rep
  have hready := hrep.ready
  have hod := hready.onDisk
  obtain ⟨content, hc⟩ := hod.dirChain
  obtain ⟨init, t, hit, t0, -⟩ := hc.last
  have ht : v.dir.getLast? = some t := by rw [hit]; simp
  refine ⟨s, s.type.format, v.header, v.dir, content, r, b, t, hod.wf, hready.mounted.writable,
    hready.format, hready.header, hready.noGeos, hready.bam, hready.cell,
    hready.mounted.recorded.consistent.toBamOf, ?_, hc, ht, ?_, ?_, ?_⟩
  · rw [hod.dirFirst]
    cases s.type <;> rfl
  · unfold usedBytes
    rw [if_pos t0, hod.dirFull t ht]
    rfl
  · intro l hl
    have hv := hod.dir_valid hl
    have htr := (hod.dirTrack l hl).1
    refine (hready.mounted.recorded.exact l ⟨hv.1, ?_, hv.2.2⟩).2 (.inr (.inl hl))
    rw [htr]
    cases s.type <;> decide
  · intro hall p hp
    obtain ⟨i, hi, -, hdata⟩ := slots_of_ready hod hp
    unfold slotFree
    rw [hdata, ← scratched_iff]
    have := hod.slots i _ (List.getElem?_eq_getElem hi)
    cases hx : v.slots[i] with
    | none =>
      have := (SlotsRep.none_iff hrep.slots).1 (by rw [List.getElem?_eq_getElem hi, hx])
      exact absurd rfl (hall _ (List.mem_of_getElem? this))
    | some f =>
      rw [hx] at this
      have h2 := this.2 ⟨⟨0, 0⟩, 0, 0⟩
      have h3 := this.1
      have h4 := congrArg DirectoryEntry.attributes h2
      rw [parse32_attributes] at h4
      rw [h4]
      exact h3

/-- Eight files on a newly formatted disk: no free slot. -/
example : ∃ x a, Reaches x a ∧ a.slots.length = 8 ∧ ∀ y ∈ a.slots, y ≠ none := by
  obtain ⟨x, hx⟩ := exists_formatted .d64 [0x41] (by decide) (0x42, 0x43)
  have hd : (Store.run ((List.range 8).map fun n => .create [0x41, UInt8.ofNat n] .PRG .linear)
      (Store.empty .d64 [0x41] (0x42, 0x43))).map (fun p => (p.2.slots.length, p.2.slots.all Option.isSome))
      = some (8, true) := by
    decide +kernel
  obtain ⟨⟨rs, a⟩, hr, ha⟩ := Option.map_eq_some_iff.1 hd
  obtain ⟨x', -, hx'⟩ := hx.run hr
  cases ha' : a.slots with
  | nil => rw [ha'] at ha; cases ha
  | cons y ys =>
    have h1 := (Prod.ext_iff.1 ha).1
    have h2 := (Prod.ext_iff.1 ha).2
    refine ⟨x', a, hx', h1, fun y hy hn => ?_⟩
    have := List.all_eq_true.1 h2 y hy
    rw [hn] at this
    cases this

/-! ## C60: does placing an entry ever panic? -/

/-- **C60, refuted.** When the directory has no free slot and the used part of its last sector is not a
whole number of slots, placing a new entry panics. -/
theorem C60_short_tail_panics (hw : Wf disk.dev s) (hf : disk.format = some f)
    (hd : dir.head? = some f.firstDirectoryLocation) (hc : IsChain disk.dev s dir content)
    (ht : dir.getLast? = some t) (hshort : usedBytes (disk.dev.blk s t) % 32 ≠ 0)
    (hnone : ∀ p ∈ dirSlots disk.dev s dir, slotFree disk.dev s p = false) :
    Disk.nextFreeDirectoryEntry disk = (rpanic, disk) := by
  obtain ⟨init, t', hit, -⟩ := hc.last
  have : t' = t := by
    rw [hit, List.getLast?_append] at ht
    simpa using ht
  subst this
  have hfind : (dirSlots disk.dev s (init ++ [t'])).find? (slotFree disk.dev s) = none := by
    rw [← hit]
    exact List.find?_eq_none.2 fun q hq => by rw [hnone q hq]; simp
  have hscan := scanFree_used hw init t' f.firstDirectoryLocation (hit ▸ hc.valid) (chain_init (hit ▸ hc))
  rw [hfind, ← hit] at hscan
  simp only at hscan
  rw [if_neg hshort] at hscan
  unfold Disk.nextFreeDirectoryEntry
  rw [M.bind_of_ok (m := M.get) (s := disk) (s' := disk) (a := disk) rfl]
  rw [M.bind_of_ok (s' := disk) (a := f) (by rw [M.run_lift]; unfold Disk.diskFormat; rw [hf])]
  rw [M.bind_of_error (s' := disk) (e := .panic)
    (by rw [M.run_lift, chainItems_used hw hc hd, hscan])]

theorem createFile_panics {name : Petscii} (hname : name.length ≤ 16) (hi : disk.items = [])
    (hfree : Disk.nextFreeDirectoryEntry disk = (rpanic, disk)) (type : FileType) :
    Disk.createFile name type .linear disk = (rpanic, disk) := by
  have havail : disk.checkFilenameAvailability name = .ok () := by
    unfold Disk.checkFilenameAvailability Disk.findDirectoryEntry
    rw [hi]
    rfl
  unfold Disk.createFile
  rw [if_neg (by simp)]
  rw [M.bind_of_ok (m := M.lift (checkFilenameValidity name)) (s := disk) (s' := disk) (a := ())
    (by rw [M.run_lift]; unfold checkFilenameValidity; rw [if_neg (by simp only [ENTRY_FILENAME_LENGTH]; omega)])]
  rw [M.bind_of_ok (m := M.read fun disk => disk.checkFilenameAvailability name) (s := disk)
    (s' := disk) (a := ()) (by rw [M.run_read, havail])]
  exact M.bind_of_error hfree

/-- **C60, refuted.** A program can get there: format a disk, write a directory sector whose link
says that one byte is used, and create a file. -/
theorem C60_create_panics : ∃ x : Session, ∃ a, Reaches x a ∧
    (runs [.writeSector ⟨18, 1⟩ (0 :: 1 :: List.replicate 254 0), .create [0x41] .PRG .linear] x).1 =
      [.ok (), .error .panic] := by
  obtain ⟨x, hx⟩ := exists_formatted .d64 [0x41] (by decide) (0x42, 0x43)
  refine ⟨x, _, hx, ?_⟩
  obtain ⟨s, v, r, b, hrep⟩ := hx.rep
  have hready := hrep.ready
  have hod := hready.onDisk
  have hst : s.type = .d64 := hrep.type.symm
  have hlv : s.Valid ⟨18, 1⟩ := by
    have := hod.dir_valid (List.mem_of_mem_head? hod.dirFirst)
    rw [hst] at this
    exact this
  generalize hdata : ((0 : Byte) :: 1 :: List.replicate 254 0) = data
  have hlen : data.length = 256 := by
    rw [← hdata, List.length_cons, List.length_cons, List.length_replicate]
  have h0 : byteAt data 0 = 0 := by rw [← hdata]; rfl
  have h1 : byteAt data 1 = 1 := by rw [← hdata]; rfl
  have hws : x.disk.dev.writeSector ⟨18, 1⟩ data = .ok (x.disk.dev.put s ⟨18, 1⟩ data) :=
    (writeSector_ok_iff hod.wf).2 ⟨hlen, hready.mounted.writable, hlv, rfl⟩
  have hrun1 : Session.step (.writeSector ⟨18, 1⟩ data) x =
      (.ok (), { x with disk := { x.disk with dev := x.disk.dev.put s ⟨18, 1⟩ data } }) :=
    onDisk_run (by simp only [Disk.writeSector, Disk.onDev, M.run_zoom, M.run_update, hws])
  have hw := hod.wf.put hlv hlen
  have hblk := hod.wf.blk_put_same hlv hlen
  have hc : IsChain (x.disk.dev.put s ⟨18, 1⟩ data) s [⟨18, 1⟩] [] := by
    refine ⟨by simpa using hlv, by simp, trivial, [], ⟨18, 1⟩, rfl, ?_, ?_, ?_⟩
    · rw [hblk, h0]
    · rw [hblk, h1]; decide
    · rw [hblk, h1]; rfl
  have hu : usedBytes data = 2 := by
    unfold usedBytes; rw [if_pos h0, h1]; rfl
  have hslots : dirSlots (x.disk.dev.put s ⟨18, 1⟩ data) s [⟨18, 1⟩] = [] := by
    unfold dirSlots
    simp only [List.flatMap_cons, List.flatMap_nil, List.append_nil]
    rw [hblk, hu]
    rfl
  have hdirloc : [(⟨18, 1⟩ : Location)].head? = some s.type.format.firstDirectoryLocation := by
    rw [hst]; rfl
  have hfree := C60_short_tail_panics
    (disk := { x.disk with dev := x.disk.dev.put s ⟨18, 1⟩ data }) hw hready.format hdirloc hc
    (t := ⟨18, 1⟩) rfl (by rw [hblk, hu]; decide) (by rw [hslots]; simp)
  have hlist := C30_listing (disk := { x.disk with dev := x.disk.dev.put s ⟨18, 1⟩ data }) hw
    hready.format hready.header hready.noGeos hdirloc hc
  rw [hslots] at hlist
  have hcreate := createFile_panics (disk := { x.disk with dev := x.disk.dev.put s ⟨18, 1⟩ data })
    (name := [0x41]) (by decide) (collectRes_inv hlist) hfree .PRG
  have hrun2 : (Session.step (.create [0x41] .PRG .linear)
      { x with disk := { x.disk with dev := x.disk.dev.put s ⟨18, 1⟩ data } }).1 = .error .panic := by
    simp only [Session.step]
    rw [M.bind_of_error (onDisk_run hcreate)]
  simp only [runs, hrun1, hrun2]

theorem scanFree_damaged {d : Device} (hw : Wf d s) (e : Fail) : ∀ (ls : List Location) (last : Location),
    (∀ l ∈ ls, s.Valid l) →
    (∃ entry, scanFree (ls.map (fun l => .ok ⟨d.blk s l, l⟩) ++ [.error e]) last = .ok (.inl entry)) ∨
    scanFree (ls.map (fun l => .ok ⟨d.blk s l, l⟩) ++ [.error e]) last = .error e
  | [], last, _ => .inr rfl
  | l :: ls, last, hv => by
    have hb := hw.blk_length (hv l (by simp))
    have ih := scanFree_damaged hw e ls l fun x hx => hv x (by simp [hx])
    have hsc := scanChunks_used (d := d) (s := s) (l := l) hb (Nat.le_refl 256)
    rw [List.take_of_length_le (by omega)] at hsc
    simp only [List.map_cons, List.cons_append, scanFree]
    rw [hsc]
    split
    · exact .inl ⟨_, rfl⟩
    · exact ih

/-- Neither a panic nor an endless loop. -/
def Regular {α : Type} (r : Res α) : Prop := r ≠ .error .panic ∧ r ≠ .error .diverge

theorem regular_ok {α : Type} (a : α) : Regular (.ok a : Res α) := ⟨nofun, nofun⟩
theorem regular_fail {α : Type} (e : DiskError) : Regular (fail e : Res α) := ⟨nofun, nofun⟩

theorem stopItem_regular (d : Device) (s : Shape) (ls : List Location) (e : Location) :
    Regular (stopItem d s ls e) := by
  unfold stopItem
  split
  · exact regular_fail _
  · split
    · exact regular_fail _
    · split
      · exact regular_fail _
      · exact regular_ok _

theorem sectorMut_readOnly' {d : Device} (hr : ¬ Writable d) (l : Location)
    (f : List Byte → Res (List Byte)) : d.sectorMut l f = fail .readOnly := by
  unfold Writable at hr
  unfold Device.sectorMut Image.checkWritability
  rw [Classical.not_not.1 hr]
  rfl

theorem extendDirectory_regular {d : Device} (hw : Wf d s) (hb : BamOf b s.type) (hv : s.Valid t)
    (hbt : t.track.toNat ≤ bamTracks s.type) : Regular (extendDirectory t ⟨d, b⟩).1 := by
  unfold extendDirectory
  have htot := C10_total hb (some t) fun p hp => by cases hp; exact ⟨hv.1, hbt, hv.2.2⟩
  have hbad : ∀ e : DiskError, b.nextFreeBlock (some t) = fail e →
      Regular ((do
        let new ← St.readBam fun b => b.nextFreeBlock (some t)
        St.updDev fun d => d.sectorMut new freshDirectoryBlock
        let block ← St.readDev fun d => d.sector new
        let entry ← M.lift (DirectoryEntry.parse (slice block 0 ENTRY_SIZE)
          (some ⟨new, 0, UInt8.ofNat ENTRY_SIZE⟩))
        St.updBam fun b => b.allocate new
        St.updDev fun d => d.sectorMut t fun block => .ok (splice block 0 [new.track, new.sector])
        pure entry : M St DirectoryEntry) ⟨d, b⟩).1 := by
    intro e he
    rw [M.bind_of_error (s := (⟨d, b⟩ : St)) (s' := ⟨d, b⟩) (e := .err e) (by rw [readBam_run, he])]
    exact regular_fail _
  rcases htot with ⟨new, hn⟩ | hn | hn
  · obtain ⟨hnb, -⟩ := C08_result_valid hb (some t) hn
    have hnv : s.Valid new := by
      have hle : bamTracks s.type ≤ s.tracks :=
        (by decide : ∀ s ∈ shapes, bamTracks s.type ≤ s.tracks) s hw.shape
      exact ⟨hnb.1, Nat.le_trans hnb.2.1 hle, hnb.2.2⟩
    rw [M.bind_of_ok (s := (⟨d, b⟩ : St)) (s' := ⟨d, b⟩) (a := new) (by rw [readBam_run, hn])]
    by_cases hwr : Writable d
    · obtain ⟨fresh, hf1, hf2, -⟩ := freshDirectory_ok (hw.blk_length hnv)
      have w1 : Wf (d.put s new fresh) s := hw.put hnv hf2
      obtain ⟨b', hb', -⟩ := allocate_ok hb hnb.inBam
      rw [M.bind_of_ok (s := (⟨d, b⟩ : St)) (a := ()) (updDev_ok (hw.sectorMut_ok hwr hnv hf1))]
      have hsec : (d.put s new fresh).sector new = .ok fresh := by
        rw [w1.sector hnv, hw.blk_put_same hnv hf2]
      rw [M.bind_of_ok (s' := (⟨d.put s new fresh, b⟩ : St)) (a := fresh)
        (by rw [readDev_run, hsec])]
      rw [M.bind_of_ok (s' := (⟨d.put s new fresh, b⟩ : St))
        (a := DirectoryEntry.parse32 (slice fresh 0 ENTRY_SIZE)
          (some ⟨new, 0, UInt8.ofNat ENTRY_SIZE⟩))
        (by
          rw [M.run_lift]
          unfold DirectoryEntry.parse
          rw [if_pos (by rw [length_slice _ _ _ (by simp only [ENTRY_SIZE]; omega)])])]
      rw [M.bind_of_ok (a := ()) (updBam_ok (st := (⟨d.put s new fresh, b⟩ : St)) hb')]
      rw [M.bind_of_ok (a := ())
        (updDev_ok (st := ⟨d.put s new fresh, b'⟩)
          (w1.sectorMut_ok (hwr.put _) hv
            (f := fun block => .ok (splice block 0 [new.track, new.sector])) rfl))]
      exact regular_ok _
    · rw [M.bind_of_error (s' := (⟨d, b⟩ : St)) (e := .err .readOnly) (by
        show St.updDev (fun d => d.sectorMut new freshDirectoryBlock) ⟨d, b⟩ = _
        unfold St.updDev M.update
        simp only [sectorMut_readOnly' hwr]
        rfl)]
      exact regular_fail _
  · exact hbad _ hn
  · exact hbad _ hn

/-- Searching a directory for a free slot. -/
theorem scanFree_regular (hw : Wf disk.dev s) (hf : disk.format = some f)
    (hdir : ∀ f dir content t, disk.format = some f → dir.head? = some f.firstDirectoryLocation →
      IsChain disk.dev s dir content → dir.getLast? = some t →
      (∀ p ∈ dirSlots disk.dev s dir, slotFree disk.dev s p = false) →
      usedBytes (disk.dev.blk s t) % 32 = 0 ∧ t.track.toNat ≤ bamTracks s.type) :
    Regular (scanFree (chainItems disk.dev f.firstDirectoryLocation) f.firstDirectoryLocation) ∧
      ∀ t, scanFree (chainItems disk.dev f.firstDirectoryLocation) f.firstDirectoryLocation =
        .ok (.inr t) → s.Valid t ∧ t.track.toNat ≤ bamTracks s.type := by
  rcases Classical.em (∃ dir content, dir.head? = some f.firstDirectoryLocation ∧
    IsChain disk.dev s dir content) with ⟨dir, content, hd, hc⟩ | hno
  · obtain ⟨init, t, rfl, -⟩ := hc.last
    rw [chainItems_used hw hc hd, scanFree_used hw init t _ hc.valid (chain_init hc)]
    split
    · exact ⟨regular_ok _, fun t ht => by cases ht⟩
    · rename_i hnone
      obtain ⟨hsh, hbt⟩ := hdir f _ content t hf hd hc (by simp) fun q hq => by
        have := List.find?_eq_none.1 hnone q hq
        simpa using this
      rw [if_pos hsh]
      exact ⟨regular_ok _, fun t' ht => by cases ht; exact ⟨hc.valid t (by simp), hbt⟩⟩
  · obtain ⟨ls, e, hit, hp, -⟩ := chainItems_walk hw f.firstDirectoryLocation
    have hreg := stopItem_regular disk.dev s ls e
    cases hst : stopItem disk.dev s ls e with
    | ok c =>
      refine absurd ?_ hno
      obtain ⟨locs, h1⟩ : ∃ locs, chainLocations disk.dev f.firstDirectoryLocation = .ok locs := by
        unfold chainLocations chainSectors
        rw [hit, hst]
        rw [show (ls.map (fun l => (Except.ok ⟨disk.dev.blk s l, l⟩ : Res ChainSector)) ++ [.ok c]) =
          (ls.map (fun l => (⟨disk.dev.blk s l, l⟩ : ChainSector)) ++ [c]).map .ok by simp, collectRes_ok]
        exact ⟨_, rfl⟩
      rcases locations_or hw f.firstDirectoryLocation with ⟨locs', content, -, h2, h3⟩ | ⟨y, hy, -⟩
      · exact ⟨locs', content, h2, h3⟩
      · rw [h1] at hy; cases hy
    | error err =>
      rw [hit, hst]
      rw [hst] at hreg
      rcases scanFree_damaged hw err ls f.firstDirectoryLocation hp.valid with ⟨entry, h1⟩ | h1
      · rw [h1]; exact ⟨regular_ok _, fun t ht => by cases ht⟩
      · rw [h1]; exact ⟨⟨fun e => hreg.1 (by cases e; rfl), fun e => hreg.2 (by cases e; rfl)⟩,
          fun t ht => by cases ht⟩

/-- **C60** (partial: a full directory must end well) On every image whose directory chain, if it has
an end and no free slot, ends in a sector on a track of the BAM with a whole number of slots,
placing a new entry returns an entry or an error. -/
theorem C60_no_panic_partial (hw : Wf disk.dev s) (hr : disk.bam = some r)
    (hcell : disk.cells[r]? = some b) (hb : BamOf b s.type)
    (hdir : ∀ f dir content t, disk.format = some f → dir.head? = some f.firstDirectoryLocation →
      IsChain disk.dev s dir content → dir.getLast? = some t →
      (∀ p ∈ dirSlots disk.dev s dir, slotFree disk.dev s p = false) →
      usedBytes (disk.dev.blk s t) % 32 = 0 ∧ t.track.toNat ≤ bamTracks s.type) :
    Regular (Disk.nextFreeDirectoryEntry disk).1 := by
  unfold Disk.nextFreeDirectoryEntry
  rw [M.bind_of_ok (m := M.get) (s := disk) (s' := disk) (a := disk) rfl]
  cases hf : disk.format with
  | none =>
    rw [M.bind_of_error (s' := disk) (e := .err .unformatted)
      (by rw [M.run_lift]; unfold Disk.diskFormat; rw [hf])]
    exact regular_fail _
  | some f =>
    rw [M.bind_of_ok (s' := disk) (a := f) (by rw [M.run_lift]; unfold Disk.diskFormat; rw [hf])]
    have hscan := scanFree_regular hw hf hdir
    cases hs : scanFree (chainItems disk.dev f.firstDirectoryLocation) f.firstDirectoryLocation with
    | error e =>
      rw [M.bind_of_error (s' := disk) (e := e) (by rw [M.run_lift])]
      have := hscan.1
      rw [hs] at this
      exact ⟨fun e => this.1 (by cases e; rfl), fun e => this.2 (by cases e; rfl)⟩
    | ok y =>
      rw [M.bind_of_ok (s' := disk) (a := y) (by rw [M.run_lift])]
      cases y with
      | inl e => exact regular_ok _
      | inr t =>
        obtain ⟨hv, hbt⟩ := hscan.2 t hs
        simp only
        rw [M.bind_of_ok (s' := disk) (a := r) (by rw [M.run_lift]; unfold Disk.bamRef; rw [hr])]
        rw [withBam_run (m := extendDirectory t) hcell (Prod.ext rfl rfl)]
        exact extendDirectory_regular hw hb hv hbt

theorem nextFreeBlock_far (hb : BamOf b s.type) (hfar : bamTracks s.type < t.track.toNat) :
    b.nextFreeBlock (some t) = rpanic := by
  have hent : b.entry t.track.toNat = rpanic := by
    unfold Bam.entry
    rw [checkValidity_ok hb, res_bind_ok, subU_ok (by omega), res_bind_ok]
    unfold indexRes
    rw [List.getElem?_eq_none (by rw [hb.length]; omega)]
  have htrack : b.format.nextFreeTrack b t.track.toNat = rpanic := by
    unfold DiskFormat.nextFreeTrack
    split
    · unfold DiskFormat.nextFreeTrackGeos geosLoop
      rw [if_pos (by split <;> decide), hent]
      rfl
    · unfold DiskFormat.nextFreeTrackCbm cbmLoop
      rw [if_pos (by decide), hent]
      rfl
  unfold Bam.nextFreeBlock
  rw [checkValidity_ok hb, res_bind_ok]
  show b.format.nextFreeBlockFromPrevious b t = _
  unfold DiskFormat.nextFreeBlockFromPrevious
  rw [htrack]
  rfl

/-- **C60, refuted.** When the directory has no free slot and its last sector is on a track that the
BAM does not cover, placing a new entry panics. -/
theorem C60_far_tail_panics (hw : Wf disk.dev s) (hr : disk.bam = some r)
    (hcell : disk.cells[r]? = some b) (hb : BamOf b s.type) (hf : disk.format = some f)
    (hd : dir.head? = some f.firstDirectoryLocation) (hc : IsChain disk.dev s dir content)
    (ht : dir.getLast? = some t) (hfar : bamTracks s.type < t.track.toNat)
    (hnone : ∀ p ∈ dirSlots disk.dev s dir, slotFree disk.dev s p = false) :
    (Disk.nextFreeDirectoryEntry disk).1 = .error .panic := by
  by_cases hshort : usedBytes (disk.dev.blk s t) % 32 = 0
  · obtain ⟨init, t', hit, -⟩ := hc.last
    have : t' = t := by
      rw [hit, List.getLast?_append] at ht
      simpa using ht
    subst this
    have hfind : (dirSlots disk.dev s (init ++ [t'])).find? (slotFree disk.dev s) = none := by
      rw [← hit]
      exact List.find?_eq_none.2 fun q hq => by rw [hnone q hq]; simp
    have hscan := scanFree_used hw init t' f.firstDirectoryLocation (hit ▸ hc.valid) (chain_init (hit ▸ hc))
    rw [hfind, ← hit] at hscan
    simp only at hscan
    rw [if_pos hshort] at hscan
    unfold Disk.nextFreeDirectoryEntry
    rw [M.bind_of_ok (m := M.get) (s := disk) (s' := disk) (a := disk) rfl]
    rw [M.bind_of_ok (s' := disk) (a := f) (by rw [M.run_lift]; unfold Disk.diskFormat; rw [hf])]
    rw [M.bind_of_ok (s' := disk) (a := .inr t')
      (by rw [M.run_lift, chainItems_used hw hc hd, hscan])]
    simp only
    rw [M.bind_of_ok (s' := disk) (a := r) (by rw [M.run_lift]; unfold Disk.bamRef; rw [hr])]
    rw [withBam_run (m := extendDirectory t') hcell (Prod.ext rfl rfl)]
    show (extendDirectory t' ⟨disk.dev, b⟩).1 = _
    unfold extendDirectory
    rw [M.bind_of_error (s := (⟨disk.dev, b⟩ : St)) (s' := ⟨disk.dev, b⟩) (e := .panic)
      (by rw [readBam_run, nextFreeBlock_far hb hfar])]
  · rw [C60_short_tail_panics hw hf hd hc ht hshort hnone]

/-- **C60, refuted, and exactly when.** Placing a new entry never loops for ever; it panics if and only if
the directory chain has an end, no slot is free, and the last sector has a used part that is not a
whole number of slots or lies on a track that the BAM does not cover. -/
theorem C60_panics_iff_refuted (hw : Wf disk.dev s) (hr : disk.bam = some r)
    (hcell : disk.cells[r]? = some b) (hb : BamOf b s.type) :
    (Disk.nextFreeDirectoryEntry disk).1 ≠ .error .diverge ∧
    ((Disk.nextFreeDirectoryEntry disk).1 = .error .panic ↔
      ∃ f dir content t, disk.format = some f ∧ dir.head? = some f.firstDirectoryLocation ∧
        IsChain disk.dev s dir content ∧ dir.getLast? = some t ∧
        (∀ p ∈ dirSlots disk.dev s dir, slotFree disk.dev s p = false) ∧
        (usedBytes (disk.dev.blk s t) % 32 ≠ 0 ∨ bamTracks s.type < t.track.toNat)) := by
  rcases Classical.em (∃ f dir content t, disk.format = some f ∧
      dir.head? = some f.firstDirectoryLocation ∧
      IsChain disk.dev s dir content ∧ dir.getLast? = some t ∧
      (∀ p ∈ dirSlots disk.dev s dir, slotFree disk.dev s p = false) ∧
      (usedBytes (disk.dev.blk s t) % 32 ≠ 0 ∨ bamTracks s.type < t.track.toNat)) with h | h
  · have hp : (Disk.nextFreeDirectoryEntry disk).1 = .error .panic := by
      obtain ⟨f, dir, content, t, hf, hd, hc, ht, hnone, hshort | hfar⟩ := h
      · rw [C60_short_tail_panics hw hf hd hc ht hshort hnone]
      · exact C60_far_tail_panics hw hr hcell hb hf hd hc ht hfar hnone
    exact ⟨by rw [hp]; nofun, fun _ => h, fun _ => hp⟩
  · have hreg := C60_no_panic_partial hw hr hcell hb fun f dir content t hf hd hc ht hnone => by
      refine ⟨Decidable.byContradiction fun hn => h ⟨f, dir, content, t, hf, hd, hc, ht, hnone, .inl hn⟩,
        Nat.le_of_not_lt fun hn => h ⟨f, dir, content, t, hf, hd, hc, ht, hnone, .inr hn⟩⟩
    exact ⟨hreg.2, fun hp => absurd hp hreg.1, fun h' => absurd h' h⟩

end Cbm
