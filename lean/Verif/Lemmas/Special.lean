import Verif.Lemmas.Listed
import Verif.Lemmas.Sim
import Verif.Lemmas.Reopen
/-!
# Freeing the blocks of files of any kind, and what is on the image afterwards
-/

namespace Cbm
open Spec

variable {d d' : Device} {s : Shape} {b b' : Bam} {ty : DiskType} {st st₁ st₂ : St} {e : DirectoryEntry}
  {l : Location} {p : Position}

theorem blk_of_bytes (hf : ∀ l j, s.Valid l → ¬ bamArea s.type l j → (d'.blk s l)[j]? = (d.blk s l)[j]?)
    (hv : s.Valid l) (hl : ¬ bamLoc s.type l) : d'.blk s l = d.blk s l :=
  List.ext_getElem? fun j => hf l j hv fun hj => hl ⟨j, hj⟩

/-- Blocks were freed: `mem` in the BAM in use, `stored` in the one on the image.  Only
bytes of the BAM changed. -/
structure Freed (s : Shape) (st st' : St) (mem stored : List Location) : Prop where
  wf : Wf st'.dev s
  writable : Writable st'.dev
  consistent : Consistent st'.bam s.type
  format : st'.bam.format = st.bam.format
  frame : ∀ l j, s.Valid l → ¬ bamArea s.type l j → (st'.dev.blk s l)[j]? = (st.dev.blk s l)[j]?
  mem : ∀ m, isFree st'.bam m = (decide (m ∈ mem) || isFree st.bam m)
  stored : ∃ b, Synced st'.dev s b ∧ Consistent b s.type ∧
    ∀ m, isFree b m = (decide (m ∈ stored) || isFree st.bam m)

theorem removeChain_frees {locs : List Location} {content : List Byte} {start : Location}
    (hw : Wf st.dev s) (hwr : Writable st.dev) (hb : Consistent st.bam s.type)
    (hh : locs.head? = some start) (hc : IsChain st.dev s locs content)
    (hin : ∀ l ∈ locs, l.track.toNat ≤ bamTracks s.type) :
    ∃ st', removeChain start st = (.ok (), st') ∧ Freed s st st' locs locs := by
  have hlocs := chainLocations_chain hw hc hh
  obtain ⟨b1, r1, f1, o1, c1, m1⟩ := freeAll_ok st.dev locs (b := st.bam) hb.toBamOf fun l hl =>
    ⟨(hc.valid l hl).1, hin l hl, (hc.valid l hl).2.2⟩
  obtain ⟨ws, r2, o2, hold, hfr, -⟩ := flush_writes o1 hw hwr
  have hw2 := hw.puts o2
  refine ⟨⟨st.dev.puts s ws, b1⟩, ?_, ⟨hw2, hwr.puts, c1 hb, f1, ?_, m1, b1, ?_, c1 hb, m1⟩⟩
  · unfold removeChain
    rw [M.bind_of_ok (s := st) (s' := st) (a := locs) (by rw [readDev_run, hlocs])]
    rw [M.bind_of_ok (s' := ⟨st.dev, b1⟩) (a := ()) r1]
    unfold St.flushBam
    rw [M.bind_of_ok (m := M.get) (s := (⟨st.dev, b1⟩ : St)) (s' := ⟨st.dev, b1⟩) (a := ⟨st.dev, b1⟩) rfl]
    unfold St.onDev
    rw [M.run_zoom, r2]
  · intro l j hv hj
    exact hfr.all hv fun hin => hj (inSections_area _ _ _ hin)
  · exact read_of_holds hw2 o1 (c1 hb).fits hold _ rfl

/-- One more chain is freed; then the image holds everything freed so far. -/
theorem Freed.chain {mem stored locs : List Location} {content : List Byte} {start : Location}
    (h : Freed s st st₁ mem stored)
    (hh : locs.head? = some start) (hc : IsChain st.dev s locs content)
    (hin : ∀ l ∈ locs, l.track.toNat ≤ bamTracks s.type ∧ ¬ bamLoc s.type l) :
    ∃ st₂, removeChain start st₁ = (.ok (), st₂) ∧ Freed s st st₂ (mem ++ locs) (mem ++ locs) := by
  have hc' : IsChain st₁.dev s locs content :=
    hc.frame fun l hl => blk_of_bytes h.frame (hc.valid l hl) (hin l hl).2
  obtain ⟨st₂, r, f⟩ := removeChain_frees h.wf h.writable h.consistent hh hc' fun l hl => (hin l hl).1
  have key : ∀ m, (decide (m ∈ locs) || isFree st₁.bam m) =
      (decide (m ∈ mem ++ locs) || isFree st.bam m) := by
    intro m
    rw [h.mem]
    by_cases h1 : m ∈ locs <;> by_cases h2 : m ∈ mem <;> simp [h1, h2]
  refine ⟨st₂, r, f.wf, f.writable, f.consistent, f.format.trans h.format, ?_, ?_, ?_⟩
  · intro l j hv hj
    rw [f.frame l j hv hj, h.frame l j hv hj]
  · intro m
    rw [f.mem m, key]
  · obtain ⟨b, hs, hb, hm⟩ := f.stored
    exact ⟨b, hs, hb, fun m => by rw [hm m, key]⟩

/-- More blocks are freed without writing the BAM. -/
theorem Freed.list {mem stored ls : List Location} (h : Freed s st st₁ mem stored)
    (hin : ∀ l ∈ ls, ValidLoc s.type (bamTracks s.type) l) :
    ∃ st₂, M.forEach ls (fun l => St.updBam fun b => b.free l) st₁ = (.ok (), st₂) ∧
      Freed s st st₂ (mem ++ ls) stored := by
  obtain ⟨b1, r1, f1, o1, c1, m1⟩ := freeAll_ok st₁.dev ls (b := st₁.bam) h.consistent.toBamOf hin
  refine ⟨⟨st₁.dev, b1⟩, r1, h.wf, h.writable, c1 h.consistent, f1.trans h.format, h.frame, ?_, h.stored⟩
  intro m
  rw [m1 m, h.mem m]
  by_cases h1 : m ∈ ls <;> by_cases h2 : m ∈ mem <;> simp [h1, h2]

theorem Freed.one {mem stored : List Location} (h : Freed s st st₁ mem stored)
    (hin : ValidLoc s.type (bamTracks s.type) l) :
    ∃ st₂, St.updBam (fun b => b.free l) st₁ = (.ok (), st₂) ∧
      Freed s st st₂ (mem ++ [l]) stored := by
  obtain ⟨st₂, r, f⟩ := h.list (ls := [l]) (by simpa using hin)
  refine ⟨st₂, ?_, f⟩
  rw [M.run_forEach_cons] at r
  revert r
  cases hq : St.updBam (fun b => b.free l) st₁ with
  | mk q st =>
    cases q with
    | error x => intro r; simp at r
    | ok u => intro r; exact r

/-- A list of chains is freed. -/
theorem Freed.chains : ∀ (starts : List Location) (chains : List (List Location)) {mem stored : List Location}
    {st₁ : St}, Freed s st st₁ mem stored → starts.length = chains.length →
    (∀ q ∈ starts.zip chains, q.2.head? = some q.1 ∧ (∃ content, IsChain st.dev s q.2 content) ∧
      ∀ l ∈ q.2, l.track.toNat ≤ bamTracks s.type ∧ ¬ bamLoc s.type l) →
    ∃ st₂, M.forEach starts removeChain st₁ = (.ok (), st₂) ∧
      Freed s st st₂ (mem ++ chains.flatten) (if chains = [] then stored else mem ++ chains.flatten)
  | [], [], mem, stored, st₁, h, _, _ => by
    refine ⟨st₁, rfl, ?_⟩
    simpa using h
  | [], _ :: _, _, _, _, _, hl, _ => by simp at hl
  | _ :: _, [], _, _, _, _, hl, _ => by simp at hl
  | a :: starts, c :: chains, mem, stored, st₁, h, hl, hq => by
    obtain ⟨h1, ⟨content, h2⟩, h3⟩ := hq (a, c) (by simp)
    obtain ⟨st₂, r, f⟩ := h.chain h1 h2 h3
    obtain ⟨st₃, r', f'⟩ := Freed.chains starts chains f (by simpa using hl) fun q hm =>
      hq q (by simp [hm])
    refine ⟨st₃, ?_, ?_⟩
    · rw [M.run_forEach_cons, r]
      exact r'
    · rw [if_neg (by simp)]
      rw [List.flatten_cons]
      rw [List.append_assoc] at f'
      by_cases hn : chains = []
      · subst hn
        simpa using f'
      · rw [if_neg hn] at f'
        exact f'

/-! ## The entry of a listing -/

theorem InSlot.basics (h : InSlot d s e p) (hw : Wf d s) :
    e.position = some p ∧ e.filename.length ≤ 16 ∧
      ∀ old : List Byte, old.length = 9 → ∃ x, e.extra.toBytes old = .ok x ∧ x.length = 9 := by
  obtain ⟨border, rfl⟩ := h.entry
  have hl : (slotData d s p).length = 32 := by
    unfold slotData
    rw [length_slice _ _ _ (by rw [hw.blk_length h.valid]; exact h.fits)]
  refine ⟨rfl, ?_, ?_⟩
  · refine Nat.le_trans (fromPadded_length _ _) ?_
    simp only [slice, List.length_take, ENTRY_FILENAME_LENGTH]
    omega
  · intro old ho
    have h9 : (slice (slotData d s p) ENTRY_EXTRA_OFFSET EXTRA_SIZE).length = 9 :=
      length_slice _ _ _ (by rw [hl]; decide)
    simp only [entryAt, DirectoryEntry.parse32]
    generalize slice (slotData d s p) ENTRY_EXTRA_OFFSET EXTRA_SIZE = xs at h9
    cases entryScheme (slotData d s p) with
    | linear =>
      refine ⟨xs, ?_, h9⟩
      show copyFromSlice xs old = _
      unfold copyFromSlice
      rw [if_pos (by omega)]
    | relative =>
      refine ⟨_, if_pos (by rw [List.length_drop, h9]), ?_⟩
      have h1 : (splice old 0 [(Location.mk (byteAt xs 0) (byteAt xs 1)).track,
          (Location.mk (byteAt xs 0) (byteAt xs 1)).sector]).length = 9 := by
        rw [length_splice _ _ _ (by simp [ho])]; exact ho
      rw [length_splice _ _ _ (by rw [h1, List.length_drop, h9]; decide), h1]
    | geosSequential => exact ⟨_, rfl, by rw [length_splice _ _ _ (by simp [ho])]; exact ho⟩
    | geosVLIR => exact ⟨_, rfl, by rw [length_splice _ _ _ (by simp [ho])]; exact ho⟩

theorem scratch_byte (a : FileAttributes) :
    ({ a with fileType := .DEL, closed := false } : FileAttributes).toByte &&& 0x8F = 0 := by
  obtain ⟨t, u, r, k, c⟩ := a
  cases u <;> cases r <;> cases k <;> simp only <;> decide

/-- Where `delete` changes bytes: the BAM and the slot of the file. -/
def Touched (ty : DiskType) (p : Position) (l : Location) (j : Nat) : Prop :=
  bamArea ty l j ∨ l = p.location ∧ p.offset.toNat + 2 ≤ j ∧ j < p.offset.toNat + 32

/-- Scratching the slot of a listed entry, later. -/
theorem scratch_slot (hp : InSlot d s e p) (hw : Wf d s) (hw' : Wf d' s) (hwr : Writable d') :
    ∃ out : List Byte, out.length = 32 ∧ byteAt out 2 &&& 0x8F = 0 ∧
      (∀ i, i < 2 → out[i]? = (slotData d' s p)[i]?) ∧
      d'.writeEntry e.scratch =
        .ok (d'.put s p.location (splice (d'.blk s p.location) p.offset.toNat out)) := by
  obtain ⟨hpos, hn, hx⟩ := hp.basics hw
  have hl := hw'.blk_length hp.valid
  have hf := hp.fits
  have hsz : p.size.toNat = 32 := by rw [hp.size]; rfl
  have h2 : (slotData d' s p).length = 32 := length_slice _ _ _ (by omega)
  obtain ⟨x, hx, hxl⟩ := hx (slice (slotData d' s p) 0x15 9) (length_slice _ _ _ (by rw [h2]; decide))
  have h4 := toBytes_ok (e := e.scratch) h2 hn hx
  have hnl : (e.scratch.filename ++ List.replicate (16 - e.scratch.filename.length) PADDING_BYTE).length
      = 16 := by
    have : e.scratch.filename.length ≤ 16 := hn
    simp
    omega
  refine ⟨slotBytes (slotData d' s p)
    [e.scratch.attributes.toByte, e.scratch.firstSector.track, e.scratch.firstSector.sector]
    (e.scratch.filename ++ List.replicate (16 - e.scratch.filename.length) PADDING_BYTE) x
    [UInt8.ofNat (e.scratch.fileSize % 256), UInt8.ofNat (e.scratch.fileSize / 256)],
    slotBytes_length h2 rfl hnl hxl rfl, ?_, ?_, ?_⟩
  · have := byteAt_of_slice (i := 0) (slotBytes_attr h2 (a := [e.scratch.attributes.toByte,
      e.scratch.firstSector.track, e.scratch.firstSector.sector]) rfl hnl hxl
      (z := [UInt8.ofNat (e.scratch.fileSize % 256), UInt8.ofNat (e.scratch.fileSize / 256)]) rfl) (by decide)
    rw [show (2 : Nat) = 2 + 0 from rfl, this]
    exact scratch_byte e.attributes
  · intro i hi
    rw [slotBytes_get h2 rfl hnl hxl rfl, if_pos hi]
  · have hpos' : e.scratch.pos = .ok p := by
      unfold DirectoryEntry.pos
      rw [show e.scratch.position = some p from hpos]
    unfold Device.writeEntry Device.positionedWrite
    rw [hpos', res_bind_ok]
    refine hw'.sectorMut_ok hwr hp.valid ?_
    have h1 : subSlice (d'.blk s p.location) p.offset.toNat p.size.toNat = .ok (slotData d' s p) := by
      unfold subSlice
      rw [hsz, if_pos (by omega)]
      rfl
    rw [h1, res_bind_ok]
    unfold DirectoryEntry.positionedWrite
    rw [hpos', res_bind_ok, if_neg (by rw [h2, hsz]; decide), h4]
    rfl

/-- `delete`, given what freeing the blocks does. -/
theorem delete_freed {file : File} {mem stored : List Location} (hw : Wf st.dev s)
    (hp : InSlot st.dev s file.entry p) (hnb : ¬ bamLoc s.type p.location)
    (hrun : file.freeBlocks st = (.ok (), st₁)) (hf : Freed s st st₁ mem stored) :
    ∃ x : FSt, File.delete ⟨file, st⟩ = (.ok (), x) ∧ x.st.bam = st₁.bam ∧ Wf x.st.dev s ∧
      Writable x.st.dev ∧
      slotFree x.st.dev s p = true ∧
      (∀ l j, s.Valid l → ¬ Touched s.type p l j →
        (x.st.dev.blk s l)[j]? = (st.dev.blk s l)[j]?) ∧
      ∃ b, Synced x.st.dev s b ∧ Consistent b s.type ∧
        ∀ m, isFree b m = (decide (m ∈ stored) || isFree st.bam m) := by
  obtain ⟨out, ho, hb, h01, hwe⟩ := scratch_slot hp hw hf.wf hf.writable
  have hl := hf.wf.blk_length hp.valid
  have hfit := hp.fits
  have hnew : (splice (st₁.dev.blk s p.location) p.offset.toNat out).length = 256 := by
    rw [length_splice _ _ _ (by omega)]; exact hl
  refine ⟨⟨file.setEntry file.entry.scratch, ⟨st₁.dev.put s p.location
    (splice (st₁.dev.blk s p.location) p.offset.toNat out), st₁.bam⟩⟩, ?_, rfl, hf.wf.put hp.valid hnew,
    hf.writable.put _, ?_, ?_, ?_⟩
  · unfold File.delete
    rw [M.bind_of_ok (m := M.get) (s := (⟨file, st⟩ : FSt)) (s' := ⟨file, st⟩) (a := ⟨file, st⟩) rfl]
    rw [M.bind_of_ok (s' := ⟨file, st₁⟩) (a := ()) (by
      rw [M.run_zoom]
      show ((file.freeBlocks st).1, FSt.mk _ (file.freeBlocks st).2) = _
      rw [hrun])]
    rw [M.bind_of_ok (m := M.modify _) (s' := ⟨file.setEntry file.entry.scratch, st₁⟩) (a := ()) rfl]
    rw [M.run_zoom]
    show ((St.updDev (fun d => d.writeEntry file.entry.scratch) st₁).1, FSt.mk _ _) = _
    rw [updDev_ok (st := st₁) hwe]
  · have hd : slotData (st₁.dev.put s p.location (splice (st₁.dev.blk s p.location) p.offset.toNat out)) s p
        = out := by
      unfold slotData
      rw [hf.wf.blk_put_same hp.valid hnew, slice_splice_same' _ _ _ _ ho.symm (by omega)]
    unfold slotFree
    rw [hd, hb]
    rfl
  · intro l j hv hj
    have hja : ¬ bamArea s.type l j := fun h => hj (.inl h)
    show ((st₁.dev.put s p.location _).blk s l)[j]? = _
    rw [hf.wf.blk_put hp.valid hv hnew]
    split
    · rename_i heq
      subst heq
      rw [getElem?_splice _ _ _ _ (by omega), ho]
      split
      · exact hf.frame _ j hv hja
      split
      · rename_i h1
        have h2 : j < p.offset.toNat + 2 := Nat.not_le.1 fun h => hj (.inr ⟨rfl, h, by omega⟩)
        rw [h01 _ (by omega)]
        unfold slotData
        rw [getElem?_slice, if_pos (by omega), ← hf.frame _ j hv hja]
        congr 1
        omega
      · exact hf.frame _ j hv hja
    · exact hf.frame l j hv hja
  · obtain ⟨b, hs, hc, hm⟩ := hf.stored
    refine ⟨b, hs.area hf.wf (hf.wf.put hp.valid hnew) ?_, hc, hm⟩
    intro l j hv hj
    rw [hf.wf.blk_put_other hp.valid hv (fun h => hnb (h ▸ ⟨j, hj⟩)) hnew]

/-! ## The listing afterwards -/

/-- The entries listed for the first `n` slots of a sector. -/
def picked (d : Device) (s : Shape) (n : Nat) (l : Location) (border : Bool) : List DirectoryEntry :=
  ((List.range n).map fun k => (⟨l, UInt8.ofNat (32 * k), 32⟩ : Position)).filterMap fun q =>
    if slotFree d s q then none else some { entryAt d s q with geosBorder := border }

/-- The entries listed for a directory chain and a border sector. -/
def allPicked (d : Device) (s : Shape) (dir : List Location) (border : Option Location) :
    List DirectoryEntry :=
  (dir.flatMap fun l => picked d s (usedBytes (d.blk s l) / 32) l (border == some l)) ++
    border.toList.flatMap fun l => picked d s 8 l true

theorem picked_mem {n : Nat} {border : Bool} (h : e ∈ picked d s n l border) :
    ∃ k, k < n ∧ e.position = some ⟨l, UInt8.ofNat (32 * k), 32⟩ := by
  obtain ⟨q, hq, he⟩ := List.mem_filterMap.1 h
  obtain ⟨k, hk, rfl⟩ := List.mem_map.1 hq
  split at he
  · cases he
  · cases he
    exact ⟨k, List.mem_range.1 hk, rfl⟩

theorem directory_picked {disk : Disk} {f : DiskFormat} {h : Header} {dir : List Location}
    {content : List Byte} (hw : Wf disk.dev s) (hf : disk.format = some f) (hh : disk.header = some h)
    (hd : dir.head? = some f.firstDirectoryLocation) (hc : IsChain disk.dev s dir content)
    (hb : ∀ g, h.geos = some g → s.Valid g.border) :
    disk.directory = .ok (allPicked disk.dev s dir (h.geos.map GEOSDiskHeader.border)) := by
  have hi : disk.items = (allPicked disk.dev s dir (h.geos.map GEOSDiskHeader.border)).map .ok := by
    rw [items_of hf hh]
    unfold directoryItems directoryBlocks allPicked
    rw [chainItems_used hw hc hd, List.flatMap_append, List.map_append, List.flatMap_map,
      List.map_flatMap]
    refine congr (congrArg _ ?_) ?_
    · apply flatMap_congr_left
      intro l hl
      simp only
      rw [sectorEntries_used (hw.blk_length (hc.valid l hl))]
      cases h.geos with
      | none => rfl
      | some g => rfl
    · cases hg : h.geos with
      | none => rfl
      | some g =>
        have hv := hb g hg
        have hl := hw.blk_length hv
        simp only [Option.map_some, Option.toList_some, List.flatMap_cons, List.flatMap_nil,
          List.append_nil, hw.sector hv, beq_self_eq_true]
        have := sectorEntries_take (d := disk.dev) (s := s) (l := g.border) hl (Nat.le_refl 256) true
        rw [List.take_of_length_le (by omega)] at this
        rw [this]
        rfl
  unfold Disk.directory
  rw [hi, collectRes_ok]

theorem directory_border {disk : Disk} {f : DiskFormat} {h : Header} {es : List DirectoryEntry}
    (hw : Wf disk.dev s) (hf : disk.format = some f) (hh : disk.header = some h)
    (hes : disk.directory = .ok es) : ∀ g, h.geos = some g → s.Valid g.border := by
  intro g hg
  refine Classical.byContradiction fun hv => ?_
  have : ∃ xs y, disk.items = xs ++ [.error y] := by
    rw [items_of hf hh, hg]
    unfold directoryItems directoryBlocks
    simp only [hw.sector_invalid hv, List.flatMap_append, List.flatMap_cons, List.flatMap_nil,
      List.append_nil]
    exact ⟨_, _, rfl⟩
  obtain ⟨xs, y, hx⟩ := this
  unfold Disk.directory at hes
  rw [hx] at hes
  have key : ∀ (xs : List (Res DirectoryEntry)) (es : List DirectoryEntry),
      collectRes (xs ++ [.error y]) ≠ .ok es := by
    intro xs
    induction xs with
    | nil => intro es h; cases h
    | cons x xs ih =>
      intro es h
      cases x with
      | error q => cases h
      | ok z =>
        unfold collectRes at h
        simp only [List.cons_append] at h
        obtain ⟨ys, hys, -⟩ := res_bind_eq_ok.1 h
        exact ih _ hys
  exact key _ _ hes

theorem picked_scratched {n : Nat} {border : Bool} (hn : n ≤ 8) (hv : s.Valid l)
    (hnb : ¬ bamLoc s.type l) (hal : p.offset.toNat % 32 = 0) (hsz : p.size = 32)
    (hfree : slotFree d' s p = true)
    (hfr : ∀ l j, s.Valid l → ¬ Touched s.type p l j → (d'.blk s l)[j]? = (d.blk s l)[j]?) :
    picked d' s n l border = (picked d s n l border).filter fun e => e.position ≠ some p := by
  unfold picked
  rw [List.filter_filterMap]
  apply filterMap_congr_left
  intro q hq
  obtain ⟨k, hk, rfl⟩ := List.mem_map.1 hq
  have hk : k < 8 := Nat.lt_of_lt_of_le (List.mem_range.1 hk) hn
  by_cases hqp : (⟨l, UInt8.ofNat (32 * k), 32⟩ : Position) = p
  · rw [hqp, hfree]
    cases slotFree d s p with
    | true => rfl
    | false =>
      have : (entryAt d s p).position = some p := rfl
      rw [if_pos rfl, if_neg (by simp), Option.filter_some, if_neg (by simp [this])]
  · have hdata : slotData d' s ⟨l, UInt8.ofNat (32 * k), 32⟩ = slotData d s ⟨l, UInt8.ofNat (32 * k), 32⟩ := by
      rw [slotData_at _ _ _ hk, slotData_at _ _ _ hk]
      apply List.ext_getElem?
      intro i
      rw [getElem?_slice, getElem?_slice]
      split
      · refine hfr l _ hv ?_
        rintro (h | ⟨rfl, h1, h2⟩)
        · exact hnb ⟨_, h⟩
        · apply hqp
          obtain ⟨pl, po, ps⟩ := p
          simp only at hsz hal h1 h2 ⊢
          subst hsz
          have : po = UInt8.ofNat (32 * k) := by
            apply UInt8.toNat.inj
            rw [UInt8.toNat_ofNat']
            omega
          rw [this]
      · rfl
    have h1 : slotFree d' s ⟨l, UInt8.ofNat (32 * k), 32⟩ = slotFree d s ⟨l, UInt8.ofNat (32 * k), 32⟩ := by
      unfold slotFree; rw [hdata]
    have h2 : entryAt d' s ⟨l, UInt8.ofNat (32 * k), 32⟩ = entryAt d s ⟨l, UInt8.ofNat (32 * k), 32⟩ := by
      unfold entryAt; rw [hdata]
    rw [h1, h2]
    cases slotFree d s ⟨l, UInt8.ofNat (32 * k), 32⟩ with
    | true => rfl
    | false =>
      have : (entryAt d s ⟨l, UInt8.ofNat (32 * k), 32⟩).position = some ⟨l, UInt8.ofNat (32 * k), 32⟩ := rfl
      rw [if_neg (by simp), Option.filter_some, if_pos]
      simp only [this, Option.some.injEq, ne_eq, decide_not, Bool.not_eq_true', decide_eq_false_iff_not]
      exact hqp

/-- The links of a chain decide whether it is one. -/
theorem Spec.IsChain.relink {locs : List Location} {content : List Byte} (h : IsChain d s locs content)
    (hl : ∀ l ∈ locs, linkBytes (d'.blk s l) = linkBytes (d.blk s l)) :
    ∃ content', IsChain d' s locs content' := by
  obtain ⟨init, t, rfl, h1, h2, h3⟩ := h.last
  have ht := hl t (by simp)
  have t0 : byteAt (d'.blk s t) 0 = byteAt (d.blk s t) 0 := congrArg Location.track ht
  have t1 : byteAt (d'.blk s t) 1 = byteAt (d.blk s t) 1 := congrArg Location.sector ht
  refine ⟨_, h.valid, h.nodup, ?_, init, t, rfl, by rw [t0]; exact h1, by rw [t1]; exact h2, rfl⟩
  have key : ∀ ls : List Location, (∀ l ∈ ls, linkBytes (d'.blk s l) = linkBytes (d.blk s l)) →
      Linked d s ls → Linked d' s ls := by
    intro ls
    induction ls with
    | nil => exact fun _ h => h
    | cons a rest ih =>
      intro he h
      cases rest with
      | nil => trivial
      | cons c rest =>
        exact ⟨by rw [he a (by simp)]; exact h.1, ih (fun l hl => he l (by simp [hl])) h.2⟩
  exact key _ hl h.linked

/-- The listing after a slot was scratched: the same without the entry of that slot. -/
theorem directory_scratched {disk disk' : Disk} {f : DiskFormat} {h : Header} {dir : List Location}
    {content : List Byte} {es : List DirectoryEntry} (hw : Wf disk.dev s) (hw' : Wf disk'.dev s)
    (hf : disk.format = some f) (hh : disk.header = some h) (hf' : disk'.format = some f)
    (hh' : disk'.header = some h) (hd : dir.head? = some f.firstDirectoryLocation)
    (hc : IsChain disk.dev s dir content)
    (hnb : ∀ l ∈ dir ++ (h.geos.map GEOSDiskHeader.border).toList, ¬ bamLoc s.type l)
    (hes : disk.directory = .ok es)
    (hal : p.offset.toNat % 32 = 0) (hsz : p.size = 32) (hfree : slotFree disk'.dev s p = true)
    (hfr : ∀ l j, s.Valid l → ¬ Touched s.type p l j →
      (disk'.dev.blk s l)[j]? = (disk.dev.blk s l)[j]?) :
    disk'.directory = .ok (es.filter fun e => e.position ≠ some p) := by
  have hb := directory_border hw hf hh hes
  have hlink : ∀ l ∈ dir, linkBytes (disk'.dev.blk s l) = linkBytes (disk.dev.blk s l) := by
    intro l hl
    have : ∀ j, j < 2 → (disk'.dev.blk s l)[j]? = (disk.dev.blk s l)[j]? := fun j hj =>
      hfr l j (hc.valid l hl) fun ht => by
        rcases ht with ht | ⟨-, ht, -⟩
        · exact hnb l (by simp [hl]) ⟨j, ht⟩
        · omega
    unfold linkBytes byteAt
    rw [List.getD_eq_getElem?_getD, List.getD_eq_getElem?_getD, List.getD_eq_getElem?_getD,
      List.getD_eq_getElem?_getD, this 0 (by omega), this 1 (by omega)]
  obtain ⟨content', hc'⟩ := hc.relink hlink
  rw [directory_picked hw hf hh hd hc hb] at hes
  cases hes
  rw [directory_picked hw' hf' hh' hd hc' hb]
  refine congrArg Except.ok ?_
  unfold allPicked
  rw [List.filter_append, List.filter_flatMap, List.filter_flatMap]
  refine congr (congrArg _ ?_) ?_
  · apply flatMap_congr_left
    intro l hl
    have hu : usedBytes (disk'.dev.blk s l) = usedBytes (disk.dev.blk s l) := by
      have := hlink l hl
      have t0 : byteAt (disk'.dev.blk s l) 0 = byteAt (disk.dev.blk s l) 0 := congrArg Location.track this
      have t1 : byteAt (disk'.dev.blk s l) 1 = byteAt (disk.dev.blk s l) 1 := congrArg Location.sector this
      unfold usedBytes
      rw [t0, t1]
    rw [hu]
    exact picked_scratched (by have := usedBytes_le (disk.dev.blk s l); omega) (hc.valid l hl)
      (hnb l (by simp [hl])) hal hsz hfree hfr
  · apply flatMap_congr_left
    intro l hl
    obtain ⟨g, hg, rfl⟩ : ∃ g, h.geos = some g ∧ g.border = l := by
      cases hg : h.geos with
      | none => rw [hg] at hl; simp at hl
      | some g => rw [hg] at hl; simp at hl; exact ⟨g, rfl, hl.symm⟩
    exact picked_scratched (by omega) (hb g hg) (hnb _ (by simp [hg])) hal hsz hfree hfr

/-- The sector of the slot of a listed entry belongs to the directory. -/
theorem listed_sector {disk : Disk} {f : DiskFormat} {h : Header} {dir : List Location}
    {content : List Byte} {es : List DirectoryEntry} (hw : Wf disk.dev s)
    (hf : disk.format = some f) (hh : disk.header = some h)
    (hd : dir.head? = some f.firstDirectoryLocation) (hc : IsChain disk.dev s dir content)
    (hes : disk.directory = .ok es) (he : e ∈ es) (hp : e.position = some p) :
    p.location ∈ dir ++ (h.geos.map GEOSDiskHeader.border).toList := by
  rw [directory_picked hw hf hh hd hc (directory_border hw hf hh hes)] at hes
  cases hes
  unfold allPicked at he
  rcases List.mem_append.1 he with he | he
  · obtain ⟨l, hl, he⟩ := List.mem_flatMap.1 he
    obtain ⟨k, -, hk⟩ := picked_mem he
    rw [hp] at hk
    cases hk
    exact List.mem_append_left _ hl
  · obtain ⟨l, hl, he⟩ := List.mem_flatMap.1 he
    obtain ⟨k, -, hk⟩ := picked_mem he
    rw [hp] at hk
    cases hk
    exact List.mem_append_right _ hl

end Cbm
