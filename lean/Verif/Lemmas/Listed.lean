import Verif.Lemmas.DirSlots
import Verif.Lemmas.VolOps
import Verif.Lemmas.Frozen
import Verif.Props.Listing
/-!
# Entries of a listing, whatever the image holds, and freeing through them
-/

namespace Cbm
open Spec

variable {d d' : Device} {s : Shape} {b : Bam} {ty : DiskType} {st : St} {e : DirectoryEntry} {l : Location}

/-- An item of a chain walk is what the sector holds, cut at the end. -/
theorem chainItems_item (hw : Wf d s) {start : Location} {cs : ChainSector}
    (h : .ok cs ∈ chainItems d start) :
    s.Valid cs.location ∧ ∃ n, cs.data = (d.blk s cs.location).take n := by
  obtain ⟨ls, t, hi, hp, hs⟩ := chainItems_walk hw start
  rw [hi, List.mem_append] at h
  rcases h with h | h
  · obtain ⟨l, hl, he⟩ := List.mem_map.1 h
    cases he
    refine ⟨hp.valid l hl, 256, ?_⟩
    rw [List.take_of_length_le (by rw [hw.blk_length (hp.valid l hl)]; exact Nat.le_refl _)]
  · rw [List.mem_singleton] at h
    unfold stopItem at h
    split at h
    · cases h
    · split at h
      · cases h
      · rename_i hv
        have hv' : s.Valid t := Classical.not_not.1 hv
        split at h
        · cases h
        · cases h
          exact ⟨hv', _, rfl⟩

/-- The entry of a slot that lies in a sector of the disk. -/
structure InSlot (d : Device) (s : Shape) (e : DirectoryEntry) (p : Position) : Prop where
  valid : s.Valid p.location
  fits : p.offset.toNat + 32 ≤ 256
  size : p.size = 32
  aligned : p.offset.toNat % 32 = 0
  entry : ∃ border, e = { entryAt d s p with geosBorder := border }

theorem mem_chunks {xs c : List Byte} {i : Nat} (h : (c, i) ∈ (chunks 32 xs).zipIdx) (hc : c.length = 32) :
    32 * i + 32 ≤ xs.length ∧ c = slice xs (32 * i) 32 := by
  have hi := List.mem_zipIdx' h
  obtain ⟨h1, h2⟩ := hi
  unfold chunks at h1 h2
  simp only [List.getElem_map, List.getElem_range] at h2
  rw [Nat.mul_comm] at h2
  refine ⟨?_, h2⟩
  rw [h2] at hc
  simp only [slice, List.length_take, List.length_drop] at hc
  omega

theorem slice_of_take {xs : List Byte} {n i k : Nat} (h : i + k ≤ (xs.take n).length) :
    slice (xs.take n) i k = slice xs i k := by
  rw [List.length_take] at h
  unfold slice
  rw [List.drop_take, List.take_take, Nat.min_eq_left (by omega)]

/-- Every entry the directory iterator yields comes from a slot of a sector of the disk. -/
theorem item_slot {disk : Disk} (hw : Wf disk.dev s) (hmem : .ok e ∈ disk.items) :
    ∃ p, e.position = some p ∧ InSlot disk.dev s e p := by
  unfold Disk.items at hmem
  split at hmem
  · simp at hmem
  · split at hmem
    · simp at hmem
    · rename_i h _
      unfold directoryItems at hmem
      obtain ⟨it, hit, hmem⟩ := List.mem_flatMap.1 hmem
      cases it with
      | error q => simp at hmem
      | ok cs =>
        simp only at hmem
        have hcs : s.Valid cs.location ∧ ∃ n, cs.data = (disk.dev.blk s cs.location).take n := by
          unfold directoryBlocks at hit
          rcases List.mem_append.1 hit with hit | hit
          · exact chainItems_item hw hit
          · split at hit
            · rename_i g _
              rw [List.mem_singleton] at hit
              by_cases hv : s.Valid g.border
              · rw [hw.sector hv] at hit
                cases hit
                exact ⟨hv, 256, by rw [List.take_of_length_le (by rw [hw.blk_length hv]; exact Nat.le_refl _)]⟩
              · rw [hw.sector_invalid hv] at hit
                cases hit
            · cases hit
        obtain ⟨hv, n, hdata⟩ := hcs
        obtain ⟨e', he', heq⟩ := List.mem_map.1 hmem
        cases heq
        unfold sectorEntries at he'
        obtain ⟨⟨c, i⟩, hc, he'⟩ := List.mem_filterMap.1 he'
        simp only at he'
        split at he'
        · cases he'
        · rename_i hlen
          have hlen' : c.length = 32 := Classical.not_not.1 hlen
          split at he'
          · cases he'
          · obtain ⟨h1, h2⟩ := mem_chunks hc hlen'
            have hl := hw.blk_length hv
            have h3 : 32 * i + 32 ≤ 256 := by
              rw [hdata, List.length_take] at h1
              omega
            have ho : (UInt8.ofNat (32 * i)).toNat = 32 * i := by
              rw [UInt8.toNat_ofNat']; omega
            have hq := Option.some.inj he'
            refine ⟨⟨cs.location, UInt8.ofNat (32 * i), 32⟩, by rw [← hq]; rfl, ⟨hv, by show (UInt8.ofNat (32 * i)).toNat + 32 ≤ 256; omega, rfl, by show (UInt8.ofNat (32 * i)).toNat % 32 = 0; omega, e.geosBorder, ?_⟩⟩
            unfold entryAt slotData
            simp only [ho]
            rw [← slice_of_take (n := n) (by rw [← hdata]; exact h1), ← hdata, ← h2, ← hq]
            rfl

theorem mem_of_collectRes {α : Type} {a : α} : ∀ {xs : List (Res α)} {ys : List α}, collectRes xs = .ok ys →
    a ∈ ys → .ok a ∈ xs
  | [], _, h1, h2 => by cases h1; cases h2
  | .error q :: xs, _, h1, _ => by cases h1
  | .ok y :: xs, _, h1, h2 => by
    unfold collectRes at h1
    obtain ⟨ys, hys, h1⟩ := res_bind_eq_ok.1 h1
    cases h1
    rcases List.mem_cons.1 h2 with rfl | h2
    · simp
    · exact List.mem_cons_of_mem _ (mem_of_collectRes hys h2)

/-- Every entry of a listing comes from a slot of a sector of the disk. -/
theorem listed_slot {disk : Disk} (hw : Wf disk.dev s) {es : List DirectoryEntry}
    (hd : disk.directory = .ok es) (he : e ∈ es) : ∃ p, e.position = some p ∧ InSlot disk.dev s e p :=
  item_slot hw (mem_of_collectRes hd he)

/-- What `delete` needs of an entry of a listing that belongs to an ordinary file. -/
theorem InSlot.linear {p : Position} (h : InSlot d s e p) (hw : Wf d s) (hs : e.scheme = .linear) :
    e.position = some p ∧ e.filename.length ≤ 16 ∧ ∃ x, e.extra = .linear x ∧ x.length = 9 := by
  obtain ⟨border, rfl⟩ := h.entry
  have hl : (slotData d s p).length = 32 := by
    unfold slotData
    rw [length_slice _ _ _ (by rw [hw.blk_length h.valid]; exact h.fits)]
  refine ⟨rfl, ?_, ?_⟩
  · refine Nat.le_trans (fromPadded_length _ _) ?_
    simp only [slice, List.length_take, ENTRY_FILENAME_LENGTH]
    omega
  · simp only [entryAt, DirectoryEntry.parse32] at hs ⊢
    rw [hs]
    refine ⟨_, rfl, ?_⟩
    rw [length_slice _ _ _ (by rw [hl]; decide)]

/-- Writing back an entry of a slot: done, or refused because the image is read-only. -/
theorem writeEntry_or {x : List Byte} {p : Position} (hw : Wf d s) (hv : s.Valid p.location)
    (hf : p.offset.toNat + 32 ≤ 256) (hz : p.size = 32) (hp : e.position = some p)
    (hn : e.filename.length ≤ 16) (hx : e.extra = .linear x) (hxl : x.length = 9) :
    (∃ d', d.writeEntry e = .ok d') ∨ d.writeEntry e = fail .readOnly := by
  unfold Device.writeEntry Device.positionedWrite
  have hpos : e.pos = .ok p := by unfold DirectoryEntry.pos; rw [hp]
  rw [hpos, res_bind_ok]
  by_cases hwr : Writable d
  · left
    have hl := hw.blk_length hv
    have hsz : p.size.toNat = 32 := by rw [hz]; rfl
    have h1 : subSlice (d.blk s p.location) p.offset.toNat p.size.toNat =
        .ok (slice (d.blk s p.location) p.offset.toNat 32) := by
      unfold subSlice
      rw [hsz, if_pos (by omega)]
    have h2 : (slice (d.blk s p.location) p.offset.toNat 32).length = 32 :=
      length_slice _ _ _ (by omega)
    have h3 : e.extra.toBytes (slice (slice (d.blk s p.location) p.offset.toNat 32) 0x15 9) = .ok x := by
      rw [hx]
      show copyFromSlice x _ = _
      unfold copyFromSlice
      rw [if_pos (by rw [length_slice _ _ _ (by rw [h2]; decide), hxl])]
    have h4 := toBytes_ok h2 hn h3
    generalize slotBytes _ _ _ _ _ = out at h4
    refine ⟨_, hw.sectorMut_ok (new := splice (d.blk s p.location) p.offset.toNat out) hwr hv ?_⟩
    · rw [h1, res_bind_ok]
      unfold DirectoryEntry.positionedWrite
      rw [hpos, res_bind_ok, if_neg (by rw [h2, hsz]; decide), h4]
      rfl
  · exact .inr (sectorMut_readOnly' hwr _ _)

/-- Freeing a sector on a track without an entry in the BAM panics. -/
theorem free_off (hb : BamOf b ty) (h : l.track.toNat = 0 ∨ bamTracks ty < l.track.toNat) :
    b.free l = .error .panic := by
  unfold Bam.free Bam.modifyEntry
  rw [checkValidity_ok hb, res_bind_ok]
  rcases h with h | h
  · rw [h]; rfl
  · rw [subU_ok (by omega), res_bind_ok]
    unfold indexRes
    rw [List.getElem?_eq_none (by rw [hb.length]; omega)]
    rfl

/-- Freeing a list of sectors panics at the first one on a track without an entry. -/
theorem freeAll_off (d : Device) : ∀ (ls : List Location) {b : Bam}, BamOf b s.type →
    (∀ l ∈ ls, s.Valid l) → (∃ l ∈ ls, bamTracks s.type < l.track.toNat) →
    ∃ b', M.forEach ls (fun l => St.updBam fun b => b.free l) ⟨d, b⟩ = (.error .panic, ⟨d, b'⟩)
  | [], _, _, _, h => by obtain ⟨l, hl, -⟩ := h; cases hl
  | l :: ls, b, hb, hv, h => by
    by_cases hl : bamTracks s.type < l.track.toNat
    · refine ⟨b, ?_⟩
      rw [M.run_forEach_cons]
      have : St.updBam (fun b => b.free l) ⟨d, b⟩ = (.error .panic, ⟨d, b⟩) := by
        have h1 := free_off hb (.inr hl)
        unfold St.updBam
        refine M.update_error ?_
        simp only [h1]
        rfl
      rw [this]
    · have hvl := hv l (by simp)
      have hvb : ValidLoc s.type (bamTracks s.type) l := ⟨hvl.1, by omega, hvl.2.2⟩
      obtain ⟨b1, hb1, hf⟩ := free_ok hb hvb.inBam
      obtain ⟨b', hr⟩ := freeAll_off d ls hf.of (fun m hm => hv m (by simp [hm])) (by
        obtain ⟨m, hm, hmt⟩ := h
        rcases List.mem_cons.1 hm with rfl | hm
        · exact absurd hmt hl
        · exact ⟨m, hm, hmt⟩)
      refine ⟨b', ?_⟩
      rw [M.run_forEach_cons, updBam_ok (st := ⟨d, b⟩) hb1]
      exact hr

/-- Flushing the BAM: done, or refused because the image is read-only. -/
theorem flushBam_or (hw : Wf st.dev s) (hb : BamOf st.bam s.type) :
    (∃ d', St.flushBam st = (.ok (), { st with dev := d' }) ∧ Wf d' s) ∨
      St.flushBam st = (fail .readOnly, st) := by
  unfold St.flushBam
  rw [M.bind_of_ok (m := M.get) (s := st) (s' := st) (a := st) rfl]
  unfold St.onDev
  rw [M.run_zoom]
  by_cases hwr : Writable st.dev
  · obtain ⟨ws, h1, h2, -⟩ := flush_writes hb hw hwr
    left
    rw [h1]
    exact ⟨_, rfl, hw.puts h2⟩
  · right
    rw [flush_readOnly hb hw (Classical.not_not.1 hwr)]

/-- `delete` through an entry of a listing that belongs to an ordinary file. -/
theorem delete_listed {p : Position} (hw : Wf st.dev s) (hb : BamOf st.bam s.type)
    (hp : InSlot st.dev s e p) (hs : e.scheme = .linear) :
    (File.delete ⟨.linear e, st⟩).1 ≠ .error .diverge ∧
    ((File.delete ⟨.linear e, st⟩).1 = .error .panic ↔
      ∃ locs content, locs.head? = some e.firstSector ∧ IsChain st.dev s locs content ∧
        ∃ l ∈ locs, bamTracks s.type < l.track.toNat) := by
  obtain ⟨hpos, hn, x, hx, hxl⟩ := hp.linear hw hs
  have hstart : ∀ r st', removeChain e.firstSector st = (.error r, st') →
      (File.delete ⟨.linear e, st⟩).1 = .error r := by
    intro r st' hr
    unfold File.delete
    rw [M.bind_of_ok (m := M.get) (s := (⟨.linear e, st⟩ : FSt)) (s' := ⟨.linear e, st⟩)
      (a := ⟨.linear e, st⟩) rfl]
    rw [M.bind_of_error (e := r) (s' := ⟨.linear e, st'⟩) (by
      rw [M.run_zoom]
      show ((removeChain e.firstSector st).1, FSt.mk _ (removeChain e.firstSector st).2) = _
      rw [hr])]
  rcases Classical.em (∃ locs content, locs.head? = some e.firstSector ∧ IsChain st.dev s locs content)
    with ⟨locs, content, hh, hc⟩ | hno
  · have hlocs := chainLocations_chain hw hc hh
    have huniq : ∀ locs' content', locs'.head? = some e.firstSector → IsChain st.dev s locs' content' →
        locs' = locs := fun locs' content' h1 h2 => by
      have := chainLocations_chain hw h2 h1
      rw [hlocs] at this
      exact (Except.ok.inj this).symm
    by_cases hoff : ∃ l ∈ locs, bamTracks s.type < l.track.toNat
    · obtain ⟨b', hf⟩ := freeAll_off st.dev locs hb hc.valid hoff
      have := hstart .panic ⟨st.dev, b'⟩ (by
        unfold removeChain
        rw [M.bind_of_ok (s := st) (s' := st) (a := locs) (by rw [readDev_run, hlocs])]
        exact M.bind_of_error hf)
      rw [this]
      exact ⟨nofun, fun _ => ⟨locs, content, hh, hc, hoff⟩, fun _ => rfl⟩
    · have hin : ∀ l ∈ locs, ValidLoc s.type (bamTracks s.type) l := fun l hl => by
        have hv := hc.valid l hl
        refine ⟨hv.1, Nat.not_lt.1 fun h => hoff ⟨l, hl, h⟩, hv.2.2⟩
      obtain ⟨b1, r1, -, o1, -, -⟩ := freeAll_ok st.dev locs (b := st.bam) hb hin
      have hno : ¬ ∃ locs content, locs.head? = some e.firstSector ∧ IsChain st.dev s locs content ∧
          ∃ l ∈ locs, bamTracks s.type < l.track.toNat := by
        rintro ⟨locs', content', h1, h2, h3⟩
        rw [huniq locs' content' h1 h2] at h3
        exact hoff h3
      have hok : (∃ y, (File.delete ⟨.linear e, st⟩).1 = fail y) ∨
          (File.delete ⟨.linear e, st⟩).1 = .ok () := by
        rcases flushBam_or (st := ⟨st.dev, b1⟩) hw o1 with ⟨d2, r2, w2⟩ | r2
        · have hrem : removeChain e.firstSector st = (.ok (), ⟨d2, b1⟩) := by
            unfold removeChain
            rw [M.bind_of_ok (s := st) (s' := st) (a := locs) (by rw [readDev_run, hlocs])]
            rw [M.bind_of_ok (s' := ⟨st.dev, b1⟩) (a := ()) r1]
            exact r2
          unfold File.delete
          rw [M.bind_of_ok (m := M.get) (s := (⟨.linear e, st⟩ : FSt)) (s' := ⟨.linear e, st⟩)
            (a := ⟨.linear e, st⟩) rfl]
          rw [M.bind_of_ok (s' := ⟨.linear e, ⟨d2, b1⟩⟩) (a := ())
            (by
              rw [M.run_zoom]
              show ((removeChain e.firstSector st).1, FSt.mk _ (removeChain e.firstSector st).2) = _
              rw [hrem])]
          rw [M.bind_of_ok (m := M.modify _) (s' := ⟨.linear e.scratch, ⟨d2, b1⟩⟩) (a := ()) rfl]
          rw [M.run_zoom]
          rcases writeEntry_or (e := e.scratch) w2 hp.valid hp.fits hp.size hpos hn hx hxl with
            ⟨d3, h3⟩ | h3
          · right
            show (St.updDev (fun d => d.writeEntry e.scratch) ⟨d2, b1⟩).1 = _
            rw [updDev_ok (st := ⟨d2, b1⟩) h3]
          · left
            refine ⟨.readOnly, ?_⟩
            show (St.updDev (fun d => d.writeEntry e.scratch) ⟨d2, b1⟩).1 = _
            unfold St.updDev
            rw [M.update_error (e := .err .readOnly) (by simp only [h3]; rfl)]
        · left
          refine ⟨.readOnly, hstart _ ⟨st.dev, b1⟩ ?_⟩
          unfold removeChain
          rw [M.bind_of_ok (s := st) (s' := st) (a := locs) (by rw [readDev_run, hlocs])]
          rw [M.bind_of_ok (s' := ⟨st.dev, b1⟩) (a := ()) r1]
          exact r2
      rcases hok with ⟨y, hy⟩ | hy
      · rw [hy]
        exact ⟨nofun, nofun, fun h => absurd h hno⟩
      · rw [hy]
        exact ⟨nofun, nofun, fun h => absurd h hno⟩
  · obtain ⟨y, hy⟩ : ∃ y, chainLocations st.dev e.firstSector = fail y := by
      rcases locations_or (disk := ⟨s.type.format, st.dev, none, none, none, []⟩) hw
        e.firstSector with ⟨locs, content, -, h1, h2⟩ | ⟨y, hy, -⟩
      · exact absurd ⟨locs, content, h1, h2⟩ hno
      · exact ⟨y, hy⟩
    have := hstart (.err y) st (by
      unfold removeChain
      exact M.bind_of_error (by rw [readDev_run, hy]))
    rw [this]
    refine ⟨nofun, fun h => ?_, fun h => ?_⟩
    · cases h
    · obtain ⟨locs, content, h1, h2, -⟩ := h
      exact absurd ⟨locs, content, h1, h2⟩ hno

end Cbm
