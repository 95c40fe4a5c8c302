import Verif.Props.CleanDelete
import Verif.Props.Names
import Verif.Spec.Rename
/-!
# C90: Renaming a file of any kind changes its name and nothing else
-/

namespace Cbm
open Spec

variable {disk disk' : Disk} {s : Shape} {b : Bam} {e : DirectoryEntry} {es : List DirectoryEntry}
  {header : Header} {dir ls : List Location} {original new : Petscii} {p : Position} {d d' : Device} {ty : DiskType}

/-! ## The bytes of the slot -/

theorem storedName_eq (n : Petscii) : fromPaddedBytes (paddedName n) PADDING_BYTE = storedName n :=
  fromPadded_pad n _ _

theorem parse32_named {slot out : List Byte} {q : Option Position} (h : slot.length = 32) (ho : out.length = 32)
    (hsame : ∀ i, i < 5 ∨ 21 ≤ i → out[i]? = slot[i]?) (hname : slice out 5 16 = paddedName new) :
    DirectoryEntry.parse32 out q = { DirectoryEntry.parse32 slot q with filename := storedName new } := by
  have hb : ∀ i, i < 5 ∨ 21 ≤ i → byteAt out i = byteAt slot i := fun i hi => by
    unfold byteAt
    rw [List.getD_eq_getElem?_getD, List.getD_eq_getElem?_getD, hsame i hi]
  have hx : slice out ENTRY_EXTRA_OFFSET EXTRA_SIZE = slice slot ENTRY_EXTRA_OFFSET EXTRA_SIZE := by
    refine List.ext_getElem? fun i => ?_
    rw [getElem?_slice, getElem?_slice, hsame _ (.inr (by simp only [ENTRY_EXTRA_OFFSET]; omega))]
  have hs : entryScheme out = entryScheme slot := by
    unfold entryScheme isEntryGeos isEntryVlir
    rw [hb 2 (by omega), hb (ENTRY_EXTRA_OFFSET + 2) (.inr (by decide)), hb (ENTRY_EXTRA_OFFSET + 3) (.inr (by decide))]
  unfold DirectoryEntry.parse32
  rw [hs, hx, hb 2 (by omega), hb 3 (by omega), hb 4 (by omega), hb 0x1F (by omega), hb 0x1E (by omega),
    show slice out 5 ENTRY_FILENAME_LENGTH = paddedName new from hname, storedName_eq]

/-- What renaming does if it succeeds: the first file with that name gets other bytes in the name field of its slot. -/
theorem rename_done (hw : Wf disk.dev s) (hr : Disk.rename original new disk = (.ok (), disk')) :
    ∃ e p out, disk.findDirectoryEntry original = .ok e ∧ e.position = some p ∧ InSlot disk.dev s e p ∧
      new.length ≤ 16 ∧ disk.checkFilenameAvailability new = .ok () ∧ Writable disk.dev ∧ out.length = 32 ∧
      (∀ i, i < 5 ∨ 21 ≤ i → out[i]? = (slotData disk.dev s p)[i]?) ∧ slice out 5 16 = paddedName new ∧
      disk' = { disk with
        dev := (disk.dev.put s p.location (splice (disk.dev.blk s p.location) p.offset.toNat out)) } := by
  unfold Disk.rename at hr
  cases he : disk.findDirectoryEntry original with
  | error q => rw [M.bind_of_error (s' := disk) (e := q) (by rw [M.run_read, he])] at hr; cases hr
  | ok e =>
    rw [M.bind_of_ok (s' := disk) (a := e) (by rw [M.run_read, he])] at hr
    cases h1 : checkFilenameValidity new with
    | error q => rw [M.bind_of_error (s' := disk) (e := q) (by rw [M.run_lift, h1])] at hr; cases hr
    | ok u =>
      rw [M.bind_of_ok (s' := disk) (a := u) (by rw [M.run_lift, h1])] at hr
      cases h2 : disk.checkFilenameAvailability new with
      | error q => rw [M.bind_of_error (s' := disk) (e := q) (by rw [M.run_read, h2])] at hr; cases hr
      | ok v =>
        rw [M.bind_of_ok (s' := disk) (a := v) (by rw [M.run_read, h2])] at hr
        unfold Disk.writeDirectoryEntry at hr
        have hlen : new.length ≤ 16 := by
          unfold checkFilenameValidity at h1
          split at h1
          · cases h1
          · rename_i hn
            simp only [ENTRY_FILENAME_LENGTH] at hn
            omega
        cases hwe : disk.dev.writeEntry { e with filename := new } with
        | error q =>
          have := congrArg Prod.fst hr
          unfold Disk.onDev at this
          rw [M.run_zoom, M.update_error hwe] at this
          cases this
        | ok d' =>
          have hd : disk' = { disk with dev := d' } := by
            have := congrArg Prod.snd hr
            rw [onDev_state, M.update_ok hwe] at this
            exact this.symm
          obtain ⟨q, hq, hs⟩ := item_slot hw (mem_of_find he).1
          obtain ⟨border, heq⟩ := hs.entry
          have hwr : Writable disk.dev := fun hro => by
            unfold Device.writeEntry Device.positionedWrite at hwe
            obtain ⟨p, -, hwe⟩ := res_bind_eq_ok.1 hwe
            rw [sectorMut_readOnly hro] at hwe
            cases hwe
          obtain ⟨p2, out, k1, k2, k3, k4, k5, rfl⟩ := writeEntry_inv hw hwe
          have : q = p2 := Option.some.inj (hq.symm.trans k1)
          subst this
          obtain ⟨-, x, hx⟩ := toBytes_get k4
          rw [heq] at k4
          refine ⟨e, q, out, rfl, hq, hs, hlen, rfl, hwr, k5, fun i hi => rewrite_name k4 hi, ?_, hd⟩
          refine List.ext_getElem? fun i => ?_
          rw [getElem?_slice]
          split
          · rw [hx, if_neg (by omega), if_neg (by omega), if_pos (by omega), show 5 + i - 5 = i by omega]
            rfl
          · rw [List.getElem?_eq_none (by
              show (new ++ List.replicate (16 - new.length) (0xA0 : Byte)).length ≤ i
              rw [List.length_append, List.length_replicate]; omega)]

/-! ## The listing -/

/-- What the new bytes in the slot mean for the rest of the disk. -/
structure NamedSlot (s : Shape) (d d' : Device) (p : Position) (new : Petscii) : Prop where
  wf : Wf d' s
  frame : ∀ l j, s.Valid l → ¬ Field p 5 16 l j → (d'.blk s l)[j]? = (d.blk s l)[j]?
  name : slice (slotData d' s p) 5 16 = paddedName new

theorem named_put {out : List Byte} (hw : Wf d s) (hp : InSlot d s e p) (ho : out.length = 32)
    (hsame : ∀ i, i < 5 ∨ 21 ≤ i → out[i]? = (slotData d s p)[i]?) (hname : slice out 5 16 = paddedName new) :
    NamedSlot s d (d.put s p.location (splice (d.blk s p.location) p.offset.toNat out)) p new := by
  have hb := hw.blk_length hp.valid
  have hf := hp.fits
  have hl : (splice (d.blk s p.location) p.offset.toNat out).length = 256 := by
    rw [length_splice _ _ _ (by omega), hb]
  have hslot : slotData (d.put s p.location (splice (d.blk s p.location) p.offset.toNat out)) s p = out := by
    unfold slotData
    rw [hw.blk_put_same hp.valid hl]
    exact slice_splice_same' _ _ _ _ ho.symm (by omega)
  refine ⟨hw.put hp.valid hl, fun l j hv hj => ?_, by rw [hslot]; exact hname⟩
  rw [hw.blk_put hp.valid hv hl]
  split
  · rename_i heq
    subst heq
    rw [getElem?_splice _ _ _ _ (by omega)]
    split
    · rfl
    · split
      · rename_i h1 h2
        rw [hsame (j - p.offset.toNat) (by
          rcases Nat.lt_or_ge j (p.offset.toNat + 5) with h | h
          · exact .inl (by omega)
          · rcases Nat.lt_or_ge j (p.offset.toNat + 21) with h' | h'
            · exact absurd ⟨rfl, by omega, by omega⟩ hj
            · exact .inr (by omega))]
        unfold slotData
        rw [getElem?_slice, if_pos (by omega), show p.offset.toNat + (j - p.offset.toNat) = j by omega]
      · rfl
  · rfl

theorem picked_named {l : Location} {n : Nat} {border : Bool} (hw : Wf d s) (h : NamedSlot s d d' p new) (hp : InSlot d s e p) (hn : n ≤ 8) (hv : s.Valid l) :
    picked d' s n l border = (picked d s n l border).map (renamedAt p new) := by
  unfold picked
  rw [List.map_filterMap]
  apply filterMap_congr_left
  intro q hq
  obtain ⟨k, hk, rfl⟩ := List.mem_map.1 hq
  have hk : k < 8 := Nat.lt_of_lt_of_le (List.mem_range.1 hk) hn
  have hlen : ∀ {d : Device}, Wf d s → (slotData d s ⟨l, UInt8.ofNat (32 * k), 32⟩).length = 32 := fun hw => by
    rw [slotData_at _ _ _ hk, length_slice _ _ _ (by rw [hw.blk_length hv]; omega)]
  have hset : ∀ i, (⟨l, UInt8.ofNat (32 * k), 32⟩ : Position) ≠ p ∨ i < 5 ∨ 21 ≤ i →
      (slotData d' s ⟨l, UInt8.ofNat (32 * k), 32⟩)[i]? = (slotData d s ⟨l, UInt8.ofNat (32 * k), 32⟩)[i]? := by
    intro i hi
    rw [slotData_at _ _ _ hk, slotData_at _ _ _ hk, getElem?_slice, getElem?_slice]
    split
    · refine h.frame l _ hv ?_
      rintro ⟨h1, h2, h3⟩
      have hal := hp.aligned
      have heq : (⟨l, UInt8.ofNat (32 * k), 32⟩ : Position) = p := by
        have hsz := hp.size
        obtain ⟨pl, po, ps⟩ := p
        simp only at hsz hal h1 h2 h3 ⊢
        subst hsz h1
        have : po = UInt8.ofNat (32 * k) := by
          apply UInt8.toNat.inj
          rw [UInt8.toNat_ofNat']
          omega
        rw [this]
      rcases hi with hi | hi
      · exact hi heq
      · have : p.offset.toNat = 32 * k := by
          rw [← heq]
          simp only [UInt8.toNat_ofNat']
          omega
        omega
    · rfl
  have hfree : slotFree d' s ⟨l, UInt8.ofNat (32 * k), 32⟩ = slotFree d s ⟨l, UInt8.ofNat (32 * k), 32⟩ := by
    unfold slotFree byteAt
    rw [List.getD_eq_getElem?_getD, List.getD_eq_getElem?_getD, hset 2 (.inr (by omega))]
  rw [hfree]
  cases slotFree d s ⟨l, UInt8.ofNat (32 * k), 32⟩ with
  | true => rfl
  | false =>
    rw [if_neg (by simp), if_neg (by simp)]
    refine congrArg some ?_
    by_cases hqp : (⟨l, UInt8.ofNat (32 * k), 32⟩ : Position) = p
    · have hp' : (entryAt d s ⟨l, UInt8.ofNat (32 * k), 32⟩).position = some p := congrArg some hqp
      unfold renamedAt
      rw [if_pos hp']
      unfold entryAt
      rw [parse32_named (hlen hw) (hlen h.wf) (fun i hi => hset i (.inr hi)) (by rw [hqp]; exact h.name)]
    · have hp' : (entryAt d s ⟨l, UInt8.ofNat (32 * k), 32⟩).position ≠ some p := fun h => hqp (Option.some.inj h)
      unfold renamedAt
      rw [if_neg hp']
      unfold entryAt
      rw [show slotData d' s ⟨l, UInt8.ofNat (32 * k), 32⟩ = slotData d s ⟨l, UInt8.ofNat (32 * k), 32⟩ from
        List.ext_getElem? fun i => hset i (.inl hqp)]

/-- A disk whose directory can be listed has a directory chain. -/
theorem listed_chain {f : DiskFormat} (hw : Wf disk.dev s) (hf : disk.format = some f) (hh : disk.header = some header)
    (hes : disk.directory = .ok es) :
    ∃ dir content, dir.head? = some f.firstDirectoryLocation ∧ IsChain disk.dev s dir content := by
  obtain ⟨lo, t, hi, hp, hst⟩ := chainItems_walk hw f.firstDirectoryLocation
  have hstop : ∀ q, stopItem disk.dev s lo t ≠ .error q := by
    intro q hq
    have hl : collectRes disk.items = .ok es := hes
    have hm : .error q ∈ disk.items := by
      rw [items_of hf hh]
      unfold directoryItems directoryBlocks
      rw [hi, hq]
      simp
    rw [collectRes_inv hl] at hm
    obtain ⟨a, -, ha⟩ := List.mem_map.1 hm
    cases ha
  have hn : t ∉ lo := fun hn => hstop (.err .chainLoop) (by unfold stopItem; rw [if_pos hn])
  have hv : s.Valid t := Classical.byContradiction fun hv => hstop (.err .invalidLocation) (by
    unfold stopItem; rw [if_neg hn, if_pos hv])
  have h1 : byteAt (disk.dev.blk s t) 1 ≠ 0 := fun h1 => hstop (.err .invalidChainLink) (by
    unfold stopItem; rw [if_neg hn, if_neg (not_not_intro hv), if_pos h1])
  have h0 : byteAt (disk.dev.blk s t) 0 = 0 := by
    rcases hst with h | h | h
    · exact (hn h).elim
    · exact (h hv).elim
    · exact h
  obtain ⟨g1, g2⟩ := isChain_iff_path.2 ⟨lo, t, rfl, hp, hn, hv, h0, h1, rfl⟩
  exact ⟨_, _, g1, g2⟩

theorem directory_named {f : DiskFormat} (hw : Wf disk.dev s) (hf : disk.format = some f) (hh : disk.header = some header)
    (hf' : disk'.format = some f) (hh' : disk'.header = some header) (hes : disk.directory = .ok es)
    (hp : InSlot disk.dev s e p) (h : NamedSlot s disk.dev disk'.dev p new) :
    disk'.directory = .ok (es.map (renamedAt p new)) := by
  obtain ⟨dir, content, hd, hc⟩ := listed_chain hw hf hh hes
  have hb := directory_border hw hf hh hes
  have hlink : ∀ l ∈ dir, linkBytes (disk'.dev.blk s l) = linkBytes (disk.dev.blk s l) := by
    intro l hl
    have : ∀ j, j < 2 → (disk'.dev.blk s l)[j]? = (disk.dev.blk s l)[j]? := fun j hj =>
      h.frame l j (hc.valid l hl) fun ht => by
        have := ht.2.1
        omega
    unfold linkBytes byteAt
    rw [List.getD_eq_getElem?_getD, List.getD_eq_getElem?_getD, List.getD_eq_getElem?_getD,
      List.getD_eq_getElem?_getD, this 0 (by omega), this 1 (by omega)]
  obtain ⟨content', hc'⟩ := hc.relink hlink
  rw [directory_picked hw hf hh hd hc hb] at hes
  cases hes
  rw [directory_picked h.wf hf' hh' hd hc' hb]
  refine congrArg Except.ok ?_
  unfold allPicked
  rw [List.map_append, List.map_flatMap, List.map_flatMap]
  refine congr (congrArg _ ?_) ?_
  · apply flatMap_congr_left
    intro l hl
    have hu : usedBytes (disk'.dev.blk s l) = usedBytes (disk.dev.blk s l) := by
      have := hlink l hl
      have t0 : byteAt (disk'.dev.blk s l) 0 = byteAt (disk.dev.blk s l) 0 := congrArg Location.track this
      have t1 : byteAt (disk'.dev.blk s l) 1 = byteAt (disk.dev.blk s l) 1 := congrArg Location.sector this
      unfold usedBytes
      rw [t0, t1]
    rw [hu]
    exact picked_named hw h hp (by have := usedBytes_le (disk.dev.blk s l); omega) (hc.valid l hl)
  · apply flatMap_congr_left
    intro l hl
    obtain ⟨g, hg, rfl⟩ : ∃ g, header.geos = some g ∧ g.border = l := by
      cases hg : header.geos with
      | none => rw [hg] at hl; simp at hl
      | some g => rw [hg] at hl; simp at hl; exact ⟨g, rfl, hl.symm⟩
    exact picked_named hw h hp (by omega) (hb g hg)

/-! ## When renaming succeeds -/

theorem writeEntry_done (hw : Wf d s) (hwr : Writable d) (h : Placed s e) : ∃ d', d.writeEntry e = .ok d' := by
  obtain ⟨p, hp, hv, ho, hz⟩ := h.position
  have hpos : e.pos = .ok p := by unfold DirectoryEntry.pos; rw [hp]
  have hl := hw.blk_length hv
  have hsz : p.size.toNat = 32 := by rw [hz]; rfl
  have h1 : subSlice (d.blk s p.location) p.offset.toNat p.size.toNat =
      .ok (slice (d.blk s p.location) p.offset.toNat 32) := by
    unfold subSlice
    rw [hsz, if_pos (by omega)]
  have h2 : (slice (d.blk s p.location) p.offset.toNat 32).length = 32 := length_slice _ _ _ (by omega)
  have h9 : (slice (slice (d.blk s p.location) p.offset.toNat 32) 0x15 9).length = 9 :=
    length_slice _ _ _ (by rw [h2]; decide)
  obtain ⟨x, h3⟩ := h.extra (slice (slice (d.blk s p.location) p.offset.toNat 32) 0x15 9) h9
  have h4 := toBytes_ok h2 h.name h3
  unfold Device.writeEntry Device.positionedWrite
  rw [hpos, res_bind_ok]
  refine ⟨_, hw.sectorMut_ok hwr hv (by
    rw [h1, res_bind_ok]
    unfold DirectoryEntry.positionedWrite
    rw [hpos, res_bind_ok, if_neg (by rw [h2, hsz]; decide), h4]
    rfl)⟩

theorem find_listed {name : Petscii} (hes : disk.directory = .ok es) :
    disk.findDirectoryEntry name = match es.find? (fun e => e.filename = name) with
      | some e => .ok e
      | none => fail .notFound := by
  unfold Disk.findDirectoryEntry
  rw [collectRes_inv (show collectRes disk.items = .ok es from hes)]
  exact findItem_ok name

theorem find_of_none {name : Petscii} (h : ∀ e ∈ es, e.filename ≠ name) :
    es.find? (fun e => e.filename = name) = none :=
  List.find?_eq_none.2 fun e he => by simpa using h e he

theorem find_of_some {name : Petscii} (h : ¬ ∀ e ∈ es, e.filename ≠ name) :
    ∃ e, es.find? (fun e => e.filename = name) = some e := by
  cases hf : es.find? (fun e => e.filename = name) with
  | some e => exact ⟨e, rfl⟩
  | none => exact (h fun e he => by simpa using List.find?_eq_none.1 hf e he).elim

theorem rename_result (hw : Wf disk.dev s) (hes : disk.directory = .ok es) :
    (Disk.rename original new disk).1 = renameResult es (decide (disk.dev.image.kind = .readOnlyMap)) original new := by
  unfold renameResult Disk.rename
  split
  · rename_i hno
    rw [M.bind_of_error (s' := disk) (e := .err .notFound) (by
      rw [M.run_read, find_listed hes, find_of_none hno])]
  · rename_i hsome
    obtain ⟨e, he⟩ := find_of_some hsome
    have hfind : disk.findDirectoryEntry original = .ok e := by rw [find_listed hes, he]
    rw [M.bind_of_ok (s' := disk) (a := e) (by rw [M.run_read, hfind])]
    split
    · rename_i hlong
      rw [M.bind_of_error (s' := disk) (e := .err .filenameTooLong) (by
        rw [M.run_lift]; unfold checkFilenameValidity; rw [if_pos hlong])]
    · rename_i hshort
      rw [M.bind_of_ok (s' := disk) (a := ()) (by
        rw [M.run_lift]; unfold checkFilenameValidity; rw [if_neg hshort])]
      split
      · rename_i hex
        obtain ⟨o, ho⟩ := find_of_some (name := new) (es := es) fun hno => by
          obtain ⟨o, ho, hn⟩ := hex
          exact hno o ho hn
        rw [M.bind_of_error (s' := disk) (e := .err .fileExists) (by
          rw [M.run_read]; unfold Disk.checkFilenameAvailability; rw [find_listed hes, ho])]
      · rename_i hno
        rw [M.bind_of_ok (s' := disk) (a := ()) (by
          rw [M.run_read]; unfold Disk.checkFilenameAvailability
          rw [find_listed hes, find_of_none fun o ho hn => hno ⟨o, ho, hn⟩])]
        unfold Disk.writeDirectoryEntry Disk.onDev
        rw [M.run_zoom]
        have hp := listed_placed hw (mem_of_find hfind).1
        have hp' : Placed s { e with filename := new } := ⟨hp.position, Nat.le_of_not_lt hshort, hp.extra⟩
        by_cases hro : disk.dev.image.kind = .readOnlyMap
        · obtain ⟨p, hp⟩ := hp'.position
          have hd : disk.dev.writeEntry { e with filename := new } = fail .readOnly := by
            unfold Device.writeEntry Device.positionedWrite
            rw [show DirectoryEntry.pos { e with filename := new } = .ok p by
              unfold DirectoryEntry.pos; rw [hp.1], res_bind_ok]
            exact sectorMut_readOnly hro _
          rw [M.update_error hd, if_pos (decide_eq_true hro)]
        · obtain ⟨d', hd⟩ := writeEntry_done hw hro hp'
          rw [M.update_ok hd, if_neg (by simpa using hro)]

/-! ## The files -/

theorem fromEntry_named (n : Petscii) {f : File} (h : File.fromEntry d e = .ok f) :
    File.fromEntry d { e with filename := n } = .ok (f.setEntry { e with filename := n }) := by
  unfold File.fromEntry at h ⊢
  simp only at h ⊢
  have hgeos : ∀ g, GEOSFile.new d e = .ok g →
      GEOSFile.new d { e with filename := n } = .ok { g with entry := { e with filename := n } } := by
    intro g hg
    unfold GEOSFile.new at hg ⊢
    obtain ⟨v, hv, hg⟩ := res_bind_eq_ok.1 hg
    rw [show DirectoryEntry.isVlir { e with filename := n } = .ok v from hv, res_bind_ok]
    cases v with
    | false => cases hg; rfl
    | true =>
      simp only [if_true] at hg ⊢
      obtain ⟨blk, hb, hg⟩ := res_bind_eq_ok.1 hg
      cases hg
      rw [hb]
      rfl
  split at h
  · cases h; rfl
  · obtain ⟨g, hg, h⟩ := res_bind_eq_ok.1 h
    cases h
    have : RelativeFile.new d { e with filename := n } = .ok { g with entry := { e with filename := n } } := by
      obtain ⟨-, -, -, hge, -⟩ := relative_parts hg
      unfold RelativeFile.new at hg ⊢
      simp only at hg ⊢
      split at hg
      · obtain ⟨⟨side, lists, data⟩, h1, hg⟩ := res_bind_eq_ok.1 hg
        rw [h1, res_bind_ok]
        simp only at hg ⊢
        split at hg
        · cases hg
        · rename_i hl
          rw [if_neg hl]
          split at hg
          · cases hg
          · rename_i hl
            rw [if_neg hl]
            obtain ⟨last, h2, hg⟩ := res_bind_eq_ok.1 hg
            rw [h2, res_bind_ok]
            generalize ((if data.isEmpty then 0 else (data.length - 1) * (BLOCK_SIZE - 2)) + last) = size at hg ⊢
            split at hg
            · cases hg
            · rename_i h3
              rw [if_neg h3]
              split at hg
              · cases hg
              · rename_i h4
                rw [if_neg h4]
                cases hg
                rfl
      · cases hg
    rw [this]; rfl
  · obtain ⟨g, hg, h⟩ := res_bind_eq_ok.1 h
    cases h
    rw [hgeos g hg]; rfl
  · obtain ⟨g, hg, h⟩ := res_bind_eq_ok.1 h
    cases h
    rw [hgeos g hg]; rfl

theorem setEntry_named (n : Petscii) (f : File) :
    (f.setEntry { f.entry with filename := n }).recordCount = f.recordCount ∧
    (f.setEntry { f.entry with filename := n }).occupiedSectors d = f.occupiedSectors d ∧
    ∀ i, (f.setEntry { f.entry with filename := n }).record d i = f.record d i := by
  cases f <;> exact ⟨rfl, rfl, fun _ => rfl⟩

theorem setEntry_self (f : File) : f.setEntry f.entry = f := by
  cases f <;> rfl

theorem directory_needs (hes : disk.directory = .ok es) :
    ∃ f header, disk.format = some f ∧ disk.header = some header := by
  have hl : collectRes disk.items = .ok es := hes
  unfold Disk.items Disk.diskFormat Disk.getHeader at hl
  cases hf : disk.format with
  | none => rw [hf] at hl; cases hl
  | some f =>
    cases hh : disk.header with
    | none => rw [hf, hh] at hl; cases hl
    | some header => exact ⟨f, header, rfl, rfl⟩

/-- What renaming does to the disk if it succeeds. -/
theorem rename_where (hw : Wf disk.dev s) (hes : disk.directory = .ok es)
    (hr : Disk.rename original new disk = (.ok (), disk')) :
    ∃ pre e post p, es = pre ++ e :: post ∧ (∀ o ∈ pre, o.filename ≠ original) ∧ e.filename = original ∧
      e.position = some p ∧ InSlot disk.dev s e p ∧ NamedSlot s disk.dev disk'.dev p new ∧
      disk' = { disk with dev := disk'.dev } ∧ disk'.directory = .ok (es.map (renamedAt p new)) := by
  obtain ⟨f, header, hf, hh⟩ := directory_needs hes
  obtain ⟨e, p, out, h1, h2, h3, -, -, -, h4, h5, h6, rfl⟩ := rename_done hw hr
  have hn := named_put hw h3 h4 h5 h6
  rw [find_listed hes] at h1
  cases hfe : es.find? (fun e => e.filename = original) with
  | none => rw [hfe] at h1; cases h1
  | some e' =>
    rw [hfe] at h1
    cases h1
    obtain ⟨h7, pre, post, h8, h9⟩ := List.find?_eq_some_iff_append.1 hfe
    exact ⟨pre, e, post, p, h8, fun o ho => by simpa using h9 o ho, of_decide_eq_true h7, h2, h3, hn, rfl,
      directory_named hw hf hh (disk' := { disk with dev := _ }) hf hh hes h3 hn⟩

theorem rename_fails {q : Fail} {disk' : Disk} (hr : Disk.rename original new disk = (.error q, disk')) : disk' = disk := by
  unfold Disk.rename at hr
  cases he : disk.findDirectoryEntry original with
  | error q => rw [M.bind_of_error (s' := disk) (e := q) (by rw [M.run_read, he])] at hr; cases hr; rfl
  | ok e =>
    rw [M.bind_of_ok (s' := disk) (a := e) (by rw [M.run_read, he])] at hr
    cases h1 : checkFilenameValidity new with
    | error q => rw [M.bind_of_error (s' := disk) (e := q) (by rw [M.run_lift, h1])] at hr; cases hr; rfl
    | ok u =>
      rw [M.bind_of_ok (s' := disk) (a := u) (by rw [M.run_lift, h1])] at hr
      cases h2 : disk.checkFilenameAvailability new with
      | error q => rw [M.bind_of_error (s' := disk) (e := q) (by rw [M.run_read, h2])] at hr; cases hr; rfl
      | ok v =>
        rw [M.bind_of_ok (s' := disk) (a := v) (by rw [M.run_read, h2])] at hr
        unfold Disk.writeDirectoryEntry Disk.onDev at hr
        rw [M.run_zoom] at hr
        cases hwe : disk.dev.writeEntry { e with filename := new } with
        | error q => rw [M.update_error hwe] at hr; cases hr; rfl
        | ok d' => rw [M.update_ok hwe] at hr; cases hr

/-! ## C90 -/

/-- **C90** Take an image with any bytes, open it and make any calls.  If the directory can be listed then renaming a
file, of any kind, gives exactly the result that its listing calls for (`renameResult`); if that is an error then
nothing has changed; and if not then the first file of that name, and whatever else is listed out of the same slot, has
the new name, while everything else in the listing, its order, the free map, the open files and the writers are as
before. -/
theorem C90_rename {image : Image} (hnew : Disk.new ty image = .ok disk) :
    ∃ s : Shape, s.type = ty ∧ ∀ calls : List Call, (∀ c ∈ calls, Plain s c) → ∀ x,
      x = Session.run calls ⟨disk, [], []⟩ → ∀ es original new, x.disk.directory = .ok es →
      ∀ res x', Session.step (.rename original new) x = (res, x') →
        res = renameResult es (decide (x.disk.dev.image.kind = .readOnlyMap)) original new ∧
        (res ≠ .ok () → x' = x) ∧
        (res = .ok () → ∃ pre e post p, es = pre ++ e :: post ∧ (∀ o ∈ pre, o.filename ≠ original) ∧
          e.filename = original ∧ e.position = some p ∧ x'.disk.directory = .ok (es.map (renamedAt p new)) ∧
          x'.disk.cells = x.disk.cells ∧ x'.disk.header = x.disk.header ∧ x'.files = x.files ∧
          x'.writers = x.writers) := by
  obtain ⟨s, hty, hs⟩ := steady_new hnew
  refine ⟨s, hty, ?_⟩
  rintro calls hcalls x rfl es original new hes res x' hstep
  have hw := (steady_run calls hs hcalls).standing.wf
  generalize Session.run calls ⟨disk, [], []⟩ = x at hes hstep hw
  obtain ⟨r, disk', hr⟩ : ∃ r disk', Disk.rename original new x.disk = (r, disk') := ⟨_, _, rfl⟩
  rw [show Session.step (.rename original new) x = _ from onDisk_run hr] at hstep
  obtain ⟨rfl, rfl⟩ := Prod.mk.inj hstep
  refine ⟨by rw [← rename_result hw hes, hr], fun hne => ?_, fun hok => ?_⟩
  · cases r with
    | ok u => exact (hne rfl).elim
    | error q => rw [rename_fails hr]
  · cases hok
    obtain ⟨pre, e, post, p, h1, h2, h3, h4, -, -, h5, h6⟩ := rename_where hw hes hr
    exact ⟨pre, e, post, p, h1, h2, h3, h4, h6, by rw [h5], by rw [h5], rfl, rfl⟩

/-- On a D64 with any bytes that is formatted and given two files: one of them is renamed, and is listed first, while a
name that is taken or not there is refused. -/
example (bytes : List Byte) (hl : bytes.length = 174848) : ∃ disk, Disk.new .d64 ⟨.memory, bytes⟩ = .ok disk ∧
    ∃ x es x', x = Session.run [.format [0x44] (0x30, 0x31), .create [0x41] .PRG .linear, .create [0x42] .SEQ .linear]
        ⟨disk, [], []⟩ ∧ x.disk.directory = .ok es ∧ es.map (·.filename) = [[0x41], [0x42]] ∧
      Session.step (.rename [0x41] [0x43]) x = (.ok (), x') ∧ (∃ p, x'.disk.directory = .ok (es.map (renamedAt p [0x43]))) ∧
      Session.step (.rename [0x41] [0x42]) x = (fail .fileExists, x) ∧
      Session.step (.rename [0x43] [0x44]) x = (fail .notFound, x) := by
  obtain ⟨disk, hd⟩ := (C05_accepts_exactly .d64 ⟨.memory, bytes⟩).1.2 (by
    show bytes.length ∈ _
    rw [hl]
    decide)
  refine ⟨disk, hd, ?_⟩
  obtain ⟨s, -, hC⟩ := C90_rename hd
  obtain ⟨x0, hx0, hr0⟩ := reaches_new hd (by simp) (name := [0x44]) (by decide) (0x30, 0x31)
  obtain ⟨a, ha, hla, hr⟩ : ∃ a, Store.run [.create [0x41] .PRG .linear, .create [0x42] .SEQ .linear]
      (Store.empty .d64 [0x44] (0x30, 0x31)) = some ([.ok (), .ok ()], a) ∧ a.listing.map Prod.fst = [[0x41], [0x42]] ∧
      (Store.step (.rename [0x41] [0x43]) a).map Prod.fst = some (.ok ()) ∧
      (Store.step (.rename [0x41] [0x42]) a).map Prod.fst = some (fail .fileExists) ∧
      (Store.step (.rename [0x43] [0x44]) a).map Prod.fst = some (fail .notFound) := ⟨_, rfl, rfl, rfl, rfl, rfl⟩
  obtain ⟨x, hx, hxa⟩ := hr0.run ha
  have hrun : x = Session.run [.format [0x44] (0x30, 0x31), .create [0x41] .PRG .linear, .create [0x42] .SEQ .linear]
      ⟨disk, [], []⟩ := by
    rw [← runs_state, runs_cons _ _ hx0, hx]
  obtain ⟨es, hes, -⟩ := hxa.shows.lists
  have hplain : ∀ c ∈ [Call.format [0x44] (0x30, 0x31), .create [0x41] .PRG .linear, .create [0x42] .SEQ .linear],
      Plain s c := by
    intro c hc
    simp only [List.mem_cons, List.not_mem_nil, or_false] at hc
    rcases hc with rfl | rfl | rfl <;> trivial
  have hC := fun o n => hC _ hplain x hrun es o n hes
  obtain ⟨x1, h1⟩ := one_result hxa hr.1
  obtain ⟨x2, h2⟩ := one_result hxa hr.2.1
  obtain ⟨x3, h3⟩ := one_result hxa hr.2.2
  have e2 := (hC _ _ _ _ h2).2.1 nofun
  have e3 := (hC _ _ _ _ h3).2.1 nofun
  obtain ⟨-, -, -, p, -, -, -, -, hp, -⟩ := (hC _ _ _ _ h1).2.2 rfl
  exact ⟨x, es, x1, hrun, hes, (entries_names hxa hes).trans hla, h1, ⟨p, hp⟩, e2 ▸ h2, e3 ▸ h3⟩

theorem rename_clean (hw : Wf disk.dev s) (hv : CanValidate disk s.type b header dir es) (hclean : disk.validate = .ok [])
    (hr : Disk.rename original new disk = (.ok (), disk')) :
    ∃ e ∈ es, ∃ p, e.filename = original ∧ e.position = some p ∧
      disk'.directory = .ok (es.map (renamedAt p new)) ∧
      (∀ o ∈ es, SameFile disk disk' o (renamedAt p new o)) ∧
      CanValidate disk' s.type b header dir (es.map (renamedAt p new)) ∧ Wf disk'.dev s ∧
      (∀ l, s.Valid l → ∀ j < 2, (disk'.dev.blk s l)[j]? = (disk.dev.blk s l)[j]?) ∧ disk'.validate = .ok [] := by
  obtain ⟨pre, e, post, p, h1, -, h2, h3, h4, h5, h6, h7⟩ := rename_where hw hv.listed hr
  have he : e ∈ es := by rw [h1]; simp
  have hc := clean_of hv hclean
  have hhome : p.location ∈ homes dir header := by
    obtain ⟨q, hq, -, -, hh, -⟩ := entry_home hw hv he
    rw [h3] at hq
    cases hq
    exact hh
  have hsame : ∀ o ∈ es, ∀ ls, scanFile disk o = .ok ls → SameOn s (· ∈ ls) disk.dev disk'.dev := by
    intro o ho ls hls l hl hval
    refine List.ext_getElem? fun j => h5.frame l j hval fun hf => ?_
    rw [hf.1] at hl
    exact hc.home o ho ls hls _ hl hhome
  have hfiles : ∀ o ∈ es, SameFile disk disk' o (renamedAt p new o) := by
    intro o ho
    obtain ⟨ls, hls⟩ := hc.scans o ho
    have hsm := hsame o ho ls hls
    unfold scanFile at hls
    obtain ⟨⟨f, r⟩, hopen, hls⟩ := res_bind_eq_ok.1 hls
    obtain ⟨hr, hf⟩ := openFile_parts hopen
    obtain ⟨a1, a2, a3⟩ := file_on hw h5.wf hsm hf hls
    have hent := file_entry hf
    have hopen' : ∀ o' f', File.fromEntry disk'.dev o' = .ok f' → disk'.openFileFromEntry o' = .ok (f', r) := by
      intro o' f' hf'
      unfold Disk.openFileFromEntry
      rw [show disk'.bamRef = .ok r by
        unfold Disk.bamRef; rw [h6]; simp only [hr], res_bind_ok, hf']
      rfl
    unfold renamedAt
    split
    · have hn := fromEntry_named (storedName new) a1
      obtain ⟨b1, b2, b3⟩ := setEntry_named (d := disk'.dev) (storedName new) f
      rw [hent] at b1 b2 b3
      exact ⟨f, _, r, hopen, hopen' _ _ hn, rfl, b1, b2.trans (a2.trans hls.symm), fun i => by rw [b3, a3]⟩
    · refine ⟨f, f, r, hopen, hopen' _ _ a1, ?_, rfl, a2.trans hls.symm, a3⟩
      rw [← hent, setEntry_self]
  have hscan : ∀ o ∈ es, scanFile disk' (renamedAt p new o) = scanFile disk o := by
    intro o ho
    obtain ⟨f, f', r, k1, k2, -, -, k3, -⟩ := hfiles o ho
    unfold scanFile
    rw [k1, k2, res_bind_ok, res_bind_ok]
    exact k3
  have hchain : chainLocations disk'.dev (firstDirectory s.type) = .ok dir := by
    obtain ⟨g, hg⟩ := hv.format
    obtain ⟨dir', content, k1, k2⟩ := listed_chain hw hg hv.header hv.listed
    have hfirst : ({ s.type.format with geos := g } : DiskFormat).firstDirectoryLocation = firstDirectory s.type := by
      cases s.type <;> rfl
    have := chainLocations_chain hw k2 k1
    rw [hfirst, hv.chain] at this
    cases this
    obtain ⟨content', k3⟩ := chain_links (d' := disk'.dev) k2 fun l hl j hj => by
      unfold byteAt
      rw [List.getD_eq_getElem?_getD, List.getD_eq_getElem?_getD, h5.frame l j (k2.valid l hl) fun hf => by
        have := hf.2.1
        omega]
    rw [hfirst] at k1
    exact chainLocations_chain h5.wf k3 k1
  have hcan : CanValidate disk' s.type b header dir (es.map (renamedAt p new)) := by
    refine ⟨by rw [h6]; exact hv.format, by rw [h6]; exact hv.header, by rw [h6]; exact hv.bam, hv.tracks, hchain, h7, ?_⟩
    intro o' ho'
    obtain ⟨o, ho, rfl⟩ := List.mem_map.1 ho'
    rw [hscan o ho]
    exact hv.scans o ho
  obtain ⟨c1, c2, c3⟩ := (C32_empty_iff hv).1 hclean
  have hsecs : ∀ border, (claims disk' s.type dir border (es.map (renamedAt p new))).map Prod.snd =
      (claims disk s.type dir border es).map Prod.snd := by
    intro border
    unfold claims
    rw [List.map_cons, List.map_cons, List.filterMap_map, List.map_filterMap, List.map_filterMap]
    refine congrArg _ (filterMap_congr_left fun o ho => ?_)
    simp only [Function.comp_apply]
    rw [hscan o ho]
    cases scanFile disk o <;> rfl
  refine ⟨e, he, p, h2, h3, h7, hfiles, hcan, h5.wf, fun l hl j hj => ?_, (C32_empty_iff hcan).2 ⟨?_, ?_, ?_⟩⟩
  · exact h5.frame l j hl fun hf => by
      have := hf.2.1
      omega
  · intro o' ho'
    obtain ⟨o, ho, rfl⟩ := List.mem_map.1 ho'
    rw [hscan o ho]
    exact c1 o ho
  · have h := List.pairwise_map (f := Prod.snd) (R := fun c c' : List Location => ∀ l ∈ c, l ∉ c')
      (l := claims disk s.type dir (header.geos.map GEOSDiskHeader.border) es)
    rw [← hsecs, List.pairwise_map] at h
    exact h.2 c2
  · intro l hl
    rw [c3 l hl]
    have h : ∀ cs : List (Petscii × List Location), (∃ c ∈ cs, l ∈ c.2) ↔ ∃ ls ∈ cs.map Prod.snd, l ∈ ls := by
      intro cs
      simp only [List.mem_map]
      constructor
      · rintro ⟨c, hc, hl⟩
        exact ⟨_, ⟨c, hc, rfl⟩, hl⟩
      · rintro ⟨_, ⟨c, hc, rfl⟩, hl⟩
        exact ⟨c, hc, hl⟩
    rw [h, h, hsecs]

/-- **C90** Renaming a file, of any kind, on a disk on which validation finds nothing leaves a disk on which validation
finds nothing, and every file, the renamed one as well as the others, has the same sectors and the same records
(`SameFile`). -/
theorem C90_same_files {x x' : Session} (hw : Wf x.disk.dev s) (hv : CanValidate x.disk s.type b header dir es)
    (hclean : x.disk.validate = .ok []) (hstep : Session.step (.rename original new) x = (.ok (), x')) :
    x'.disk.validate = .ok [] ∧ ∃ e ∈ es, ∃ p, e.filename = original ∧ e.position = some p ∧
      x'.disk.directory = .ok (es.map (renamedAt p new)) ∧
      ∀ o ∈ es, SameFile x.disk x'.disk o (renamedAt p new o) := by
  obtain ⟨r, disk', hr⟩ : ∃ r disk', Disk.rename original new x.disk = (r, disk') := ⟨_, _, rfl⟩
  rw [show Session.step (.rename original new) x = _ from onDisk_run hr] at hstep
  obtain ⟨rfl, rfl⟩ := Prod.mk.inj hstep
  obtain ⟨e, he, p, h1, h2, h3, h4, -, -, -, h5⟩ := rename_clean hw hv hclean hr
  exact ⟨h5, e, he, p, h1, h2, h3, h4⟩

/-- The hypotheses of `C90_same_files` hold of disks with a relative file, a GEOS sequential file and a VLIR file, and
a name of one character. -/
example : ∀ sch ∈ [.relative, .geosSequential, Scheme.geosVLIR], ∃ x b e header dir new x',
    e.scheme = sch ∧ Wf x.disk.dev ⟨.d64, 35, false⟩ ∧ CanValidate x.disk .d64 b header dir [e] ∧
    x.disk.validate = .ok [] ∧ new ≠ e.filename ∧
    Session.step (.rename e.filename new) x = (.ok (), x') := by
  have key : ∀ {x : Session} {b : Bam} {e : DirectoryEntry}, OpenedEntry x ⟨.d64, 35, false⟩ b 0 e [e] →
      ∃ new x', new ≠ e.filename ∧ Session.step (.rename e.filename new) x = (.ok (), x') := by
    intro x b e h
    obtain ⟨new, hlen, hne⟩ : ∃ new : Petscii, new.length ≤ 16 ∧ new ≠ e.filename := by
      by_cases hn : e.filename = [0x4E]
      · exact ⟨[0x4F], by decide, by rw [hn]; decide⟩
      · exact ⟨[0x4E], by decide, fun h => hn h.symm⟩
    have hr := rename_result (original := e.filename) (new := new) h.wf h.listed
    have hw : ¬ x.disk.dev.image.kind = .readOnlyMap := h.writable
    unfold renameResult at hr
    rw [if_neg (fun hn => hn e (by simp) rfl), if_neg (by omega), if_neg (by simpa using fun h => hne h.symm),
      if_neg (by simpa using hw)] at hr
    exact ⟨new, _, hne, onDisk_run (Prod.ext hr rfl)⟩
  intro sch hsch
  simp only [List.mem_cons, List.not_mem_nil, or_false] at hsch
  rcases hsch with rfl | rfl | rfl
  · obtain ⟨_, b, e, data, side, h, hs, hp, hu, -, -, hl, -, h1, front, slot, f, rfl, hf, hsl⟩ := sampleRelative_opened
    obtain ⟨x, b, header, dir, r⟩ := sample_clean hf hsl h (.relative hs hp) hu h1
    obtain ⟨new, x', hne, hx⟩ := key r.1
    exact ⟨x, b, e, header, dir, new, x', hs, r.1.wf, r.2.1, r.2.2.1, hne, hx⟩
  · obtain ⟨_, b, e, data, info, h, hs, hp, hu, -, -, hl, -, h1, front, slot, f, rfl, hf, hsl⟩ :=
      sampleSequential_opened
    obtain ⟨x, b, header, dir, r⟩ := sample_clean hf hsl h (.sequential hs hp) hu h1
    obtain ⟨new, x', hne, hx⟩ := key r.1
    exact ⟨x, b, e, header, dir, new, x', hs, r.1.wf, r.2.1, r.2.2.1, hne, hx⟩
  · obtain ⟨_, b, e, info, chains, h, hs, hp, hu, -, -, -, h1, front, slot, f, rfl, hf, hsl⟩ := sampleVlir_opened
    obtain ⟨x, b, header, dir, r⟩ := sample_clean hf hsl h (.vlir hs hp) hu h1
    obtain ⟨new, x', hne, hx⟩ := key r.1
    exact ⟨x, b, e, header, dir, new, x', hs, r.1.wf, r.2.1, r.2.2.1, hne, hx⟩

end Cbm
