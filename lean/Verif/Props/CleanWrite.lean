import Verif.Lemmas.Inked
import Verif.Props.CleanCreate
import Verif.Props.Files
import Verif.Spec.CleanWrite
/-!
# C92: A clean disk stays clean while a file is written
-/

namespace Cbm
open Spec

variable {disk disk' : Disk} {s : Shape} {b b' : Bam} {e : DirectoryEntry} {es : List DirectoryEntry}
  {header : Header} {dir locs locs0 : List Location} {p : Position} {d d' : Device} {content data : List Byte} {w : WSt}

/-! ## The listing -/

theorem parse32_sized {slot out : List Byte} {q : Option Position}
    (hsame : ∀ i, i < 30 → out[i]? = slot[i]?) :
    DirectoryEntry.parse32 out q =
      { DirectoryEntry.parse32 slot q with fileSize := (DirectoryEntry.parse32 out q).fileSize } := by
  have hb : ∀ i, i < 30 → byteAt out i = byteAt slot i := fun i hi => by
    unfold byteAt
    rw [List.getD_eq_getElem?_getD, List.getD_eq_getElem?_getD, hsame i hi]
  have hx : ∀ k n, k + n ≤ 30 → slice out k n = slice slot k n := fun k n hk => by
    refine List.ext_getElem? fun i => ?_
    rw [getElem?_slice, getElem?_slice]
    split
    · exact hsame _ (by omega)
    · rfl
  have hs : entryScheme out = entryScheme slot := by
    unfold entryScheme isEntryGeos isEntryVlir
    rw [hb 2 (by omega), hb (ENTRY_EXTRA_OFFSET + 2) (by decide), hb (ENTRY_EXTRA_OFFSET + 3) (by decide)]
  unfold DirectoryEntry.parse32
  simp only
  rw [hs, hx ENTRY_EXTRA_OFFSET EXTRA_SIZE (by decide), hb 2 (by omega), hb 3 (by omega), hb 4 (by omega),
    hx 5 ENTRY_FILENAME_LENGTH (by decide)]

/-- Only the size in the slot is different, as far as the directory goes. -/
structure SizedSlot (s : Shape) (d d' : Device) (homes : List Location) (p : Position) : Prop where
  frame : ∀ l ∈ homes, ∀ j, s.Valid l → ¬ Field p 30 2 l j → (d'.blk s l)[j]? = (d.blk s l)[j]?

theorem picked_sized {l : Location} {n : Nat} {border : Bool} {homes : List Location} (h : SizedSlot s d d' homes p)
    (hp : InSlot d s e p) (hn : n ≤ 8) (hl : l ∈ homes) (hv : s.Valid l) :
    picked d' s n l border = (picked d s n l border).map (sizedAt p (entryAt d' s p).fileSize) := by
  unfold picked
  rw [List.map_filterMap]
  apply filterMap_congr_left
  intro q hq
  obtain ⟨k, hk, rfl⟩ := List.mem_map.1 hq
  have hk : k < 8 := Nat.lt_of_lt_of_le (List.mem_range.1 hk) hn
  have hset : ∀ i, (⟨l, UInt8.ofNat (32 * k), 32⟩ : Position) ≠ p ∨ i < 30 →
      (slotData d' s ⟨l, UInt8.ofNat (32 * k), 32⟩)[i]? = (slotData d s ⟨l, UInt8.ofNat (32 * k), 32⟩)[i]? := by
    intro i hi
    rw [slotData_at _ _ _ hk, slotData_at _ _ _ hk, getElem?_slice, getElem?_slice]
    split
    · refine h.frame l hl _ hv ?_
      rintro ⟨h1, h2, h3⟩
      have hal := hp.aligned
      have heq : (⟨l, UInt8.ofNat (32 * k), 32⟩ : Position) = p := by
        have hsz := hp.size
        obtain ⟨pl, po, ps⟩ := p
        simp only at hsz hal h1 h2 h3 ⊢
        subst hsz h1
        have : po = UInt8.ofNat (32 * k) := by
          apply UInt8.toNat.inj
          rw [UInt8.toNat_ofNat']
          omega
        rw [this]
      rcases hi with hi | hi
      · exact hi heq
      · have : p.offset.toNat = 32 * k := by
          rw [← heq]
          simp only [UInt8.toNat_ofNat']
          omega
        omega
    · rfl
  have hfree : slotFree d' s ⟨l, UInt8.ofNat (32 * k), 32⟩ = slotFree d s ⟨l, UInt8.ofNat (32 * k), 32⟩ := by
    unfold slotFree byteAt
    rw [List.getD_eq_getElem?_getD, List.getD_eq_getElem?_getD, hset 2 (.inr (by omega))]
  rw [hfree]
  cases slotFree d s ⟨l, UInt8.ofNat (32 * k), 32⟩ with
  | true => rfl
  | false =>
    rw [if_neg (by simp), if_neg (by simp)]
    refine congrArg some ?_
    by_cases hqp : (⟨l, UInt8.ofNat (32 * k), 32⟩ : Position) = p
    · have hp' : (entryAt d s ⟨l, UInt8.ofNat (32 * k), 32⟩).position = some p := congrArg some hqp
      unfold sizedAt
      rw [if_pos hp', ← hqp]
      have := parse32_sized (q := some ⟨l, UInt8.ofNat (32 * k), 32⟩) fun i hi => hset i (.inr hi)
      unfold entryAt
      rw [this]
    · have hp' : (entryAt d s ⟨l, UInt8.ofNat (32 * k), 32⟩).position ≠ some p := fun h => hqp (Option.some.inj h)
      unfold sizedAt
      rw [if_neg hp']
      unfold entryAt
      rw [show slotData d' s ⟨l, UInt8.ofNat (32 * k), 32⟩ = slotData d s ⟨l, UInt8.ofNat (32 * k), 32⟩ from
        List.ext_getElem? fun i => hset i (.inl hqp)]

theorem directory_sized {f : DiskFormat} {content : List Byte} (hw : Wf disk.dev s) (hf : disk.format = some f)
    (hh : disk.header = some header) (hf' : disk'.format = some f) (hh' : disk'.header = some header)
    (hes : disk.directory = .ok es) (hd : dir.head? = some f.firstDirectoryLocation) (hc : IsChain disk.dev s dir content)
    (hw' : Wf disk'.dev s) (hp : InSlot disk.dev s e p) (h : SizedSlot s disk.dev disk'.dev (homes dir header) p) :
    (∃ content', IsChain disk'.dev s dir content') ∧
    (∀ l ∈ dir, usedBytes (disk'.dev.blk s l) = usedBytes (disk.dev.blk s l)) ∧
    disk'.directory = .ok (es.map (sizedAt p (entryAt disk'.dev s p).fileSize)) := by
  have hb := directory_border hw hf hh hes
  have hdir : ∀ l ∈ dir, l ∈ homes dir header := fun l hl => List.mem_append_left _ hl
  have hbytes : ∀ l ∈ dir, ∀ j < 2, (disk'.dev.blk s l)[j]? = (disk.dev.blk s l)[j]? := fun l hl j hj =>
    h.frame l (hdir l hl) j (hc.valid l hl) fun ht => by have := ht.2.1; omega
  have hlink : ∀ l ∈ dir, linkBytes (disk'.dev.blk s l) = linkBytes (disk.dev.blk s l) := by
    intro l hl
    unfold linkBytes byteAt
    rw [List.getD_eq_getElem?_getD, List.getD_eq_getElem?_getD, List.getD_eq_getElem?_getD,
      List.getD_eq_getElem?_getD, hbytes l hl 0 (by omega), hbytes l hl 1 (by omega)]
  obtain ⟨content', hc'⟩ := hc.relink hlink
  have hu : ∀ l ∈ dir, usedBytes (disk'.dev.blk s l) = usedBytes (disk.dev.blk s l) := fun l hl => used_same (hbytes l hl)
  refine ⟨⟨_, hc'⟩, hu, ?_⟩
  rw [directory_picked hw hf hh hd hc hb] at hes
  cases hes
  rw [directory_picked hw' hf' hh' hd hc' hb]
  refine congrArg Except.ok ?_
  unfold allPicked
  rw [List.map_append, List.map_flatMap, List.map_flatMap]
  refine congr (congrArg _ ?_) ?_
  · apply flatMap_congr_left
    intro l hl
    rw [hu l hl]
    exact picked_sized h hp (by have := usedBytes_le (disk.dev.blk s l); omega) (hdir l hl) (hc.valid l hl)
  · apply flatMap_congr_left
    intro l hl
    obtain ⟨g, hg, rfl⟩ : ∃ g, header.geos = some g ∧ g.border = l := by
      cases hg : header.geos with
      | none => rw [hg] at hl; simp at hl
      | some g => rw [hg] at hl; simp at hl; exact ⟨g, rfl, hl.symm⟩
    exact picked_sized h hp (by omega) (by unfold homes; rw [hg]; simp) (hb g hg)

/-! ## The disk after some writing -/

/-- A file that can be written: its entry is listed, its chain is in order, and its size does not say more than that. -/
structure LinearFile (disk : Disk) (s : Shape) (es : List DirectoryEntry) (e : DirectoryEntry) (locs : List Location)
    (data : List Byte) : Prop where
  entry : e ∈ es
  scheme : e.scheme = .linear
  first : locs.head? = some e.firstSector
  chain : IsChain disk.dev s locs data
  count : e.fileSize ≤ locs.length

/-- The sectors of a linear file are those that validation takes to be its own. -/
theorem linear_scan (hw : Wf disk.dev s) (hb : disk.bam.isSome) (hs : e.scheme = .linear)
    (hst : locs.head? = some e.firstSector) (hc : IsChain disk.dev s locs data) :
    ∃ ls, scanFile disk e = .ok ls ∧ ∀ l, l ∈ ls ↔ l ∈ locs := by
  rcases C32_sectors_of_linear (disk := disk) hw hb hs with ⟨ls, locs', c, h1, h2, h3, h4⟩ | ⟨y, -, hno⟩
  · have : locs' = locs := by
      have a1 := chainLocations_chain hw hc hst
      have a2 := chainLocations_chain hw h3 h2
      rw [a1] at a2
      exact (Except.ok.inj a2).symm
    subst this
    exact ⟨ls, h1, h4⟩
  · exact absurd ⟨_, _, hst, hc⟩ hno

theorem Tidy.paper (h : Tidy disk s b header dir es) (hmap : ∀ l ∈ homes dir header, ∀ j, ¬ bamArea s.type l j)
    (hf : LinearFile disk s es e locs data) (hp : e.position = some p) : Paper s disk.dev b p locs := by
  obtain ⟨f, ref, c, -, hbam, -⟩ := h.places
  have hcl := clean_of h.can h.clean
  obtain ⟨ls, hls, hmem⟩ := linear_scan h.wf (by rw [hbam]; rfl) hf.scheme hf.first hf.chain
  obtain ⟨q, hq, -, hv, hhome, -, hitem⟩ := entry_home h.wf h.can hf.entry
  obtain rfl : q = p := Option.some.inj (hq.symm.trans hp)
  obtain ⟨q', hq', hin⟩ := item_slot h.wf hitem
  obtain rfl : q' = q := Option.some.inj (hq'.symm.trans hp)
  have hno : ∀ l ∈ locs, isFree b l = false := fun l hl => by
    cases hfr : isFree b l with
    | false => rfl
    | true =>
      exact absurd ((hmem l).2 hl)
        ((hcl.marked l (free_in_map h.can.tracks hfr (hf.chain.valid l hl)) hfr).2.2 e hf.entry ls hls)
  refine ⟨hv, hin.fits, hin.size, h.taken hhome hv, fun hm => ?_, hmap _ hhome, hno, fun l hl j hj => ?_, fun l hl hfr j hj => ?_, ?_⟩
  · exact hcl.home e hf.entry ls hls _ ((hmem _).2 hm) hhome
  · exact hcl.own e hf.entry ls hls l ((hmem l).2 hl) (area_own (.inl hj))
  · exact (hcl.marked l hl hfr).1 (area_own (.inl hj))
  · obtain ⟨border, hb⟩ := hin.entry
    have : e.fileSize = (entryAt disk.dev s q').fileSize := by rw [hb]
    rw [← this]
    exact hf.count

theorem sized_other {n : Nat} (h : e.position ≠ some p) : sizedAt p n e = e := if_neg h

theorem sized_self {n : Nat} (h : e.position = some p) : sizedAt p n e = { e with fileSize := n } := if_pos h

/-- However far the writer has got: the disk is in order, and only the file has changed. -/
theorem Tidy.written (h : Tidy disk s b header dir es) (hmap : ∀ l ∈ homes dir header, ∀ j, ¬ bamArea s.type l j)
    (hf : LinearFile disk s es e locs0 data) (hpos : e.position = some p) {ref : Nat} (hbam : disk.bam = some ref)
    (hcell : disk.cells[ref]? = some b) (hi : Inked s disk.dev b p locs0 locs content w) :
    ∃ n stale, n + locs0.length = e.fileSize + locs.length ∧
      Tidy (disk.withSt ref w.st) s w.st.bam header dir (es.map (sizedAt p n)) ∧
      LinearFile (disk.withSt ref w.st) s (es.map (sizedAt p n)) { e with fileSize := n } locs stale ∧
      (w.w.dirty = false → stale = content) ∧
      ∀ o ∈ es, o.position ≠ some p → SameFile disk (disk.withSt ref w.st) o o := by
  obtain ⟨f, ref', c, hfm, -, -, hfirst, hd, hc⟩ := h.places
  have hp := h.paper hmap hf hpos
  have hcl := clean_of h.can h.clean
  obtain ⟨ls, hls, hmem⟩ := linear_scan h.wf (by rw [hbam]; rfl) hf.scheme hf.first hf.chain
  obtain ⟨q, hq, -, hv, hhome, -, hitem⟩ := entry_home h.wf h.can hf.entry
  obtain rfl : q = p := Option.some.inj (hq.symm.trans hpos)
  obtain ⟨q', hq', hin⟩ := item_slot h.wf hitem
  obtain rfl : q' = q := Option.some.inj (hq'.symm.trans hpos)
  obtain ⟨stale, hch, hdirty⟩ := hi.chain
  have hnew : ∀ l ∈ locs, l ∈ locs0 ∨ ValidLoc s.type (bamTracks s.type) l ∧ isFree b l = true := hi.fresh
  have hout : ∀ l ∈ locs, l ∉ homes dir header := fun l hl hm => by
    rcases hnew l hl with h1 | ⟨h1, h2⟩
    · exact hcl.home e hf.entry ls hls l ((hmem l).2 h1) hm
    · exact (hcl.marked l h1 h2).2.1 hm
  have hown : ∀ l ∈ locs, l ∉ ownSectors s.type := fun l hl hm => by
    rcases hnew l hl with h1 | ⟨h1, h2⟩
    · exact hcl.own e hf.entry ls hls l ((hmem l).2 h1) hm
    · exact (hcl.marked l h1 h2).1 hm
  have hoth : ∀ o ∈ es, o.position ≠ some q' → ∀ lo, scanFile disk o = .ok lo → ∀ l ∈ lo, l ∉ locs := by
    intro o ho hne lo hlo l hl hm
    rcases hnew l hm with h1 | ⟨h1, h2⟩
    · exact hcl.apart e hf.entry o ho (fun he => hne (he.trans hpos)) ls lo hls hlo l ((hmem l).2 h1) hl
    · exact (hcl.marked l h1 h2).2.2 o ho lo hlo hl
  have hsized : SizedSlot s disk.dev w.st.dev (homes dir header) q' := ⟨fun l hl j hv hfd =>
    hi.frame l j hv (fun hm => hout l hm hl) hfd (hmap l hl j)⟩
  obtain ⟨⟨c', hc'⟩, hu, hlist⟩ := directory_sized (disk' := disk.withSt ref w.st) h.wf hfm h.can.header hfm h.can.header
    h.can.listed hd hc hi.wf hin hsized
  have hsf : ∀ o ∈ es, o.position ≠ some q' → SameFile disk (disk.withSt ref w.st) o o := by
    intro o ho hne
    obtain ⟨lo, hlo⟩ := hcl.scans o ho
    refine same_file h.wf hi.wf rfl hlo fun l hl hv => List.ext_getElem? fun j =>
      hi.frame l j hv (hoth o ho hne lo hlo l hl) (fun hfd => ?_) fun ha => ?_
    · exact hcl.home o ho lo hlo l hl (hfd.1 ▸ hhome)
    · exact hcl.own o ho lo hlo l hl (area_own (.inl ha))
  have hlist : (disk.withSt ref w.st).directory = .ok (es.map (sizedAt q' (entryAt w.st.dev s q').fileSize)) := hlist
  have hsize : (entryAt w.st.dev s q').fileSize + locs0.length = e.fileSize + locs.length := by
    have he : e.fileSize = (entryAt disk.dev s q').fileSize := by
      obtain ⟨border, hb⟩ := hin.entry
      rw [hb]
    rw [he]
    exact hi.size
  generalize (entryAt w.st.dev s q').fileSize = n at *
  have hhead : locs.head? = some e.firstSector := by
    obtain ⟨more, rfl⟩ := hi.grown
    rw [List.head?_append, hf.first]
    rfl
  obtain ⟨ls', hls', hmem'⟩ := linear_scan (disk := disk.withSt ref w.st) (e := { e with fileSize := n }) hi.wf
    (by show disk.bam.isSome = true; rw [hbam]; rfl) hf.scheme hhead hch
  have hmine : ∀ o ∈ es, o.position = some q' → o = e := fun o ho he =>
    same_slot h.wf h.can ho hf.entry (he.trans hpos.symm)
  have hbam1 : bamOf (disk.withSt ref w.st) = some w.st.bam := by
    have hlt := (List.getElem?_eq_some_iff.1 hcell).1
    unfold bamOf Disk.withSt
    simp only [hbam, Option.bind_some]
    exact List.getElem?_set_self hlt
  -- what validation finds of each file
  have hscan : ∀ o ∈ es, ∃ lo lo', scanFile disk o = .ok lo ∧
      scanFile (disk.withSt ref w.st) (sizedAt q' n o) = .ok lo' ∧ (∀ l ∈ lo, l ∈ lo') ∧
      (o.position = some q' → (∀ l, l ∈ lo ↔ l ∈ locs0) ∧ ∀ l, l ∈ lo' ↔ l ∈ locs) ∧
      (o.position ≠ some q' → lo' = lo) := by
    intro o ho
    by_cases he : o.position = some q'
    · obtain rfl := hmine o ho he
      refine ⟨ls, ls', hls, by rw [sized_self he]; exact hls', fun l hl => ?_, fun _ => ⟨hmem, hmem'⟩, fun hne => (hne he).elim⟩
      exact (hmem' l).2 (hi.grown.subset ((hmem l).1 hl))
    · obtain ⟨lo, hlo⟩ := hcl.scans o ho
      refine ⟨lo, lo, hlo, ?_, fun l hl => hl, fun h => (he h).elim, fun _ => rfl⟩
      rw [sized_other he, scan_of_same (hsf o ho he), hlo]
  have hcan : CanValidate (disk.withSt ref w.st) s.type w.st.bam header dir (es.map (sizedAt q' n)) := by
    refine ⟨h.can.format, h.can.header, hbam1, hi.bam, ?_, hlist, fun o ho => ?_⟩
    · rw [← hfirst]
      exact chainLocations_chain hi.wf hc' hd
    · obtain ⟨o', ho', rfl⟩ := List.mem_map.1 ho
      obtain ⟨lo, lo', -, h2, -⟩ := hscan o' ho'
      rw [h2]
      exact ⟨nofun, nofun⟩
  obtain ⟨c1, c2, c3⟩ := (C32_empty_iff h.can).1 h.clean
  refine ⟨n, stale, hsize, ⟨hi.wf, hi.writable, hcan, (C32_empty_iff hcan).2 ⟨?_, ?_, ?_⟩, h.border, fun t ht => ?_⟩, ?_,
    hdirty, hsf⟩
  · intro o ho
    obtain ⟨o', ho', rfl⟩ := List.mem_map.1 ho
    obtain ⟨lo, lo', -, h2, -⟩ := hscan o' ho'
    exact ⟨_, h2⟩
  · unfold claims at c2 ⊢
    rw [List.pairwise_cons] at c2 ⊢
    constructor
    · intro c hcm l hl hm
      obtain ⟨o, ho, hlo⟩ := claimed hcm
      obtain ⟨o', ho', rfl⟩ := List.mem_map.1 ho
      obtain ⟨lo, lo', k1, k2, -, k4, k5⟩ := hscan o' ho'
      rw [k2] at hlo
      have hlo : lo' = c.2 := Except.ok.inj hlo
      subst hlo
      have hsys : l ∈ ownSectors s.type ∨ l ∈ homes dir header := by
        unfold homes
        rw [List.append_assoc] at hl
        exact List.mem_append.1 hl
      by_cases he : o'.position = some q'
      · have := ((k4 he).2 l).1 hm
        exact hsys.elim (hown l this) (hout l this)
      · rw [k5 he] at hm
        exact hsys.elim (hcl.own o' ho' lo k1 l hm) (hcl.home o' ho' lo k1 l hm)
    · rw [List.filterMap_map]
      have c2 := List.pairwise_filterMap.1 c2.2
      refine List.pairwise_filterMap.2 (c2.imp_of_mem fun {a a'} ha ha' hr => ?_)
      obtain ⟨la, la1, k1, k2, k3, k4, k5⟩ := hscan a ha
      obtain ⟨lb, lb1, m1, m2, m3, m4, m5⟩ := hscan a' ha'
      have hr : ∀ l ∈ la, l ∉ lb := hr (a.filename, la) (by rw [k1]) (a'.filename, lb) (by rw [m1])
      intro c hc c' hc'
      simp only [Function.comp_apply, k2, m2, Option.some.injEq] at hc hc'
      subst hc hc'
      intro l hl hl'
      simp only at hl hl'
      by_cases h1 : a.position = some q'
      · by_cases h2 : a'.position = some q'
        · have g1 := (k4 h1).1
          have g2 := (m4 h2).1
          have hmem0 : e.firstSector ∈ locs0 := List.mem_of_mem_head? hf.first
          exact hr _ ((g1 _).2 hmem0) ((g2 _).2 hmem0)
        · rw [m5 h2] at hl'
          exact hoth a' ha' h2 lb m1 l hl' (((k4 h1).2 l).1 hl)
      · rw [k5 h1] at hl
        by_cases h2 : a'.position = some q'
        · exact hoth a ha h1 la k1 l hl (((m4 h2).2 l).1 hl')
        · rw [m5 h2] at hl'
          exact hr l hl hl'
  · intro l hl
    have hb' : isFree w.st.bam l = false ↔ l ∈ locs ∨ isFree b l = false := by
      have := hi.free l
      cases h1 : isFree w.st.bam l <;> cases h2 : isFree b l <;> simp_all
    rw [hb', c3 l hl]
    unfold claims
    simp only [List.mem_cons, exists_eq_or_imp]
    constructor
    · rintro (hm | hm | ⟨c, hcm, hm⟩)
      · refine .inr ⟨(({ e with fileSize := n } : DirectoryEntry).filename, ls'), List.mem_filterMap.2
          ⟨sizedAt q' n e, List.mem_map.2 ⟨e, hf.entry, rfl⟩, ?_⟩, (hmem' l).2 hm⟩
        rw [sized_self hpos, hls']
      · exact .inl hm
      · obtain ⟨o, ho, hlo⟩ := claimed hcm
        obtain ⟨lo, lo', k1, k2, k3, -⟩ := hscan o ho
        rw [k1] at hlo
        have hlo : lo = c.2 := Except.ok.inj hlo
        subst hlo
        refine .inr ⟨((sizedAt q' n o).filename, lo'), List.mem_filterMap.2 ⟨_, List.mem_map.2 ⟨o, ho, rfl⟩, ?_⟩, k3 l hm⟩
        rw [k2]
    · rintro (hm | ⟨c, hcm, hm⟩)
      · exact .inr (.inl hm)
      · obtain ⟨o, ho, hlo⟩ := claimed hcm
        obtain ⟨o', ho', rfl⟩ := List.mem_map.1 ho
        obtain ⟨lo, lo', k1, k2, k3, k4, k5⟩ := hscan o' ho'
        rw [k2] at hlo
        have hlo : lo' = c.2 := Except.ok.inj hlo
        subst hlo
        by_cases he : o'.position = some q'
        · exact .inl (((k4 he).2 l).1 hm)
        · rw [k5 he] at hm
          exact .inr (.inr ⟨(o'.filename, lo), List.mem_filterMap.2 ⟨o', ho', by rw [k1]⟩, hm⟩)
  · rw [show (disk.withSt ref w.st).dev = w.st.dev from rfl] at hu
    show usedBytes (w.st.dev.blk s t) = 256
    rw [hu t (List.mem_of_getLast? ht)]
    exact h.full t ht
  · refine ⟨?_, hf.scheme, hhead, hch, ?_⟩
    · rw [← sized_self (n := n) hpos]
      exact List.mem_map.2 ⟨e, hf.entry, rfl⟩
    · show n ≤ locs.length
      have := hf.count
      omega

/-! ## A writer at work -/

/-- The program `x`, whose writer `i` has taken `content` since the disk was `disk`. -/
structure AtWork (disk : Disk) (s : Shape) (b : Bam) (p : Position) (locs0 : List Location) (ref i : Nat)
    (content : List Byte) (dirty : Bool) (x : Session) : Prop where
  ink : ∃ w st locs, x.disk = disk.withSt ref st ∧ x.writers[i]? = some (w, ref) ∧
    Inked s disk.dev b p locs0 locs content ⟨w, st⟩ ∧ (dirty = false → w.dirty = false) ∧
    (Consistent b s.type → w.dirty = false → Synced st.dev s st.bam)

theorem withSt_twice {ref : Nat} {st st' : St} : (disk.withSt ref st).withSt ref st' = disk.withSt ref st' := by
  unfold Disk.withSt
  simp only [List.set_set]

theorem withSt_cell {ref : Nat} {st : St} (hcell : disk.cells[ref]? = some b) :
    (disk.withSt ref st).cells[ref]? = some st.bam :=
  List.getElem?_set_self (List.getElem?_eq_some_iff.1 hcell).1

variable {x : Session} {ref i : Nat} {dirty : Bool}

theorem AtWork.write (h : AtWork disk s b p locs0 ref i content dirty x) (hp : Paper s disk.dev b p locs0)
    (hcell : disk.cells[ref]? = some b) (buf : List Byte) :
    ∃ n, AtWork disk s b p locs0 ref i (content ++ buf.take n) true (Session.step (.write i buf) x).2 ∧
      ((Session.step (.write i buf) x).1 = .ok () → n = buf.length) := by
  obtain ⟨w, st, locs, h1, h2, h3, -⟩ := h.ink
  obtain ⟨r, y, locs', n, hrun, hres⟩ := h3.write hp buf
  have hc : x.disk.cells[ref]? = some st.bam := by rw [h1]; exact withSt_cell hcell
  have hd : x.disk.dev = st.dev := by rw [h1]; rfl
  have hrun : ChainWriter.write buf ⟨w, x.disk.dev, st.bam⟩ = (r.map fun _ => buf.length, y) := by rw [hd]; exact hrun
  have hst := onWriter_run h2 hc hrun
  have hstep : Session.step (.write i buf) x = (r, { x with
      disk := x.disk.withSt ref y.st, writers := x.writers.set i (y.w, ref) }) := by
    unfold Session.step
    simp only
    cases r with
    | ok u => rw [M.bind_of_ok hst]; rfl
    | error e => rw [M.bind_of_error hst]
  rw [hstep]
  refine ⟨n, ⟨y.w, y.st, locs', ?_, ?_, hres.here, nofun, fun _ hf => ?_⟩, hres.done⟩
  · show x.disk.withSt ref y.st = _
    rw [h1, withSt_twice]
  · exact List.getElem?_set_self (List.getElem?_eq_some_iff.1 h2).1
  · rw [hres.dirty] at hf
    cases hf

theorem reserved_system {ty : DiskType} {l : Location} (h : systemTrack ty l.track.toNat = true)
    (hne : l.track.toNat ≠ directoryTrack ty) : systemSector ty l = true := by
  cases ty with
  | d64 => exact absurd (by simpa [systemTrack, directoryTrack] using h) hne
  | d71 =>
    have : l.track = 53 := by
      apply UInt8.toNat.inj
      simp only [systemTrack, Bool.or_eq_true, beq_iff_eq] at h
      exact h.resolve_left hne
    simp [systemSector, this]
  | d81 => exact absurd (by simpa [systemTrack, directoryTrack] using h) hne

/-- A write that fails has found the disk full. -/
theorem AtWork.write_fails (h : AtWork disk s b p locs0 ref i content dirty x) (hp : Paper s disk.dev b p locs0)
    (hbam : disk.bam = some ref) (hcell : disk.cells[ref]? = some b) (hc : Consistent b s.type)
    (hres : ∀ l, ValidLoc s.type (bamTracks s.type) l → isFree b l = true → l ∉ ownSectors s.type) (buf : List Byte) {y : Fail}
    (hy : (Session.step (.write i buf) x).1 = .error y) :
    y = .err .diskFull ∧ ∃ b', bamOf (Session.step (.write i buf) x).2.disk = some b' ∧
      ∀ l, DataLoc s.type l → isFree b' l = false := by
  obtain ⟨w, st, locs, h1, h2, h3, -⟩ := h.ink
  obtain ⟨r, z, locs', n, hrun, hz⟩ := h3.write hp buf
  have hcl : x.disk.cells[ref]? = some st.bam := by rw [h1]; exact withSt_cell hcell
  have hd : x.disk.dev = st.dev := by rw [h1]; rfl
  have hrun : ChainWriter.write buf ⟨w, x.disk.dev, st.bam⟩ = (r.map fun _ => buf.length, z) := by rw [hd]; exact hrun
  have hst := onWriter_run h2 hcl hrun
  have hstep : Session.step (.write i buf) x = (r, { x with
      disk := x.disk.withSt ref z.st, writers := x.writers.set i (z.w, ref) }) := by
    unfold Session.step
    simp only
    cases r with
    | ok u => rw [M.bind_of_ok hst]; rfl
    | error e => rw [M.bind_of_error hst]
  rw [hstep] at hy ⊢
  have hnf := hz.failed y hy
  obtain ⟨c1, c2⟩ := C09_first_block (hz.here.even hc) fun l hl hs hne => by
    cases hf : isFree z.st.bam l with
    | false => rfl
    | true =>
      refine absurd (mem_ownSectors.2 ⟨hl, ?_⟩) (hres l hl ((hz.here.free l).1 hf).1)
      unfold ownSector
      rw [reserved_system hs hne, Bool.true_or]
  have hno : ¬ ∃ l, z.st.bam.nextFreeBlock none = .ok l := by
    rintro ⟨l, hl⟩
    rw [hnf] at hl
    cases hl
  refine ⟨?_, z.st.bam, ?_, fun l hl => ?_⟩
  · have := c2 hno
    rw [hnf] at this
    exact Except.error.inj this
  · show bamOf (x.disk.withSt ref z.st) = _
    unfold bamOf
    rw [show (x.disk.withSt ref z.st).bam = some ref by rw [h1]; exact hbam, Option.bind_some]
    exact withSt_cell hcl
  · cases hf : isFree z.st.bam l with
    | false => rfl
    | true => exact absurd (c1.2 ⟨l, hl.1, hl.2, hf⟩) hno

theorem AtWork.flush (h : AtWork disk s b p locs0 ref i content dirty x) (hp : Paper s disk.dev b p locs0)
    (hcell : disk.cells[ref]? = some b) :
    (Session.step (.flush i) x).1 = .ok () ∧
      AtWork disk s b p locs0 ref i content false (Session.step (.flush i) x).2 := by
  obtain ⟨w, st, locs, h1, h2, h3, -, h5⟩ := h.ink
  obtain ⟨y, hrun, hres, hdy, -, hsy⟩ := h3.flush hp
  have hc : x.disk.cells[ref]? = some st.bam := by rw [h1]; exact withSt_cell hcell
  have hd : x.disk.dev = st.dev := by rw [h1]; rfl
  have hrun : ChainWriter.flush ⟨w, x.disk.dev, st.bam⟩ = (.ok (), y) := by rw [hd]; exact hrun
  rw [show Session.step (.flush i) x = _ from onWriter_run h2 hc hrun]
  refine ⟨rfl, ⟨y.w, y.st, locs, ?_, ?_, hres, fun _ => hdy, fun hc _ => hsy hc (h5 hc)⟩⟩
  · show x.disk.withSt ref y.st = _
    rw [h1, withSt_twice]
  · exact List.getElem?_set_self (List.getElem?_eq_some_iff.1 h2).1

theorem AtWork.run (hp : Paper s disk.dev b p locs0) (hcell : disk.cells[ref]? = some b) :
    ∀ (calls : List (Option (List Byte))) {content : List Byte} {dirty : Bool} {x : Session},
      AtWork disk s b p locs0 ref i content dirty x →
      ∃ more dirty', Partly (calls.filterMap id) more ∧
        (AllOk (calls.map (writerCall i)) x → more = (calls.filterMap id).flatten) ∧
        AtWork disk s b p locs0 ref i (content ++ more) dirty' (Session.run (calls.map (writerCall i)) x)
  | [], content, dirty, x, h => ⟨[], dirty, .nil, fun _ => rfl, by rw [List.append_nil]; exact h⟩
  | none :: calls, content, dirty, x, h => by
    obtain ⟨more, d', h1, h2, h3⟩ := AtWork.run hp hcell calls (h.flush hp hcell).2
    exact ⟨more, d', h1, fun ho => h2 ho.2, h3⟩
  | some buf :: calls, content, dirty, x, h => by
    obtain ⟨n, h0, hn⟩ := h.write hp hcell buf
    obtain ⟨more, d', h1, h2, h3⟩ := AtWork.run hp hcell calls h0
    refine ⟨buf.take n ++ more, d', .cons n h1, fun ho => ?_, by rw [← List.append_assoc]; exact h3⟩
    rw [h2 ho.2, hn ho.1, List.take_length]
    rfl

/-- What a program relies on to write to a file of a disk in order: the directory keeps clear of the bytes of the map,
and it holds handle `k` of the linear file with the entry `e`. -/
structure ToWrite (x : Session) (s : Shape) (b : Bam) (header : Header) (dir : List Location) (es : List DirectoryEntry)
    (k : Nat) (e : DirectoryEntry) (locs : List Location) (data : List Byte) : Prop where
  tidy : Tidy x.disk s b header dir es
  map : ∀ l ∈ homes dir header, ∀ j, ¬ bamArea s.type l j
  file : LinearFile x.disk s es e locs data
  handle : ∃ e' ref, x.files[k]? = some (.linear e', ref) ∧ x.disk.bam = some ref ∧ e.position = e'.position ∧
    e.firstSector = e'.firstSector

/-- An opened linear file can be written. -/
theorem toWrite_of_opened {k : Nat} (h : OpenedEntry x s b k e es) (ht : Tidy x.disk s b header dir es)
    (hf : LinearFile x.disk s es e locs data) : ToWrite x s b header dir es k e locs data := by
  obtain ⟨f, ref, c, hfm, hbam, hcell, hfirst, hd, hc⟩ := ht.places
  obtain ⟨f', hdr, dir', content', k1, k2, k3, k4, k5⟩ := h.directory
  rw [hfm] at k1
  cases k1
  rw [ht.can.header] at k2
  cases k2
  have : dir' = dir := by
    have a1 := chainLocations_chain ht.wf hc hd
    have a2 := chainLocations_chain ht.wf k4 k3
    rw [a1] at a2
    exact (Except.ok.inj a2).symm
  subst this
  obtain ⟨fl, r, ho, hfl⟩ := h.handle
  obtain ⟨rfl, rfl⟩ : fl = .linear e ∧ r = ref := by
    unfold Disk.openFileFromEntry Disk.bamRef File.fromEntry at ho
    rw [hf.scheme, hbam] at ho
    cases ho
    exact ⟨rfl, rfl⟩
  exact ⟨ht, fun l hl j hj => k5 l hl ⟨j, hj⟩, hf, e, r, hfl, hbam, rfl, rfl⟩

theorem ToWrite.open {k : Nat} (h : ToWrite x s b header dir es k e locs data) :
    ∃ p ref, e.position = some p ∧ x.disk.bam = some ref ∧ x.disk.cells[ref]? = some b ∧
      Paper s x.disk.dev b p locs ∧ (Session.step (.openWriter k) x).1 = .ok () ∧
      AtWork x.disk s b p locs ref x.writers.length data true (Session.step (.openWriter k) x).2 := by
  obtain ⟨f, ref, c, -, hbam, hcell, -⟩ := h.tidy.places
  obtain ⟨p, hpos, -⟩ := entry_home h.tidy.wf h.tidy.can h.file.entry
  have hp := h.tidy.paper h.map h.file hpos
  obtain ⟨e', r, hfl, hr, hp', hf'⟩ := h.handle
  obtain rfl : r = ref := Option.some.inj (hr.symm.trans hbam)
  obtain ⟨w, hw, hdirty, hink⟩ := Inked.start (e := e') h.tidy.wf h.tidy.writable h.tidy.can.tracks hp h.file.chain
    (hf' ▸ h.file.first) (hp' ▸ hpos)
  have hstep : Session.step (.openWriter k) x = (.ok (), { x with writers := x.writers ++ [(w, r)] }) := by
    unfold Session.step
    simp only
    rw [M.bind_of_ok (show M.read (fun s => indexRes s.files k) x = (.ok (.linear e', r), x) from ?_)]
    · simp only
      rw [M.bind_of_ok (show M.read (fun s => (File.linear e').writer s.disk.dev) x = (.ok w, x) from ?_)]
      · rfl
      · unfold M.read File.writer
        simp only [hw]
    · unfold M.read indexRes
      simp only [hfl]
  refine ⟨p, r, hpos, hbam, hcell, hp, by rw [hstep], ?_⟩
  rw [hstep]
  refine ⟨w, ⟨x.disk.dev, b⟩, locs, ?_, ?_, hink, nofun, fun _ hf => ?_⟩
  · exact (withSt_self hcell).symm
  · simp
  · rw [hdirty] at hf
    cases hf

/-! ## The property -/

/-- **C92** A writer of a linear file is opened on a disk in order, with files of any kind on it, and then written to and
flushed any number of times.  At every moment in between the disk is in order, the listing is as before except for the
size of that file, which counts the blocks that were added, every other file is as it was, and the file is a chain of
blocks that begins with the blocks it had. -/
theorem C92_writing {k : Nat} (h : ToWrite x s b header dir es k e locs data) (calls : List (Option (List Byte))) :
    ∃ x' b' p n locs' there, x' = Session.run (.openWriter k :: calls.map (writerCall x.writers.length)) x ∧
      e.position = some p ∧ n + locs.length = e.fileSize + locs'.length ∧ locs <+: locs' ∧
      Tidy x'.disk s b' header dir (es.map (sizedAt p n)) ∧
      LinearFile x'.disk s (es.map (sizedAt p n)) { e with fileSize := n } locs' there ∧
      ∀ o ∈ es, o.position ≠ some p → SameFile x.disk x'.disk o o := by
  obtain ⟨p, ref, hpos, hbam, hcell, hp, -, hat⟩ := h.open
  obtain ⟨more, dirty', -, -, ⟨w, st, locs', h1, h2, h3, h4⟩⟩ := AtWork.run hp hcell calls hat
  obtain ⟨n, stale, r1, r2, r3, r4, r5⟩ := h.tidy.written h.map h.file hpos hbam hcell h3
  refine ⟨_, st.bam, p, n, locs', stale, rfl, hpos, r1, h3.grown, ?_⟩
  show Tidy (Session.run (calls.map (writerCall x.writers.length)) (Session.step (.openWriter k) x).2).disk _ _ _ _ _ ∧ _
  rw [show Session.run (.openWriter k :: calls.map (writerCall x.writers.length)) x =
    Session.run (calls.map (writerCall x.writers.length)) (Session.step (.openWriter k) x).2 from rfl, h1]
  exact ⟨r2, r3, r5⟩

/-- A writer that was flushed has left the map on the disk, and the header as it was. -/
theorem ToWrite.saved {k : Nat} (h : ToWrite x s b header dir es k e locs data) (calls : List (Option (List Byte)))
    (last : Call) (hlast : last = .flush x.writers.length ∨ last = .drop x.writers.length) :
    ∃ x' b' p n locs' more, x' = Session.run (.openWriter k :: calls.map (writerCall x.writers.length) ++ [last]) x ∧
      e.position = some p ∧ n + locs.length = e.fileSize + locs'.length ∧ locs <+: locs' ∧
      (Tidy x'.disk s b' header dir (es.map (sizedAt p n)) ∧
      LinearFile x'.disk s (es.map (sizedAt p n)) { e with fileSize := n } locs' (data ++ more) ∧
      Partly (calls.filterMap id) more ∧
      (AllOk (.openWriter k :: calls.map (writerCall x.writers.length)) x → more = (calls.filterMap id).flatten) ∧
      ∀ o ∈ es, o.position ≠ some p → SameFile x.disk x'.disk o o) ∧
      x'.disk.format = x.disk.format ∧ (Consistent b s.type → Synced x'.disk.dev s b') ∧
      ∀ l ∈ ownSectors s.type, s.Valid l → l ∉ homes dir header → ∀ j, ¬ bamArea s.type l j →
        (x'.disk.dev.blk s l)[j]? = (x.disk.dev.blk s l)[j]? := by
  obtain ⟨p, ref, hpos, hbam, hcell, hp, -, hat⟩ := h.open
  obtain ⟨more, dirty', hpart, hok, hrun⟩ := AtWork.run hp hcell calls hat
  obtain ⟨w, st, locs', h1, h2, h3, h4, h5⟩ := (hrun.flush hp hcell).2.ink
  obtain ⟨n, stale, r1, r2, r3, r4, r5⟩ := h.tidy.written h.map h.file hpos hbam hcell h3
  obtain rfl := r4 (h4 rfl)
  have hdisk : (Session.run (.openWriter k :: calls.map (writerCall x.writers.length) ++ [last]) x).disk =
      x.disk.withSt ref st := by
    rw [← h1, run_append]
    rcases hlast with rfl | rfl <;> rfl
  refine ⟨_, st.bam, p, n, locs', more, rfl, hpos, r1, h3.grown, ?_⟩
  rw [hdisk]
  refine ⟨⟨r2, r3, hpart, fun ho => hok ho.2, r5⟩, rfl, fun hc => h5 hc (h4 rfl), fun l hl hv hh j hj => ?_⟩
  have hcl := clean_of h.tidy.can h.tidy.clean
  obtain ⟨q, hq, hqh⟩ := entry_home h.tidy.wf h.tidy.can h.file.entry
  obtain rfl : q = p := Option.some.inj (hq.symm.trans hpos)
  refine h3.frame l j hv (fun hm => ?_) (fun hf => ?_) hj
  · rcases h3.fresh l hm with hm | ⟨h1, h2⟩
    · obtain ⟨ls, hls, hmem⟩ := linear_scan h.tidy.wf (by rw [hbam]; rfl) h.file.scheme h.file.first h.file.chain
      exact hcl.own e h.file.entry ls hls l ((hmem l).2 hm) hl
    · exact (hcl.marked l h1 h2).1 hl
  · exact hh (hf.1 ▸ hqh.2.2.1)

/-- **C92** When the writer is then flushed or goes out of scope, the file holds the bytes it had, followed by bytes that
were written: all of them if every call succeeded, and the first so many of those of each call otherwise. -/
theorem C92_saved {k : Nat} (h : ToWrite x s b header dir es k e locs data) (calls : List (Option (List Byte)))
    (last : Call) (hlast : last = .flush x.writers.length ∨ last = .drop x.writers.length) :
    ∃ x' b' p n locs' more, x' = Session.run (.openWriter k :: calls.map (writerCall x.writers.length) ++ [last]) x ∧
      e.position = some p ∧ n + locs.length = e.fileSize + locs'.length ∧ locs <+: locs' ∧
      Tidy x'.disk s b' header dir (es.map (sizedAt p n)) ∧
      LinearFile x'.disk s (es.map (sizedAt p n)) { e with fileSize := n } locs' (data ++ more) ∧
      Partly (calls.filterMap id) more ∧
      (AllOk (.openWriter k :: calls.map (writerCall x.writers.length)) x → more = (calls.filterMap id).flatten) ∧
      ∀ o ∈ es, o.position ≠ some p → SameFile x.disk x'.disk o o := by
  obtain ⟨x', b', p, n, locs', more, h1, h2, h3, h4, h5, -⟩ := h.saved calls last hlast
  exact ⟨x', b', p, n, locs', more, h1, h2, h3, h4, h5⟩

/-- **C92** Opening the writer and flushing it always succeed, and a write fails only when the disk is full: then it
says so, and no sector for data is free any more (if the counts of the map agree with its bits). -/
theorem C92_fails_only_when_full {k : Nat} (h : ToWrite x s b header dir es k e locs data) (hc : Consistent b s.type)
    (calls : List (Option (List Byte))) :
    ∃ x', x' = Session.run (.openWriter k :: calls.map (writerCall x.writers.length)) x ∧
      (Session.step (.openWriter k) x).1 = .ok () ∧ (Session.step (.flush x.writers.length) x').1 = .ok () ∧
      ∀ buf y, (Session.step (.write x.writers.length buf) x').1 = .error y → y = .err .diskFull ∧
        ∃ b', bamOf (Session.step (.write x.writers.length buf) x').2.disk = some b' ∧
          ∀ l, DataLoc s.type l → isFree b' l = false := by
  obtain ⟨p, ref, hpos, hbam, hcell, hp, hopen, hat⟩ := h.open
  obtain ⟨more, dirty', -, -, hrun⟩ := AtWork.run hp hcell calls hat
  refine ⟨_, rfl, hopen, (hrun.flush hp hcell).1, fun buf y hy => hrun.write_fails hp hbam hcell hc (fun l hl hf => ?_) buf hy⟩
  exact ((clean_of h.tidy.can h.tidy.clean).marked l hl hf).1

/-- A file that was created can be written. -/
theorem Tidy.newFile {name : Petscii} {type : FileType} (h : Tidy x.disk s b header dir es)
    (hmap : ∀ l ∈ homes dir header, ∀ j, ¬ bamArea s.type l j) (ht : type.toByte &&& 0x0F ≠ 4)
    (hok : (Session.step (.create name type .linear) x).1 = .ok ()) :
    ∃ x1 b1 dir1 pre post o, (Session.step (.create name type .linear) x).2 = x1 ∧ x1.writers = x.writers ∧
      es = pre ++ post ∧ o.filename = storedName name ∧ o.fileSize = 1 ∧
      ToWrite x1 s b1 header dir1 (pre ++ o :: post) x.files.length o [o.firstSector] [] ∧
      SelfKept x.disk x1.disk s b b1 (homes dir header) ∧
      (∀ l ∈ homes dir1 header, l ∈ homes dir header ∨ l ∉ ownSectors s.type) ∧
      (∀ o' ∈ es, o'.position ≠ o.position) ∧ ∀ o' ∈ es, SameFile x.disk x1.disk o' o' := by
  obtain ⟨q, disk', hq⟩ : ∃ q disk', Disk.createFile name type .linear x.disk = (q, disk') := ⟨_, _, rfl⟩
  obtain ⟨b1, dir1, es1, h1, h2, hkept, hgrow, h3⟩ := h.createFile ht hq
  rcases h3 with ⟨y, rfl, -⟩ | ⟨e, ref, pre, post, o, rfl, hes, rfl, ⟨hpos, hfirst, hbam⟩, hadd⟩
  · have : (Session.step (.create name type .linear) x).1 = .error y := by
      unfold Session.step
      simp only
      rw [M.bind_of_error (onDisk_run hq)]
    rw [this] at hok
    cases hok
  · have hstep : Session.step (.create name type .linear) x =
        (.ok (), { x with disk := disk', files := x.files ++ [(.linear e, ref)] }) := by
      unfold Session.step
      simp only
      rw [M.bind_of_ok (onDisk_run hq)]
      rfl
    have hcl := clean_of h.can h.clean
    have hhome : ∀ l ∈ homes dir1 header, l ∈ homes dir header ∨ l ∉ ownSectors s.type := by
      intro l hl
      rcases List.mem_append.1 hl with hl | hl
      · rcases hgrow l hl with hl | ⟨hl1, hl2⟩
        · exact .inl (List.mem_append_left _ hl)
        · exact .inr (hcl.marked l hl1 hl2).1
      · exact .inl (List.mem_append_right _ hl)
    refine ⟨_, b1, dir1, pre, post, o, congrArg Prod.snd hstep, rfl, hes, hadd.name, hadd.size, ?_, hkept, hhome, ?_, h2⟩
    · refine ⟨h1, fun l hl j hj => ?_, ⟨by simp, hadd.scheme, rfl, hadd.empty, by rw [hadd.size]; exact Nat.le_refl _⟩,
        e, ref, by simp, hbam, hpos, hfirst⟩
      rcases hhome l hl with hl | hl
      · exact hmap l hl j hj
      · exact hl (area_own (.inl hj))
    · intro o' ho' he
      have hin : o' ∈ pre ++ o :: post := by
        rw [hes] at ho'
        simp only [List.mem_append, List.mem_cons] at ho' ⊢
        exact ho'.elim .inl fun h => .inr (.inr h)
      obtain rfl : o' = o := same_slot h1.wf h1.can hin (by simp) he
      obtain ⟨ls, hls, hmem⟩ := linear_scan (disk := disk') h1.wf (by rw [hbam]; rfl) hadd.scheme rfl hadd.empty
      rw [scan_of_same (h2 o' ho')] at hls
      exact (hcl.marked _ hadd.place hadd.free).2.2 o' ho' ls hls ((hmem _).2 (by simp))

/-- The listing once the new file has its size. -/
theorem new_listing {p : Position} {n : Nat} {o : DirectoryEntry} {pre post : List DirectoryEntry} (hes : es = pre ++ post)
    (hpos : o.position = some p) (hother : ∀ o' ∈ es, o'.position ≠ some p) :
    (pre ++ o :: post).map (sizedAt p n) = pre ++ { o with fileSize := n } :: post := by
  have hid : ∀ l : List DirectoryEntry, (∀ o' ∈ l, o' ∈ es) → l.map (sizedAt p n) = l := fun l hl =>
    (List.map_congr_left fun o' ho' => sized_other (hother o' (hl o' ho'))).trans (List.map_id' l)
  rw [List.map_append, List.map_cons, sized_self hpos, hid pre fun o' ho' => by rw [hes]; simp [ho'],
    hid post fun o' ho' => by rw [hes]; simp [ho']]

/-- **C92** A file is created, written and flushed or closed, and every call succeeds: then the disk is in order, with one
more file than before, which has the name, holds exactly the bytes that were written, in order, and has the size of the
chain that holds them; every file there was is as it was. -/
theorem C92_new_file {name : Petscii} {type : FileType} (h : Tidy x.disk s b header dir es)
    (hmap : ∀ l ∈ homes dir header, ∀ j, ¬ bamArea s.type l j) (ht : type.toByte &&& 0x0F ≠ 4)
    (calls : List (Option (List Byte))) (last : Call)
    (hlast : last = .flush x.writers.length ∨ last = .drop x.writers.length)
    (hok : AllOk (.create name type .linear :: .openWriter x.files.length :: calls.map (writerCall x.writers.length)) x) :
    ∃ x' b' dir' pre post o locs,
      x' = Session.run (.create name type .linear :: .openWriter x.files.length ::
        calls.map (writerCall x.writers.length) ++ [last]) x ∧
      es = pre ++ post ∧ o.filename = storedName name ∧ o.fileSize = locs.length ∧
      Tidy x'.disk s b' header dir' (pre ++ o :: post) ∧
      LinearFile x'.disk s (pre ++ o :: post) o locs (calls.filterMap id).flatten ∧
      ∀ o ∈ es, SameFile x.disk x'.disk o o := by
  obtain ⟨x1, b1, dir1, pre, post, o, hx1, hwr, hes, hname, hsize, hto, -, -, hne, hsame⟩ := h.newFile hmap ht hok.1
  have hok := hok.2
  rw [hx1, ← hwr] at hok
  obtain ⟨x', b', p, n, locs, more, rfl, r1, r2, -, r4, r5, -, r7, r8⟩ := C92_saved hto calls last (by rw [hwr]; exact hlast)
  have hother : ∀ o' ∈ es, o'.position ≠ some p := fun o' ho' => r1 ▸ hne o' ho'
  rw [new_listing hes r1 hother] at r4 r5
  rw [r7 hok, List.nil_append] at r5
  have hrun : Session.run (.create name type .linear :: .openWriter x.files.length ::
      calls.map (writerCall x.writers.length) ++ [last]) x =
      Session.run (.openWriter x.files.length :: calls.map (writerCall x1.writers.length) ++ [last]) x1 := by
    rw [hwr, ← hx1]
    rfl
  refine ⟨_, b', dir1, pre, post, { o with fileSize := n }, locs, rfl, hes, hname, ?_, ?_⟩
  · simp only [List.length_singleton] at r2
    show n = _
    omega
  · rw [hrun]
    refine ⟨r4, r5, fun o' ho' => (hsame o' ho').trans (r8 o' ?_ (hother o' ho'))⟩
    rw [hes] at ho'
    simp only [List.mem_append, List.mem_cons] at ho' ⊢
    exact ho'.elim .inl fun h => .inr (.inr h)

/-! ## Such disks -/

/-- Every disk that a program gets to with the calls of C34 is such a disk. -/
theorem ready_tidy {v : Volume} {r : Nat} (h : ReadyAt disk s v r b) :
    Tidy disk s b v.header v.dir v.listing ∧ ∀ l ∈ homes v.dir v.header, ∀ j, ¬ bamArea s.type l j := by
  have hod := h.onDisk
  obtain ⟨content, hch⟩ := hod.dirChain
  refine ⟨⟨hod.wf, h.mounted.writable, ⟨⟨false, by rw [h.format]; cases s.type <;> rfl⟩, h.header, ?_,
    h.mounted.recorded.consistent.toBamOf, dir_ready h, directory_ready h, fun e he => ?_⟩, validate_ready h, ?_, fun t ht => ?_⟩,
    fun l hl j hj => ?_⟩
  · unfold bamOf
    rw [h.bam]
    exact h.cell
  · obtain ⟨q, f, hq, rfl⟩ := mem_listing.1 he
    rw [scan_entry h (mem_files.2 ⟨q, hq⟩)]
    exact ⟨nofun, nofun⟩
  · rw [h.noGeos]
    nofun
  · obtain ⟨init, t', hl, h0, -⟩ := hch.last
    obtain rfl : t' = t := by rw [hl] at ht; simpa using ht
    unfold usedBytes
    rw [if_pos h0, hod.dirFull t' (by rw [hl]; simp)]
    rfl
  · unfold homes at hl
    rw [h.noGeos] at hl
    have hl : l ∈ v.dir := by simpa using hl
    have := (hod.dirTrack l hl).2
    rw [(area_system (.inl hj)).1] at this
    cases this

theorem allOk_of_runs : ∀ {calls : List Call} {x : Session}, (∀ r ∈ (runs calls x).1, r = .ok ()) → AllOk calls x
  | [], _, _ => trivial
  | _ :: _, _, h => ⟨h _ (by simp [runs]), allOk_of_runs fun r hr => h r (by simp [runs, hr])⟩

theorem AllOk.left : ∀ {calls more : List Call} {x : Session}, AllOk (calls ++ more) x → AllOk calls x
  | [], _, _, _ => trivial
  | _ :: _, _, _, h => ⟨h.1, AllOk.left h.2⟩

/-- The hypotheses of `C92_new_file` hold of a formatted disk, a name and 1000 bytes in two writes. -/
example : ∃ x s b header dir es, Tidy x.disk s b header dir es ∧ (∀ l ∈ homes dir header, ∀ j, ¬ bamArea s.type l j) ∧
    AllOk (.create [0x41] .PRG .linear :: .openWriter x.files.length ::
      [some (List.replicate 600 1), some (List.replicate 400 2)].map (writerCall x.writers.length)) x := by
  obtain ⟨x, hx⟩ := exists_formatted .d64 [0x41] (by decide) (0x30, 0x31)
  obtain ⟨s, v, r, b, hr⟩ := hx.rep
  obtain ⟨h1, h2⟩ := ready_tidy hr.ready
  refine ⟨x, s, b, _, _, _, h1, h2, ?_⟩
  have := C18_succeeds_if_it_fits (type := .PRG) (name := [0x41]) hx (by decide)
    [List.replicate 600 1, List.replicate 400 2] (fin := .flush x.writers.length) (.inl rfl) (by decide) hx.shows.lists
    (by intro line hl; cases hl) (by decide) hx.shows.blocksFree
    (by rw [show [List.replicate 600 (1 : Byte), List.replicate 400 2].flatten.length = 1000 by
        simp only [List.flatten_cons, List.flatten_nil, List.length_append, List.length_replicate, List.length_nil]]
        decide)
  exact AllOk.left (more := [.flush x.writers.length]) (allOk_of_runs this)

/-- The slot of a program of two blocks. -/
def sampleLinearSlot : List Byte :=
  [0, 0, 0x82, 1, 1] ++ List.replicate 16 0x41 ++ [0, 0, 0, 0, 0, 0, 0, 0, 0, 2, 0]

/-- The hypotheses of C92 hold of a disk with a program of two blocks on it. -/
example : ∃ x b header dir e locs data, ToWrite x ⟨.d64, 35, false⟩ b header dir [e] 0 e locs data ∧ Consistent b .d64 ∧
    e.fileSize = 2 ∧ locs.length = 2 := by
  obtain ⟨b, hb, -⟩ := exists_sampleBam
  obtain ⟨hw, hblk, hoth⟩ := sampleDev_facts (front := sampleRelativeFront) (slot := sampleLinearSlot)
    (by decide +kernel) (by decide)
  have hc : IsChain sampleRelative ⟨.d64, 35, false⟩ [⟨1, 1⟩, ⟨1, 2⟩] (List.replicate 254 7 ++ [1, 2, 3, 4, 5, 6]) :=
    ⟨by decide +kernel, by decide, ⟨by decide +kernel, trivial⟩, [⟨1, 1⟩], ⟨1, 2⟩, rfl, by decide +kernel,
      by decide +kernel, by decide +kernel⟩
  have hc : IsChain (sampleDev sampleRelativeFront sampleLinearSlot) ⟨.d64, 35, false⟩ [⟨1, 1⟩, ⟨1, 2⟩]
      (List.replicate 254 7 ++ [1, 2, 3, 4, 5, 6]) := hc.frame fun l hl => hoth l
    ((by decide : ∀ l ∈ [⟨1, 1⟩, (⟨1, 2⟩ : Location)], (⟨.d64, 35, false⟩ : Shape).Valid l) l hl)
    ((by decide : ∀ l ∈ [⟨1, 1⟩, (⟨1, 2⟩ : Location)], l ≠ ⟨18, 1⟩) l hl)
  have hsch : (DirectoryEntry.parse32 sampleLinearSlot (some ⟨⟨18, 1⟩, 0, 32⟩)).scheme = .linear := by decide +kernel
  have hop := sampleSession_opened (front := sampleRelativeFront) (slot := sampleLinearSlot) (b := b)
    (e := DirectoryEntry.parse32 sampleLinearSlot (some ⟨⟨18, 1⟩, 0, 32⟩)) (by decide +kernel) (by decide) hb
    (by decide +kernel) (f := .linear (DirectoryEntry.parse32 sampleLinearSlot (some ⟨⟨18, 1⟩, 0, 32⟩)))
    (by unfold File.fromEntry; rw [hsch])
  obtain ⟨x, b', header, dir, r1, r2, r3, r4, r5, r6, r7⟩ := sample_tidy (by decide +kernel) (by decide) hop
    (.linear hsch (by decide +kernel) hc) (fun l hl => by
      refine ⟨(by decide : ∀ l ∈ [⟨1, 1⟩, (⟨1, 2⟩ : Location)], ValidLoc .d64 (bamTracks .d64) l) l hl, ?_⟩
      rintro ⟨j, rfl, -⟩
      revert hl
      decide) (by decide)
  have hex : ∃ data, IsChain x.disk.dev ⟨.d64, 35, false⟩ [⟨1, 1⟩, ⟨1, 2⟩] data := by
    generalize [(⟨1, 1⟩ : Location), ⟨1, 2⟩] = mem at r4
    cases r4 with
    | linear _ _ h => exact ⟨_, h⟩
    | relative h _ => rw [hsch] at h; cases h
    | sequential h _ => rw [hsch] at h; cases h
    | vlir h _ => rw [hsch] at h; cases h
  obtain ⟨data, hd⟩ := hex
  exact ⟨x, b', header, dir, _, _, data, toWrite_of_opened r1 ⟨r1.wf, r1.writable, r2, r3, r6, r7⟩
    ⟨List.mem_singleton.2 rfl, hsch, by decide +kernel, hd, by decide +kernel⟩, r1.consistent, by decide +kernel, rfl⟩

end Cbm
