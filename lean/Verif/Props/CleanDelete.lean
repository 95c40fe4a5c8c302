import Verif.Props.BystanderRelative
import Verif.Spec.Blocks
/-!
# C89: Deleting a file of a disk that validates clean leaves a disk that validates clean
-/

namespace Cbm
open Spec

variable {x x' : Session} {s : Shape} {b : Bam} {k : Nat} {e : DirectoryEntry} {es : List DirectoryEntry}
  {header : Header} {dir mem stored ls : List Location}

theorem filterMap_sublist {α β : Type} {f g : α → Option β} {xs ys : List α} (h : ys.Sublist xs)
    (hfg : ∀ a ∈ ys, f a = g a) : (ys.filterMap f).Sublist (xs.filterMap g) := by
  have : ys.filterMap f = ys.filterMap g := by
    clear h
    induction ys with
    | nil => rfl
    | cons a ys ih =>
      rw [List.filterMap_cons, List.filterMap_cons, hfg a (by simp), ih fun a ha => hfg a (List.mem_cons_of_mem _ ha)]
  rw [this]
  exact h.filterMap g

/-- A chain is one as long as the links are the same. -/
theorem chain_links {d d' : Device} {locs : List Location} {content : List Byte} (hc : IsChain d s locs content)
    (h : ∀ l ∈ locs, ∀ j < 2, byteAt (d'.blk s l) j = byteAt (d.blk s l) j) :
    ∃ content', IsChain d' s locs content' := by
  obtain ⟨init, t, h1, h2, h3, -⟩ := hc.last
  have ht : t ∈ locs := by rw [h1]; simp
  have hl : ∀ {ls : List Location}, (∀ l ∈ ls, l ∈ locs) → Linked d s ls → Linked d' s ls := by
    intro ls
    induction ls with
    | nil => exact fun _ _ => trivial
    | cons a ls ih =>
      cases ls with
      | nil => exact fun _ _ => trivial
      | cons c ls =>
        intro hin hl
        refine ⟨?_, ih (fun l hl => hin l (List.mem_cons_of_mem _ hl)) hl.2⟩
        rw [← hl.1]
        unfold linkBytes
        rw [h a (hin a (by simp)) 0 (by omega), h a (hin a (by simp)) 1 (by omega)]
  exact ⟨_, hc.valid, hc.nodup, hl (fun _ h => h) hc.linked, init, t, h1, by rw [h t ht 0 (by omega)]; exact h2,
    by rw [h t ht 1 (by omega)]; exact h3, rfl⟩

/-- Entries of a listing with the same slot are the same. -/
theorem same_slot {disk : Disk} {ty : DiskType} {entries : List DirectoryEntry} {o : DirectoryEntry} (hw : Wf disk.dev s)
    (h : CanValidate disk ty b header dir entries) (ho : o ∈ entries) (he : e ∈ entries)
    (hpos : o.position = e.position) : o = e := by
  have hitem : ∀ o ∈ entries, .ok o ∈ disk.items := fun o ho => by
    have hl : collectRes disk.items = .ok entries := h.listed
    rw [collectRes_inv hl]
    exact List.mem_map.2 ⟨o, ho, rfl⟩
  obtain ⟨cs, i, border, hp, hv, hi, ⟨n, hn⟩, heq, -, hb, -⟩ := item_home hw h.format h.header (hitem o ho)
  obtain ⟨cs', i', border', hp', hv', hi', ⟨n', hn'⟩, heq', -, hb', -⟩ := item_home hw h.format h.header (hitem e he)
  rw [hn, List.length_take, hw.blk_length hv] at hi
  rw [hn', List.length_take, hw.blk_length hv'] at hi'
  rw [hp, hp'] at hpos
  have hpos := Option.some.inj hpos
  have hloc : cs.location = cs'.location := congrArg Position.location hpos
  have hoff := congrArg (fun p => p.offset.toNat) hpos
  simp only [UInt8.toNat_ofNat'] at hoff
  have hii : i = i' := by omega
  rw [heq, heq', hb, hb', hloc, hii]

/-- Every file that is left is found in the same sectors. -/
theorem scans_left (h : OpenedEntry x s b k e es) (hv : CanValidate x.disk s.type b header dir es)
    (hc : Clean x.disk s.type b header dir es) (hg : Gone x x' s b e es mem stored) {o : DirectoryEntry}
    (ho : o ∈ es) {lo : List Location} (hlo : scanFile x.disk o = .ok lo) : scanFile x'.disk o = .ok lo := by
  obtain ⟨p, hp, -, -, hph, -, -⟩ := entry_home h.wf hv h.entry
  have hsame : SameOn s (· ∈ lo) x.disk.dev x'.disk.dev := by
    intro l hl hvl
    refine List.ext_getElem? fun j => hg.others l j hvl (fun ha => hc.own o ho lo hlo l hl (area_own (.inl ha))) ?_
    intro q hq heq
    rw [hp] at hq
    cases hq
    exact absurd (heq ▸ hph) (hc.home o ho lo hlo l hl)
  obtain ⟨f, r, hr, hf, -, hocc⟩ := scan_open hlo
  obtain ⟨hf', hocc', -⟩ := file_on h.wf hg.wf hsame hf hocc
  unfold scanFile Disk.openFileFromEntry Disk.bamRef
  rw [hg.kept.2.2, hr, hf']
  exact hocc'

theorem stays_clean (h : OpenedEntry x s b k e es) (hv : CanValidate x.disk s.type b header dir es)
    (hcl : x.disk.validate = .ok []) (hls : scanFile x.disk e = .ok ls) (hmem : ∀ l, l ∈ mem ↔ l ∈ ls)
    (hg : Gone x x' s b e es mem stored) :
    ∃ b', CanValidate x'.disk s.type b' header dir (es.filter fun e' => e'.position ≠ e.position) ∧
      x'.disk.validate = .ok [] := by
  have hc := clean_of hv hcl
  obtain ⟨b', hb', hfree⟩ := hg.bam
  obtain ⟨h1, h2, h3⟩ := (C32_empty_iff hv).1 hcl
  have hscan : ∀ o ∈ es, scanFile x'.disk o = scanFile x.disk o := by
    intro o ho
    obtain ⟨lo, hlo⟩ := h1 o ho
    rw [hlo, scans_left h hv hc hg ho hlo]
  have hdir : chainLocations x'.disk.dev (firstDirectory s.type) = .ok dir := by
    obtain ⟨fm, hd, dir', content, hfm, hhd, hst, hch, hnb⟩ := h.directory
    have hfirst : fm.firstDirectoryLocation = firstDirectory s.type := by
      obtain ⟨g, hg⟩ := hv.format
      rw [hfm] at hg
      cases hg
      cases s.type <;> rfl
    have hd' : dir' = dir := by
      have h1 := chainLocations_chain h.wf hch hst
      rw [hfirst, hv.chain] at h1
      exact (Except.ok.inj h1).symm
    subst hd'
    obtain ⟨content', hch'⟩ := chain_links (d' := x'.disk.dev) hch fun l hl j hj => by
      have := hg.others l j (hch.valid l hl) (fun ha => hnb l (List.mem_append_left _ hl) ⟨j, ha⟩)
        fun p _ _ => .inl (by omega)
      unfold byteAt
      rw [List.getD_eq_getElem?_getD, List.getD_eq_getElem?_getD, this]
    rw [← hfirst]
    exact chainLocations_chain hg.wf hch' hst
  have hcan : CanValidate x'.disk s.type b' header dir (es.filter fun e' => e'.position ≠ e.position) := by
    refine ⟨?_, hg.kept.1.trans hv.header, hb', (hg.consistent b' hb').toBamOf, hdir, hg.listing, ?_⟩
    · rw [hg.kept.2.1]
      exact hv.format
    · intro o ho
      have ho := (List.mem_filter.1 ho).1
      rw [hscan o ho]
      exact hv.scans o ho
  refine ⟨b', hcan, (C32_empty_iff hcan).2 ⟨?_, ?_, ?_⟩⟩
  · intro o ho
    have ho := (List.mem_filter.1 ho).1
    rw [hscan o ho]
    exact h1 o ho
  · have hsub : (claims x'.disk s.type dir (header.geos.map GEOSDiskHeader.border)
        (es.filter fun e' => e'.position ≠ e.position)).Sublist
        (claims x.disk s.type dir (header.geos.map GEOSDiskHeader.border) es) := by
      unfold claims
      refine List.Sublist.cons_cons _ ?_
      refine filterMap_sublist List.filter_sublist fun o ho => ?_
      rw [hscan o (List.mem_filter.1 ho).1]
    exact h2.sublist hsub
  · intro l hl
    have hb : isFree b' l = false ↔ l ∉ mem ∧ isFree b l = false := by
      have := hfree l
      cases h' : isFree b' l <;> cases h'' : isFree b l <;> simp_all
    rw [hb, h3 l hl, hmem l]
    unfold claims
    simp only [List.mem_cons, exists_eq_or_imp, List.mem_filterMap]
    constructor
    · rintro ⟨hn, hsys | ⟨c, ⟨o, ho, hco⟩, hlc⟩⟩
      · exact .inl hsys
      · refine .inr ⟨c, ⟨o, List.mem_filter.2 ⟨ho, decide_eq_true fun hpos => hn ?_⟩, by rw [hscan o ho]; exact hco⟩, hlc⟩
        have hoe : o = e := same_slot h.wf hv ho h.entry hpos
        subst hoe
        rw [hls] at hco
        cases hco
        exact hlc
    · rintro (hsys | ⟨c, ⟨o, ho, hco⟩, hlc⟩)
      · refine ⟨fun hn => ?_, .inl hsys⟩
        have ha := hc.own e h.entry ls hls l hn
        have hh := hc.home e h.entry ls hls l hn
        unfold homes at hh
        simp only [List.mem_append] at hsys hh
        rcases hsys with (h' | h') | h'
        · exact ha h'
        · exact hh (.inl h')
        · exact hh (.inr h')
      · obtain ⟨ho, hne⟩ := List.mem_filter.1 ho
        have hne : o.position ≠ e.position := of_decide_eq_true hne
        rw [hscan o ho] at hco
        refine ⟨fun hn => ?_, .inr ⟨c, ⟨o, ho, hco⟩, hlc⟩⟩
        obtain ⟨lo, hlo⟩ := h1 o ho
        rw [hlo] at hco
        cases hco
        exact hc.apart e h.entry o ho hne ls lo hls hlo l hn hlc

/-- The blocks of a file are those that validation takes to be its own. -/
theorem blocks_scan (h : OpenedEntry x s b k e es) (hbl : FileBlocks x.disk.dev s e mem) :
    ∃ ls, scanFile x.disk e = .ok ls ∧ ∀ l, l ∈ mem ↔ l ∈ ls := by
  obtain ⟨f, r, hopen, hk⟩ := h.handle
  cases hbl with
  | linear hs hst hc =>
    have hr := (openFile_parts hopen).1
    rcases C32_sectors_of_linear (disk := x.disk) h.wf (by rw [hr]; rfl) hs with ⟨ls, locs, c, h1, h2, h3, h4⟩ | ⟨y, -, hno⟩
    · have : locs = mem := by
        have a1 := chainLocations_chain h.wf hc hst
        have a2 := chainLocations_chain h.wf h3 h2
        rw [a1] at a2
        exact (Except.ok.inj a2).symm
      subst this
      exact ⟨ls, h1, fun l => (h4 l).symm⟩
    · exact absurd ⟨_, _, hst, hc⟩ hno
  | relative hs hp =>
    obtain ⟨ex, hex, hsd⟩ := hp.sides
    obtain ⟨ls, h1, -, h2⟩ := C32_sectors_of_relative h.wf hs hex hsd hopen
    exact ⟨ls, h1, fun l => by rw [h2, List.mem_append]⟩
  | sequential hs hp =>
    obtain ⟨ls, h1, -, h2⟩ := C32_sectors_of_sequential h.wf h.listed h.entry hs hp hopen
    exact ⟨ls, h1, fun l => by rw [h2, List.mem_append]⟩
  | vlir hs hp =>
    obtain ⟨ls, h1, -, h2⟩ := C32_sectors_of_vlir h.wf h.listed h.entry hs hp hopen
    exact ⟨ls, h1, fun l => by rw [h2, List.mem_append, List.mem_cons, List.mem_flatten, or_assoc]⟩

/-- Deleting the file gives them back. -/
theorem blocks_gone (h : OpenedEntry x s b k e es) (hbl : FileBlocks x.disk.dev s e mem)
    (hu : ∀ l ∈ mem, Usable s.type l) :
    ∃ x' stored, Session.step (.delete k) x = (.ok (), x') ∧ Gone x x' s b e es mem stored := by
  obtain ⟨f, r, hopen, hk⟩ := h.handle
  cases hbl with
  | linear hs hst hc =>
    obtain ⟨hr, hf⟩ := openFile_parts hopen
    unfold File.fromEntry at hf
    rw [hs] at hf
    cases hf
    obtain ⟨st₁, r1, f1⟩ := removeChain_frees (st := ⟨x.disk.dev, b⟩) h.wf h.writable h.consistent hst hc
      fun l hl => (hu l hl).1.2.1
    obtain ⟨x', hx, hg⟩ := deleted h hk hr rfl r1 f1 hu
    exact ⟨x', _, hx, hg⟩
  | relative hs hp =>
    obtain ⟨x', hx, hg⟩ := C65_relative_partial h hs hp hu
    exact ⟨x', _, hx, hg⟩
  | sequential hs hp =>
    obtain ⟨x', hx, hg⟩ := C65_sequential_partial h hs hp hu
    exact ⟨x', _, hx, hg⟩
  | vlir hs hp =>
    obtain ⟨x', hx, hg⟩ := C65_vlir_partial h hs hp hu
    exact ⟨x', _, hx, hg⟩

/-- **C89** Deleting a file of any kind that is in order, on a disk on which validation finds nothing, succeeds and
leaves a disk on which validation finds nothing; the file is not listed any more, and all others are. -/
theorem C89_delete_stays_clean (h : OpenedEntry x s b k e es)
    (hv : CanValidate x.disk s.type b header dir es) (hclean : x.disk.validate = .ok [])
    (hbl : FileBlocks x.disk.dev s e mem) (hin : ∀ l ∈ mem, ValidLoc s.type (bamTracks s.type) l) :
    ∃ x', Session.step (.delete k) x = (.ok (), x') ∧ x'.disk.validate = .ok [] ∧
      x'.disk.directory = .ok (es.filter fun e' => e'.position ≠ e.position) := by
  have hc := clean_of hv hclean
  obtain ⟨ls, hls, hmem⟩ := blocks_scan h hbl
  obtain ⟨x', stored, hx, hg⟩ := blocks_gone h hbl fun l hl =>
    ⟨hin l hl, fun ⟨j, hj⟩ => hc.own e h.entry ls hls l ((hmem l).1 hl) (area_own (.inl hj))⟩
  obtain ⟨-, -, h2⟩ := stays_clean h hv hclean hls hmem hg
  exact ⟨x', hx, h2, hg.listing⟩

/-- The hypotheses of `C89_delete_stays_clean` hold of the linear file of the disk of `C87_condition_is_needed`: its
deletion leaves a clean disk with the relative file, while that of the relative file does not. -/
example : ∃ x s b e o header dir mem, OpenedEntry x s b 0 o [e, o] ∧ CanValidate x.disk s.type b header dir [e, o] ∧
    x.disk.validate = .ok [] ∧ FileBlocks x.disk.dev s o mem ∧ mem ≠ [] ∧
    (∀ l ∈ mem, ValidLoc s.type (bamTracks s.type) l) ∧ e.position ≠ o.position := by
  obtain ⟨b, hb, hf⟩ := crossed_bam
  obtain ⟨ho, -⟩ := crossed_opened hb
  obtain ⟨content, hc⟩ := crossed_chain
  have hg : File.fromEntry crossedDev crossedOther = .ok (.linear crossedOther) := by
    unfold File.fromEntry
    rw [show crossedOther.scheme = .linear by decide +kernel]
  refine ⟨⟨crossedDisk b, [(.linear crossedOther, 0)], []⟩, _, b, crossedEntry, crossedOther, _, _, [⟨1, 3⟩],
    ⟨ho.wf, ho.writable, ho.bam, ho.consistent, ho.listed, by simp, ho.directory, _, 0, ?_, rfl⟩, crossed_can hb,
    crossed_clean hb hf, .linear (by decide +kernel) (by decide +kernel) hc, nofun, by decide, by decide +kernel⟩
  show (do let r ← Except.ok 0; let f ← File.fromEntry crossedDev crossedOther; pure (f, r) : Res _) = _
  simp only [res_bind_ok, hg]
  rfl

/-- A map in which exactly the sectors of the system and the given ones are allocated. -/
theorem exact_bam {mem : List Location} (hm : ∀ l ∈ mem, ValidLoc .d64 (bamTracks .d64) l) :
    ∃ b, Consistent b .d64 ∧ ∀ l, ValidLoc .d64 (bamTracks .d64) l →
      (isFree b l = false ↔ l ∈ ownSectors .d64 ++ mem) := by
  have hown : ∀ l ∈ ownSectors .d64, ValidLoc .d64 (bamTracks .d64) l := by decide +kernel
  obtain ⟨b, -, h1, -, h2⟩ := allocateAll_ok (ty := .d64) (ownSectors .d64 ++ mem) (freshBam_consistent .d64)
    fun l hl => (List.mem_append.1 hl).elim (hown l) (hm l)
  refine ⟨b, h1, fun l hl => ?_⟩
  rw [h2 l, show isFree (freshBam .d64) l = true from by
    rw [isFree, freeAt_freshBam _ _ _ hl.1 hl.2.1]
    exact decide_eq_true hl.2.2]
  generalize ownSectors .d64 ++ mem = own
  by_cases h : l ∈ own <;> simp [h]

/-- A disk with one file, with the map that belongs to it, validates clean. -/
theorem sample_tidy {front slot : List Byte} {f : File} (hf : front.length ≤ 174848) (hs : slot.length = 32)
    (h : OpenedEntry (sampleSession front slot b f) ⟨.d64, 35, false⟩ b 0 e [e])
    (hbl : FileBlocks (sampleDev front slot) ⟨.d64, 35, false⟩ e mem)
    (hu : ∀ l ∈ mem, Usable .d64 l) (hm : ∀ l ∈ mem, l.track = 1) :
    ∃ x b header dir, OpenedEntry x ⟨.d64, 35, false⟩ b 0 e [e] ∧ CanValidate x.disk .d64 b header dir [e] ∧
      x.disk.validate = .ok [] ∧ FileBlocks x.disk.dev ⟨.d64, 35, false⟩ e mem ∧
      (∀ l ∈ mem, ValidLoc .d64 (bamTracks .d64) l) ∧ (∀ g, header.geos = some g → g.border ∉ dir) ∧
      ∀ t, dir.getLast? = some t → usedBytes (x.disk.dev.blk ⟨.d64, 35, false⟩ t) = 256 := by
  have hin : ∀ l ∈ mem, ValidLoc .d64 (bamTracks .d64) l := fun l hl => (hu l hl).1
  have hout : ∀ l ∈ mem, l ∉ ownSectors .d64 := fun l hl ho =>
    (by decide +kernel : ∀ l ∈ ownSectors .d64, l.track ≠ 1) l ho (hm l hl)
  have h18 : (⟨18, 1⟩ : Location) ∈ ownSectors .d64 := by decide +kernel
  obtain ⟨b', hb', hfree⟩ := exact_bam hin
  have h' : OpenedEntry (sampleSession front slot b' f) ⟨.d64, 35, false⟩ b' 0 e [e] :=
    ⟨h.wf, h.writable, rfl, hb', h.listed, h.entry, h.directory, h.handle⟩
  obtain ⟨ls, hls, hmem⟩ := blocks_scan h' hbl
  obtain ⟨hw, hblk, -⟩ := sampleDev_facts hf hs
  have hc : IsChain (sampleDev front slot) ⟨.d64, 35, false⟩ [⟨18, 1⟩] _ :=
    ⟨by decide, by decide, trivial, [], ⟨18, 1⟩, rfl, by rw [hblk]; rfl,
      by rw [hblk]; exact (by decide : (0xFF : Byte) ≠ 0), rfl⟩
  have hcan : CanValidate (sampleSession front slot b' f).disk .d64 b' _ [⟨18, 1⟩] [e] :=
    ⟨⟨_, rfl⟩, rfl, rfl, hb'.toBamOf, chainLocations_chain hw hc rfl, h'.listed, fun e' he' => by
      rw [List.mem_singleton.1 he', hls]; exact ⟨nofun, nofun⟩⟩
  refine ⟨_, b', _, _, h', hcan, (C32_empty_iff hcan).2 ⟨?_, ?_, ?_⟩, hbl, hin, nofun, ?_⟩
  · intro e' he'
    rw [List.mem_singleton.1 he']
    exact ⟨_, hls⟩
  · unfold claims
    simp only [List.filterMap_cons, List.filterMap_nil, hls]
    refine List.pairwise_cons.2 ⟨fun c hc l hl => ?_, List.pairwise_singleton _ _⟩
    rw [List.mem_singleton.1 hc]
    intro hl'
    refine hout l ((hmem l).2 hl') ?_
    rcases List.mem_append.1 hl with hl | hl
    · rcases List.mem_append.1 hl with hl | hl
      · exact hl
      · rw [List.mem_singleton.1 hl]; exact h18
    · exact absurd hl List.not_mem_nil
  · intro l hl
    rw [hfree l hl]
    unfold claims
    simp only [List.filterMap_cons, List.filterMap_nil, hls, List.mem_cons, List.mem_append, List.not_mem_nil,
      or_false, exists_eq_or_imp, exists_eq_left, ← hmem]
    constructor
    · rintro (h | h)
      · exact .inl (.inl (.inl h))
      · exact .inr h
    · rintro (((h | rfl) | h) | h)
      · exact .inl h
      · exact .inl h18
      · cases h
      · exact .inr h
  · intro t ht
    obtain rfl : t = ⟨18, 1⟩ := (Option.some.inj ht).symm
    show usedBytes ((sampleDev front slot).blk _ _) = _
    unfold usedBytes
    rw [hblk]
    rfl

/-- A disk with one file, with the map that belongs to it, validates clean. -/
theorem sample_clean {front slot : List Byte} {f : File} (hf : front.length ≤ 174848) (hs : slot.length = 32)
    (h : OpenedEntry (sampleSession front slot b f) ⟨.d64, 35, false⟩ b 0 e [e])
    (hbl : FileBlocks (sampleDev front slot) ⟨.d64, 35, false⟩ e mem)
    (hu : ∀ l ∈ mem, Usable .d64 l) (hm : ∀ l ∈ mem, l.track = 1) :
    ∃ x b header dir, OpenedEntry x ⟨.d64, 35, false⟩ b 0 e [e] ∧ CanValidate x.disk .d64 b header dir [e] ∧
      x.disk.validate = .ok [] ∧ FileBlocks x.disk.dev ⟨.d64, 35, false⟩ e mem ∧
      ∀ l ∈ mem, ValidLoc .d64 (bamTracks .d64) l := by
  obtain ⟨x, b, header, dir, h1, h2, h3, h4, h5, -⟩ := sample_tidy hf hs h hbl hu hm
  exact ⟨x, b, header, dir, h1, h2, h3, h4, h5⟩

/-- The hypotheses of `C89_delete_stays_clean` hold of disks with a relative file, a GEOS sequential file and a VLIR
file. -/
example : ∀ sch ∈ [.relative, .geosSequential, Scheme.geosVLIR], ∃ x b e header dir mem, e.scheme = sch ∧
    OpenedEntry x ⟨.d64, 35, false⟩ b 0 e [e] ∧ CanValidate x.disk .d64 b header dir [e] ∧
    x.disk.validate = .ok [] ∧ FileBlocks x.disk.dev ⟨.d64, 35, false⟩ e mem ∧ mem ≠ [] ∧
    ∀ l ∈ mem, ValidLoc .d64 (bamTracks .d64) l := by
  intro sch hsch
  simp only [List.mem_cons, List.not_mem_nil, or_false] at hsch
  rcases hsch with rfl | rfl | rfl
  · obtain ⟨_, b, e, data, side, h, hs, hp, hu, -, -, hl, -, h1, front, slot, f, rfl, hf, hsl⟩ := sampleRelative_opened
    obtain ⟨x, b, header, dir, r⟩ := sample_clean hf hsl h (.relative hs hp) hu h1
    exact ⟨x, b, e, header, dir, _, hs, r.1, r.2.1, r.2.2.1, r.2.2.2.1, (fun hn => by rw [hn] at hl; cases hl), r.2.2.2.2⟩
  · obtain ⟨_, b, e, data, info, h, hs, hp, hu, -, -, hl, -, h1, front, slot, f, rfl, hf, hsl⟩ :=
      sampleSequential_opened
    obtain ⟨x, b, header, dir, r⟩ := sample_clean hf hsl h (.sequential hs hp) hu h1
    exact ⟨x, b, e, header, dir, _, hs, r.1, r.2.1, r.2.2.1, r.2.2.2.1, (fun hn => by rw [hn] at hl; cases hl), r.2.2.2.2⟩
  · obtain ⟨_, b, e, info, chains, h, hs, hp, hu, -, -, -, h1, front, slot, f, rfl, hf, hsl⟩ := sampleVlir_opened
    obtain ⟨x, b, header, dir, r⟩ := sample_clean hf hsl h (.vlir hs hp) hu h1
    exact ⟨x, b, e, header, dir, _, hs, r.1, r.2.1, r.2.2.1, r.2.2.2.1, nofun, r.2.2.2.2⟩

end Cbm
