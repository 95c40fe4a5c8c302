import Verif.Lemmas.DirFacts
import Verif.Lemmas.Start
/-!
# Creating, renaming and deleting (C26, C27, C28)
-/

namespace Cbm
open Spec

variable {i j k r : Nat} {a a' a₁ : Store} {x x' : Session}
  {g g' : StoredFile} {disk : Disk} {calls : List Call} {rs : List (Res Unit)} {name : Petscii}
  {type : FileType} {fin : Call}

/-! ## C27: rename -/

theorem name_listed {v : Volume} {n : Petscii} :
    (∃ g ∈ v.files, g.name = n) ↔ ∃ e ∈ v.listing, e.filename = n := by
  constructor
  · rintro ⟨f, hf, rfl⟩
    obtain ⟨q, hq⟩ := mem_files.1 hf
    exact ⟨_, mem_listing.2 ⟨q, f, hq, rfl⟩, rfl⟩
  · rintro ⟨e, he, rfl⟩
    obtain ⟨q, f, hf, rfl⟩ := mem_listing.1 he
    exact ⟨f, mem_files.2 ⟨q, hf⟩, rfl⟩

/-- **C27** A successful rename changes the 16 name bytes of one directory slot of the
image, that of the first entry with the old name, and no other byte; the open files and
writers, the header and the BAM stay as they are; in the listing only the name of that
entry changes. -/
theorem C27_rename_changes_only_the_name (h : Reaches x a) {original new : Petscii}
    (hrun : Session.step (.rename original new) x = (.ok (), x')) :
    ∃ pre e post p offset,
      x.disk.directory = .ok (pre ++ e :: post) ∧ e.filename = original ∧
      (∀ d ∈ pre, d.filename ≠ original) ∧
      x'.disk.directory = .ok (pre ++ { e with filename := storedName new } :: post) ∧
      e.position = some p ∧
      x.disk.dev.readPosition p = .ok (slice x.disk.dev.image.bytes offset 32) ∧
      slice x'.disk.dev.image.bytes (offset + 5) 16 = paddedName new ∧
      (∀ q, q < offset + 5 ∨ offset + 21 ≤ q →
        x'.disk.dev.image.bytes[q]? = x.disk.dev.image.bytes[q]?) ∧
      x' = { x with disk := { x.disk with dev := x'.disk.dev } } := by
  obtain ⟨s, v, r, b, hrep⟩ := h.rep
  have hod := hrep.ready.mounted.onDisk
  have run : ∀ (res : Res Unit) (disk' : Disk), Disk.rename original new x.disk = (res, disk') →
      Session.step (.rename original new) x = (res, { x with disk := disk' }) :=
    fun _ _ hr => onDisk_run hr
  rcases rename_ready hrep.ready original new with ⟨hno, hr⟩ | ⟨i, f, hi, hn, hfirst, hcase⟩
  · rw [run _ _ hr] at hrun
    cases hrun
  · rcases hcase with ⟨hlen, hr⟩ | ⟨hlen, hnew, hr⟩ | ⟨hlen, hno, d', hr, hready, -, hd'⟩
    · rw [run _ _ hr] at hrun
      cases hrun
    · rw [run _ _ hr] at hrun
      cases hrun
    · rw [run _ _ hr] at hrun
      cases hrun
      have hlt := slot_lt hi
      have hv := hod.dir_valid (slot_dir_mem hod hlt)
      obtain ⟨pre, post, hl, -, hset, hpre⟩ := listing_at hi
      have hb := hod.wf.blk_length hv
      have hdir' := directory_ready hready
      rw [hset] at hdir'
      have hslot := slotAt_length hod hlt
      rw [rendered_rename hslot (hod.slotBytes hi).2 _ hlen] at hd'
      unfold putSlot at hd'
      have hpn : (paddedName new).length = 16 := length_paddedName hlen
      have hq : i % 8 < 8 := Nat.mod_lt _ (by omega)
      rw [show slotAt x.disk.dev s v.dir i =
        slice (x.disk.dev.blk s (v.dir.getD (i / 8) ⟨0, 0⟩)) (32 * (i % 8)) 32 from rfl,
        splice_inside _ _ _ _ _ (by rw [hb]; omega) (by omega)] at hd'
      have hbound : 256 * sectorNumber s.type (v.dir.getD (i / 8) ⟨0, 0⟩) + 256 ≤
          x.disk.dev.image.bytes.length := hod.wf.bound hv
      have himg : d'.image.bytes = splice x.disk.dev.image.bytes
          (256 * sectorNumber s.type (v.dir.getD (i / 8) ⟨0, 0⟩) + (32 * (i % 8) + 5))
          (paddedName new) := by
        rw [hd']
        unfold Device.put Device.blk
        exact splice_inside _ _ _ _ _ hbound (by omega)
      refine ⟨pre, f.entry (slotPos v.dir i), post, slotPos v.dir i,
        256 * sectorNumber s.type (v.dir.getD (i / 8) ⟨0, 0⟩) + 32 * (i % 8),
        by rw [directory_ready hrep.ready, hl], hn, ?_, hdir', rfl, ?_, ?_, ?_, rfl⟩
      · intro d hd
        obtain ⟨j, g, hj, hg, rfl⟩ := hpre d hd
        exact hfirst j g hj hg
      · unfold Device.readPosition
        rw [hod.wf.sector (l := (slotPos v.dir i).location) hv, res_bind_ok,
          (slotPos_toNat v.dir i).1, (slotPos_toNat v.dir i).2]
        unfold subSlice
        rw [if_pos (by rw [show (slotPos v.dir i).location = v.dir.getD (i / 8) ⟨0, 0⟩ from rfl, hb]; omega)]
        show Except.ok (slice (slice _ _ _) _ _) = _
        rw [slice_slice _ _ _ _ _ (by omega)]
        rfl
      · show slice d'.image.bytes _ 16 = _
        rw [himg, Nat.add_assoc]
        exact slice_splice_same' _ _ _ _ hpn.symm (by omega)
      · intro q hq
        show d'.image.bytes[q]? = _
        rw [himg, getElem?_splice _ _ _ _ (by omega)]
        by_cases hlo : q < 256 * sectorNumber s.type (v.dir.getD (i / 8) ⟨0, 0⟩) + (32 * (i % 8) + 5)
        · rw [if_pos hlo]
        · rw [if_neg hlo, if_neg (by omega)]

/-- **C27** A rename that fails changes nothing, and it fails exactly for these reasons. -/
theorem C27_failed_rename (h : Reaches x a) {original new : Petscii} {e : Fail}
    (hrun : Session.step (.rename original new) x = (.error e, x')) :
    x' = x ∧ ∃ entries, x.disk.directory = .ok entries ∧
      ((e = .err .notFound ∧ ∀ d ∈ entries, d.filename ≠ original) ∨
       (e = .err .filenameTooLong ∧ (∃ d ∈ entries, d.filename = original) ∧ 16 < new.length) ∨
       (e = .err .fileExists ∧ (∃ d ∈ entries, d.filename = original) ∧ new.length ≤ 16 ∧
          ∃ d ∈ entries, d.filename = new)) := by
  obtain ⟨s, v, r, b, hrep⟩ := h.rep
  have hdir := directory_ready hrep.ready
  have run : ∀ (res : Res Unit) (disk' : Disk), Disk.rename original new x.disk = (res, disk') →
      Session.step (.rename original new) x = (res, { x with disk := disk' }) :=
    fun _ _ hr => onDisk_run hr
  rcases rename_ready hrep.ready original new with ⟨hno, hr⟩ | ⟨i, f, hi, hn, -, hcase⟩
  · rw [run _ _ hr] at hrun
    cases hrun
    refine ⟨rfl, _, hdir, .inl ⟨rfl, ?_⟩⟩
    intro d hd he
    obtain ⟨g, hg, hgn⟩ := name_listed.2 ⟨d, hd, he⟩
    exact hno g hg hgn
  · have hex : ∃ d ∈ v.listing, d.filename = original :=
      name_listed.1 ⟨f, mem_files.2 ⟨i, hi⟩, hn⟩
    rcases hcase with ⟨hlen, hr⟩ | ⟨hlen, hnew, hr⟩ | ⟨hlen, hno, d', hr, -⟩
    · rw [run _ _ hr] at hrun
      cases hrun
      exact ⟨rfl, _, hdir, .inr (.inl ⟨rfl, hex, hlen⟩)⟩
    · rw [run _ _ hr] at hrun
      cases hrun
      exact ⟨rfl, _, hdir, .inr (.inr ⟨rfl, hex, hlen, name_listed.1 hnew⟩)⟩
    · rw [run _ _ hr] at hrun
      cases hrun

/-! ## C28: delete -/

/-- **C28** Deleting through a handle: the entry of the handle disappears from the listing;
exactly the sectors of its chain become free, all of which were allocated; `blocks_free`
grows by their number; the chains of all other entries are the same and hold the same
content. -/
theorem C28_delete (h : Reaches x a) (hk : a.handles[k]? = some (some i))
    (hw : a.writing i = false) :
    ∃ x' pre e post p opened r locs bam bam' n,
      Session.step (.delete k) x = (.ok (), x') ∧
      x.files[k]? = some (.linear opened, r) ∧ opened.position = some p ∧
      x.disk.directory = .ok (pre ++ e :: post) ∧ e.position = some p ∧
      x'.disk.directory = .ok (pre ++ post) ∧
      chainLocations x.disk.dev e.firstSector = .ok locs ∧
      bamOf x.disk = some bam ∧ bamOf x'.disk = some bam' ∧
      (∀ l ∈ locs, isFree bam l = false) ∧
      (∀ l, isFree bam' l = true ↔ l ∈ locs ∨ isFree bam l = true) ∧
      x.disk.blocksFree = .ok n ∧ x'.disk.blocksFree = .ok (n + locs.length) ∧
      ∀ other ∈ pre ++ post,
        chainLocations x'.disk.dev other.firstSector =
          chainLocations x.disk.dev other.firstSector ∧
        ∃ content, chainContent x.disk.dev other.firstSector = .ok content ∧
          chainContent x'.disk.dev other.firstSector = .ok content := by
  obtain ⟨s, v, r, b, hrep⟩ := h.rep
  have hod := hrep.ready.onDisk
  obtain ⟨file, f, hfile, hh⟩ := hrep.handles k i hk
  obtain ⟨z, hrun, hm, hfmt, hsync, -, hfree⟩ := delete_spec hrep.ready.mounted hh
  have hi := hh.slot
  obtain ⟨opened, ex, rfl, hpos, -⟩ := hh.entry
  have hready' := hrep.ready.update hm hfmt rfl
    (exact_set (i := i) (x := none) hrep.ready.exact fun f' hf' => by cases hf')
  obtain ⟨pre, post, hl, hl', -⟩ := listing_at hi
  have hmem : f.entry (slotPos v.dir i) ∈ v.listing := by rw [hl]; simp
  have hch := hod.chains f (mem_files.2 ⟨i, hi⟩)
  have hfirst : chainLocations x.disk.dev (f.entry (slotPos v.dir i)).firstSector = .ok f.locs :=
    chainLocations_chain hod.wf hch (chain_head hch)
  obtain ⟨x', hx', hr'⟩ : ∃ x', Session.step (.delete k) x = (.ok (), x') ∧
      Reaches x' { a.put i none with
        handles := a.handles.map fun q => if q = some i then none else q, saved := true } := by
    refine h.one ?_
    simp only [Store.step]
    rw [hk]
    simp [hw]
  have hx'' : x' = { x with disk := x.disk.withSt r z.st, files := x.files.set k (z.file, r) } := by
    have := onFile_run hfile hrep.ready.cell hrun
    rw [show Session.onFile k File.delete x = Session.step (.delete k) x from rfl, hx'] at this
    exact (Prod.mk.inj this).2
  obtain ⟨g, hg, hfg⟩ := hrep.slots.some_left hi
  refine ⟨x', pre, f.entry (slotPos v.dir i), post, slotPos v.dir i, opened, r, f.locs, b, z.st.bam,
    a.room, hx', hfile, hpos, by rw [directory_ready hrep.ready, hl], rfl, ?_, hfirst, ?_, ?_, ?_, ?_,
    h.shows.blocksFree, ?_, ?_⟩
  · rw [hx'', directory_ready hready', hl']
  · unfold bamOf
    rw [hrep.ready.bam]
    exact hrep.ready.cell
  · rw [hx'']
    unfold bamOf
    rw [hready'.bam]
    exact hready'.cell
  · intro l hl
    have hd := hod.dataLocs l (mem_used_of_slot hi hl)
    exact (hrep.ready.mounted.recorded.exact l hd.1).2 (.inr (.inr (mem_used_of_slot hi hl)))
  · intro l
    rw [hfree l]
    simp
  · rw [hr'.shows.blocksFree]
    have hu := used_put (z' := none) hg
    have hq := h.good.quota
    simp only [Option.toList, List.map_cons, List.map_nil, List.sum_cons, List.sum_nil] at hu
    have : (Store.room { a.put i none with
        handles := a.handles.map fun q => if q = some i then none else q, saved := true }) =
        a.room + f.locs.length := by
      rw [hfg.blocks]
      show dataBlocks a.type - (a.put i none).used = dataBlocks a.type - a.used + _
      omega
    rw [this]
  · intro other ho
    rw [← hl'] at ho
    obtain ⟨q, fq, hfq, rfl, hlq, hcq⟩ := listing_chain hm.onDisk ho
    have hqi : q ≠ i := by
      rintro rfl
      rw [set_slot (slot_lt hi)] at hfq
      cases hfq
    rw [set_slot_ne hqi] at hfq
    have hchq := hod.chains fq (mem_files.2 ⟨q, hfq⟩)
    have hhead := chain_head hchq
    rw [hx'']
    refine ⟨hlq.trans (chainLocations_chain hod.wf hchq hhead).symm, fq.data, ?_, hcq⟩
    exact (C16_read_ok_iff hod.wf fq.first fq.data).2 ⟨fq.locs, hhead, hchq⟩

/-! ## C26: failed creation -/

/-- **C26** A creation that fails, fails for one of three reasons; a name that is too long
or taken leaves everything as it was.  When the disk is full the listing, the chains and
contents of all files, the free blocks, the open handles and writers and all allocations
outside the directory track are as they were. -/
theorem C26_failed_create (h : Reaches x a) (ht : type.toByte &&& 0x0F ≠ 4) {err : Fail}
    (hrun : Session.step (.create name type .linear) x = (.error err, x')) :
    ∃ entries n bam bam', x.disk.directory = .ok entries ∧ x.disk.blocksFree = .ok n ∧
      bamOf x.disk = some bam ∧ bamOf x'.disk = some bam' ∧
      ((err = .err .filenameTooLong ∧ 16 < name.length ∧ x' = x) ∨
       (err = .err .fileExists ∧ name.length ≤ 16 ∧ (∃ e ∈ entries, e.filename = name) ∧ x' = x) ∨
       (err = .err .diskFull ∧ name.length ≤ 16 ∧ (∀ e ∈ entries, e.filename ≠ name) ∧
          (entries.length = maxSlots a.type ∨ n = 0))) ∧
      x'.disk.directory = .ok entries ∧ x'.disk.blocksFree = .ok n ∧
      x'.files = x.files ∧ x'.writers = x.writers ∧
      (∀ e ∈ entries, chainLocations x'.disk.dev e.firstSector =
          chainLocations x.disk.dev e.firstSector ∧
        ∃ content, chainContent x.disk.dev e.firstSector = .ok content ∧
          chainContent x'.disk.dev e.firstSector = .ok content) ∧
      ∀ l, ValidLoc a.type (bamTracks a.type) l → l.track.toNat ≠ directoryTrack a.type →
        isFree bam' l = isFree bam l := by
  obtain ⟨s, v, r, b, hrep⟩ := h.rep
  have hod := hrep.ready.onDisk
  have hbam : bamOf x.disk = some b := by
    unfold bamOf
    rw [hrep.ready.bam]
    exact hrep.ready.cell
  have hout := createFile_ready hrep.ready name type ht
  have fails : ∀ (e : Fail) (disk' : Disk), Disk.createFile name type .linear x.disk = (.error e, disk') →
      Session.step (.create name type .linear) x = (.error e, { x with disk := disk' }) := by
    intro e disk' hrun
    simp only [Session.step]
    exact M.bind_of_error (onDisk_run hrun)
  have same : ∀ e ∈ v.listing, chainLocations x.disk.dev e.firstSector =
        chainLocations x.disk.dev e.firstSector ∧
      ∃ content, chainContent x.disk.dev e.firstSector = .ok content ∧
        chainContent x.disk.dev e.firstSector = .ok content := by
    intro e he
    obtain ⟨q, fq, hfq, -, hlq, hcq⟩ := listing_chain hod he
    exact ⟨rfl, _, hcq, hcq⟩
  have hdir := directory_ready hrep.ready
  have noname : (∀ g ∈ v.files, g.name ≠ name) → ∀ e ∈ v.listing, e.filename ≠ name := by
    intro hno e he hn
    obtain ⟨g, hg, hgn⟩ := name_listed.2 ⟨e, he, hn⟩
    exact hno g hg hgn
  generalize hc : Disk.createFile name type .linear x.disk = out at hout
  cases hout with
  | tooLong hlen =>
    rw [fails _ _ hc] at hrun
    cases hrun
    exact ⟨_, _, b, b, hdir, h.shows.blocksFree, hbam, hbam, .inl ⟨rfl, hlen, rfl⟩, hdir,
      h.shows.blocksFree, rfl, rfl, same, fun _ _ _ => rfl⟩
  | «exists» hlen hex =>
    rw [fails _ _ hc] at hrun
    cases hrun
    exact ⟨_, _, b, b, hdir, h.shows.blocksFree, hbam, hbam,
      .inr (.inl ⟨rfl, hlen, name_listed.1 hex, rfl⟩), hdir,
      h.shows.blocksFree, rfl, rfl, same, fun _ _ _ => rfl⟩
  | dirFull hlen hno hnone hmax =>
    rw [fails _ _ hc] at hrun
    cases hrun
    refine ⟨_, _, b, b, hdir, h.shows.blocksFree, hbam, hbam,
      .inr (.inr ⟨rfl, hlen, noname hno, .inl ?_⟩), hdir,
      h.shows.blocksFree, rfl, rfl, same, fun _ _ _ => rfl⟩
    rw [hrep.type, hmax]
    exact length_listing_full hnone
  | @full v₁ i st hlen hno hres hroom hr hsame _ _ =>
    rw [fails _ _ hc] at hrun
    cases hrun
    have hsh := h.shows.blocksFree
    rw [hrep.room] at hsh
    have hbam' : bamOf (x.disk.withSt r st) = some st.bam := by
      unfold bamOf
      rw [hr.bam]
      exact hr.cell
    have hlist := hres.listing hod.slotCount
    refine ⟨_, _, b, st.bam, hdir, hsh, hbam, hbam',
      .inr (.inr ⟨rfl, hlen, noname hno, .inr hroom⟩), ?_, ?_, rfl, rfl, ?_, ?_⟩
    · rw [directory_ready hr, hlist]
    · rw [← hres.room (ty := s.type), ← blocksFree_ready hr]
    · intro e he
      obtain ⟨q, fq, hfq, rfl, hlq, hcq⟩ := listing_chain hod he
      have hchq := hr.onDisk.chains fq (mem_files.2 ⟨q, hres.old hfq⟩)
      have hhead := chain_head hchq
      exact ⟨(chainLocations_chain hr.onDisk.wf hchq hhead).trans hlq.symm, fq.data, hcq,
        (C16_read_ok_iff hr.onDisk.wf fq.first fq.data).2 ⟨fq.locs, hhead, hchq⟩⟩
    · intro l hl hne
      rw [hrep.type] at hl hne
      have h1 := hrep.ready.mounted.recorded.exact l hl
      have h2 := hr.mounted.recorded.exact l hl
      have hocc : v₁.Occupies s.type l ↔ v.Occupies s.type l := by
        unfold Volume.Occupies
        rw [hres.used]
        have hv1 : l ∉ v₁.dir := fun hm => hne (hr.onDisk.dirTrack l hm).1
        have hv : l ∉ v.dir := fun hm => hne (hod.dirTrack l hm).1
        simp [hv1, hv]
      rw [hocc] at h2
      cases hb : isFree b l <;> cases hb' : isFree st.bam l <;> simp_all
  | created =>
    simp only [Session.step] at hrun
    rw [M.bind_of_ok (onDisk_run hc)] at hrun
    cases hrun

/-- **C26** When creation fails: for names of more than 16 bytes; for a name that is taken;
when the directory or the disk is full. -/
theorem C26_when (h : Reaches x a) (ht : type.toByte &&& 0x0F ≠ 4)
    {entries : List DirectoryEntry} (hdir : x.disk.directory = .ok entries)
    {n : Nat} (hfree : x.disk.blocksFree = .ok n) :
    (16 < name.length →
      Session.step (.create name type .linear) x = (fail .filenameTooLong, x)) ∧
    (name.length ≤ 16 → (∃ e ∈ entries, e.filename = name) →
      Session.step (.create name type .linear) x = (fail .fileExists, x)) ∧
    (name.length ≤ 16 → (∀ e ∈ entries, e.filename ≠ name) →
      (entries.length = maxSlots a.type ∨ n = 0) →
      ∃ x', Session.step (.create name type .linear) x = (fail .diskFull, x')) ∧
    (name.length ≤ 16 → (∀ e ∈ entries, e.filename ≠ name) →
      entries.length < maxSlots a.type → 0 < n →
      ∃ x', Session.step (.create name type .linear) x = (.ok (), x')) := by
  obtain ⟨res, a', hs⟩ := create_total (type := type) ht name a
  obtain ⟨x', hx', -⟩ := h.one hs
  obtain ⟨s, v, r, b, hrep⟩ := h.rep
  have hlist : entries = v.listing := Except.ok.inj (hdir.symm.trans (directory_ready hrep.ready))
  have hroom : n = a.room := Except.ok.inj (hfree.symm.trans h.shows.blocksFree)
  have hfiles : v.listing.length = a.files.length := by
    have := lists_unique h.shows.lists ⟨_, directory_ready hrep.ready, rfl⟩
    have := congrArg List.length this
    simpa [Store.listing] using this.symm
  have hnames : (∀ e ∈ entries, e.filename ≠ name) → ∀ g ∈ a.files, g.name ≠ name := by
    intro hno g hg
    obtain ⟨y, hy, rfl⟩ := List.mem_filterMap.1 hg
    obtain ⟨q, hq⟩ := List.getElem?_of_mem hy
    obtain ⟨f, hf, hfg⟩ := hrep.slots.some_right hq
    rw [← hfg.name]
    exact hno _ (hlist ▸ mem_listing.2 ⟨q, f, hf, rfl⟩)
  have herr : ∀ {e : Fail}, res = .error e → _ := fun he => C26_failed_create h ht (he ▸ hx')
  subst hlist
  have hcase : res = .ok () ∨ ∃ e, res = .error e := by
    cases res with
    | ok u => exact .inl rfl
    | error e => exact .inr ⟨e, rfl⟩
  refine ⟨?_, ?_, ?_, ?_⟩
  · intro hlen
    rcases hcase with rfl | ⟨e, rfl⟩
    · have := (create_ok hs).2.2.1
      omega
    · obtain ⟨_, _, _, _, hd, -, -, -, hc, -⟩ := C26_failed_create h ht hx'
      rcases hc with ⟨rfl, -, rfl⟩ | ⟨-, hl, -⟩ | ⟨-, hl, -⟩
      · exact hx'
      · omega
      · omega
  · intro hlen hex
    rcases hcase with rfl | ⟨e, rfl⟩
    · obtain ⟨-, -, -, hf, -⟩ := create_ok hs
      obtain ⟨e, he, hn⟩ := hex
      have := (hrep.available name).2 (name_listed.2 ⟨e, he, hn⟩)
      rw [hf] at this
      cases this
    · obtain ⟨_, _, _, _, hd, -, -, -, hc, -⟩ := C26_failed_create h ht hx'
      rcases hc with ⟨-, hl, -⟩ | ⟨rfl, -, -, rfl⟩ | ⟨-, -, hno, -⟩
      · omega
      · exact hx'
      · cases hdir.symm.trans hd
        obtain ⟨e, he, hn⟩ := hex
        exact absurd hn (hno e he)
  · intro hlen hno hfull
    rcases hcase with rfl | ⟨e, rfl⟩
    · exfalso
      obtain ⟨-, -, -, -, a₁, i, hr, hr0, rfl⟩ := create_ok hs
      rcases hfull with hfull | hfull
      · have h1 := create_length hs
        obtain ⟨x₁, -, hr₁⟩ := h.one hs
        obtain ⟨s', v', r', b', hrep'⟩ := hr₁.rep
        have hty : s'.type = a.type := by
          rw [← hrep'.type]
          exact (reserve_cases hr).2.2.2.2.2.2.2.1
        have h2 := hrep'.onDisk.slots_le
        have h3 := hrep'.slots.1
        have h4 : ∀ (zs : List (Option StoredFile)), (zs.filterMap id).length ≤ zs.length :=
          fun zs => List.length_filterMap_le _ _
        have h5 := Nat.le_trans (h4 _) (Nat.le_of_eq h3.symm)
        unfold Store.files at h1 hfiles
        rw [hty] at h2
        omega
      · omega
    · obtain ⟨_, _, _, _, hd, -, -, -, hc, -⟩ := C26_failed_create h ht hx'
      rcases hc with ⟨-, hl, -⟩ | ⟨-, -, hex, -⟩ | ⟨rfl, -⟩
      · omega
      · cases hdir.symm.trans hd
        obtain ⟨e, he, hn⟩ := hex
        exact absurd hn (hno e he)
      · exact ⟨x', hx'⟩
  · intro hlen hno hlt hn
    obtain ⟨a₂, hs₂⟩ := create_fits (type := type) ht hlen (hnames hno) (by omega) (by omega)
    rw [hs] at hs₂
    cases hs₂
    exact ⟨x', hx'⟩

/-! ## C31: how many files fit into the directory -/

theorem creates_ok : ∀ (files : List (Petscii × FileType)) {x : Session} {a : Store}, Reaches x a →
    (∀ p ∈ files, p.2.toByte &&& 0x0F ≠ 4 ∧ p.1.length ≤ 16 ∧ p.1.getLast? ≠ some 0xA0) →
    (files.map Prod.fst).Nodup → (∀ p ∈ files, ∀ g ∈ a.files, g.name ≠ p.1) →
    a.files.length + files.length ≤ maxSlots a.type → files.length ≤ a.room →
    ∃ x' a', runs (files.map fun p => Call.create p.1 p.2 .linear) x =
        (files.map fun _ => .ok (), x') ∧ Reaches x' a' ∧ a'.type = a.type ∧
      a'.files.length = a.files.length + files.length ∧ a'.room + files.length = a.room ∧
      ∀ g ∈ a'.files, g ∈ a.files ∨ g.name ∈ files.map Prod.fst
  | [], x, a, h, _, _, _, _, _ => ⟨x, a, rfl, h, rfl, rfl, rfl, fun _ hg => .inl hg⟩
  | p :: ps, x, a, h, hp, hnd, hnew, hdir, hroom => by
    simp only [List.length_cons] at hdir hroom ⊢
    obtain ⟨ht, hlen, hlast⟩ := hp p (by simp)
    obtain ⟨a₁, hs⟩ := create_fits (a := a) ht hlen (hnew p (by simp)) (by omega) (by omega)
    obtain ⟨i, hc⟩ := created h.good.quota hs
    obtain ⟨x₁, hx₁, hr₁⟩ := h.one hs
    have hl := create_length hs
    have hty := hc.type
    have hfr := hc.free
    have hst := storedName_plain hlast
    simp only [List.map_cons, List.nodup_cons] at hnd
    obtain ⟨x', a', hrun, hr', hty', hlen', hroom', hmem⟩ := creates_ok ps hr₁
      (fun q hq => hp q (by simp [hq])) hnd.2 (by
        intro q hq g hg
        rcases (hc.files).1 hg with hg | rfl
        · exact hnew q (by simp [hq]) g hg
        · intro he
          apply hnd.1
          refine List.mem_map.2 ⟨q, hq, ?_⟩
          rw [← he]
          exact hst) (by rw [hty]; omega) (by omega)
    refine ⟨x', a', ?_, hr', by rw [hty', hty], by omega, by omega, ?_⟩
    · rw [List.map_cons, runs_cons _ _ hx₁, hrun]
      rfl
    · intro g hg
      rcases hmem g hg with hg | hg
      · rcases (hc.files).1 hg with hg | rfl
        · exact .inl hg
        · right
          simp [hst]
      · right
        simp [hg]

/-- **C31** On a newly formatted disk as many files as `maxSlots` says can be created, and
then no further one. -/
theorem C31_directory_capacity {ty : DiskType} {label : Petscii} {id : Byte × Byte}
    (h : Reaches x (Store.empty ty label id)) (files : List (Petscii × FileType))
    (hfiles : ∀ p ∈ files, p.2.toByte &&& 0x0F ≠ 4 ∧ p.1.length ≤ 16 ∧ p.1.getLast? ≠ some 0xA0)
    (hnd : (files.map Prod.fst).Nodup)
    (hlen : files.length = match ty with | .d64 => 144 | .d71 => 144 | .d81 => 296) :
    ∃ x', runs (files.map fun p => Call.create p.1 p.2 .linear) x =
        (files.map fun _ => .ok (), x') ∧
      ∀ name type, name.length ≤ 16 → type.toByte &&& 0x0F ≠ 4 →
        (Session.step (.create name type .linear) x').1 = fail .diskFull ∨
        (Session.step (.create name type .linear) x').1 = fail .fileExists ∧
          name ∈ files.map Prod.fst := by
  have hn : files.length = maxSlots ty := by cases ty <;> exact hlen
  obtain ⟨x', a', hrun, hr', hty, hfl, -, hmem⟩ := creates_ok files h hfiles hnd
    (by intro p _ g hg; cases ty <;> simp [Store.empty, Store.files] at hg)
    (by cases ty <;> simp [Store.empty, Store.files, hn])
    (by rw [hn]; show maxSlots ty ≤ dataBlocks ty - 0; cases ty <;> decide)
  have hfl : a'.files.length = maxSlots ty := by rw [hfl, hn]; simp [Store.empty, Store.files]
  refine ⟨x', hrun, ?_⟩
  intro name type hname ht
  obtain ⟨s, v, r, b, hrep⟩ := hr'.rep
  have hdir := directory_ready hrep.ready
  have hlist : v.listing.length = a'.files.length := by
    have := lists_unique hr'.shows.lists ⟨_, hdir, rfl⟩
    have := congrArg List.length this
    simpa [Store.listing] using this.symm
  have hw := C26_when (name := name) (type := type) hr' ht hdir hr'.shows.blocksFree
  by_cases hex : ∃ e ∈ v.listing, e.filename = name
  · right
    refine ⟨by rw [hw.2.1 hname hex], ?_⟩
    obtain ⟨e, he, hn⟩ := hex
    obtain ⟨q, f, hf, rfl⟩ := mem_listing.1 he
    obtain ⟨g, hg, hfg⟩ := hrep.slots.some_left hf
    have hgm : g ∈ a'.files := List.mem_filterMap.2 ⟨_, List.mem_of_getElem? hg, rfl⟩
    rcases hmem g hgm with hg' | hg'
    · simp [Store.empty, Store.files] at hg'
    · rw [← hn]
      show f.name ∈ _
      rw [hfg.name]
      exact hg'
  · left
    obtain ⟨x'', hx''⟩ := hw.2.2.1 hname (fun e he hn => hex ⟨e, he, hn⟩)
      (.inl (by rw [hlist, hfl, hty]; rfl))
    rw [hx'']

/-! ## The cases the theorems speak about exist -/

theorem one_result (h : Reaches x a) {c : Call} {res : Res Unit}
    (hc : (Store.step c a).map Prod.fst = some res) : ∃ x', Session.step c x = (res, x') := by
  obtain ⟨p, hst, rfl⟩ := Option.map_eq_some_iff.1 hc
  obtain ⟨x', hx', -⟩ := h.one hst
  exact ⟨x', hx'⟩

/-- A disk with two files, the first written, and handles on both. -/
theorem two_files (ty : DiskType) : ∃ x a, Reaches x a ∧ a.type = ty ∧
    a.handles = [some 0, some 1] ∧ a.writers = [] ∧ a.saved = false ∧
    a.slots = some ⟨[0x41], 0x82, [1, 2, 3]⟩ :: some ⟨[0x42], 0x81, []⟩ ::
      List.replicate 6 none := by
  obtain ⟨x, hx⟩ := exists_formatted ty [0x41] (by decide) (0x30, 0x31)
  obtain ⟨a, ha, h⟩ : ∃ a, Store.run [.create [0x41] .PRG .linear, .openWriter 0, .write 0 [1, 2, 3],
        .drop 0, .create [0x42] .SEQ .linear] (Store.empty ty [0x41] (0x30, 0x31)) =
        some ([.ok (), .ok (), .ok (), .ok (), .ok ()], a) ∧ a.type = ty ∧
      a.handles = [some 0, some 1] ∧ a.writers = [] ∧ a.saved = false ∧
      a.slots = some ⟨[0x41], 0x82, [1, 2, 3]⟩ :: some ⟨[0x42], 0x81, []⟩ ::
        List.replicate 6 none := by
    cases ty <;> exact ⟨_, rfl, rfl, rfl, rfl, rfl, rfl⟩
  obtain ⟨x', -, hx'⟩ := hx.run ha
  exact ⟨x', a, hx', h⟩

/-- C27: a rename that succeeds, and the three that fail. -/
example (ty : DiskType) : ∃ x a, Reaches x a ∧
    (∃ x', Session.step (.rename [0x41] [0x43]) x = (.ok (), x')) ∧
    (∃ x', Session.step (.rename [0x43] [0x44]) x = (fail .notFound, x')) ∧
    (∃ x', Session.step (.rename [0x41] [0x42]) x = (fail .fileExists, x')) ∧
    (∃ x', Session.step (.rename [0x41] (List.replicate 17 0x43)) x =
      (fail .filenameTooLong, x')) := by
  obtain ⟨x, a, h, hty, hh, hw, hsv, hs⟩ := two_files ty
  obtain ⟨type, label, slots, handles, writers, saved⟩ := a
  cases hty
  cases hh
  cases hw
  cases hs
  exact ⟨x, _, h, one_result h rfl, one_result h rfl, one_result h rfl, one_result h rfl⟩

/-- C28: a file that can be deleted. -/
example (ty : DiskType) : ∃ x a, Reaches x a ∧ a.handles[0]? = some (some 0) ∧
    a.writing 0 = false := by
  obtain ⟨x, a, h, -, hh, hw, -⟩ := two_files ty
  exact ⟨x, a, h, by rw [hh]; rfl, by unfold Store.writing; rw [hw]; rfl⟩

/-- The name with number `n`. -/
def numbered (n : Nat) : Petscii := [0x41, UInt8.ofNat (n / 16), UInt8.ofNat (n % 16)]

theorem numbered_nodup {m : Nat} (hm : m ≤ 4096) : ((List.range m).map numbered).Nodup := by
  unfold List.Nodup
  rw [List.pairwise_map]
  refine (List.nodup_range (n := m)).imp_of_mem ?_
  intro p q hp hq hne he
  have hp := List.mem_range.1 hp
  have hq := List.mem_range.1 hq
  unfold numbered at he
  simp only [List.cons.injEq, and_true, true_and] at he
  have h1 := congrArg UInt8.toNat he.1
  have h2 := congrArg UInt8.toNat he.2
  simp only [UInt8.toNat_ofNat'] at h1 h2
  omega

/-- C31 and C26: names that fill the directory; one more fails with DiskFull. -/
example (ty : DiskType) : ∃ x, Reaches x (Store.empty ty [0x41] (0x30, 0x31)) ∧
    ∃ files : List (Petscii × FileType),
      (∀ p ∈ files, p.2.toByte &&& 0x0F ≠ 4 ∧ p.1.length ≤ 16 ∧ p.1.getLast? ≠ some 0xA0) ∧
      (files.map Prod.fst).Nodup ∧
      files.length = match ty with | .d64 => 144 | .d71 => 144 | .d81 => 296 := by
  obtain ⟨x, hx⟩ := exists_formatted ty [0x41] (by decide) (0x30, 0x31)
  refine ⟨x, hx, (List.range (maxSlots ty)).map fun n => (numbered n, .PRG), ?_, ?_, ?_⟩
  · cases ty <;> decide +kernel
  · rw [List.map_map]
    exact numbered_nodup (by cases ty <;> decide)
  · cases ty <;> simp [maxSlots]

end Cbm
