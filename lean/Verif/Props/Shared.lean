import Verif.Props.Host
import Verif.Props.Validate
import Verif.Lemmas.Stale
import Verif.Lemmas.Start
import Verif.Props.Durable
/-!
# C83: two disk objects on one image file

Both objects map the file, so each sees at once what the other one writes.  But each keeps the BAM it read when
it was opened, and saves that one.
-/

namespace Cbm
open Spec

variable {x x' : Session} {a a' : Store} {s : Shape} {v v' : Volume} {r : Nat} {b b' : Bam} {disk disk' : Disk}
  {host : Host} {p : Path} {name : Petscii} {calls : List Call} {rs : List (Res Unit)} {i : Nat}

theorem during_at (hk : disk.dev.image.kind = .readWriteMap) : (host.during p disk) p = some disk.dev.image.bytes := by
  unfold Host.during Host.put
  rw [hk]
  simp

theorem image_eta {image : Image} (hk : image.kind = .readWriteMap) : (⟨.readWriteMap, image.bytes⟩ : Image) = image := by
  rw [← hk]

/-- Opening the file behind a disk. -/
theorem openTyped_during {ty : DiskType} (hk : disk.dev.image.kind = .readWriteMap)
    (hn : Disk.new ty disk.dev.image = .ok disk') : Disk.openTyped ty p true (host.during p disk) = .ok disk' := by
  have hl := (C05_accepts_exactly ty disk.dev.image).1.1 ⟨disk', hn⟩
  unfold Disk.openTyped Image.openReadWrite
  rw [during_at hk, if_pos rfl]
  simp only
  unfold mapped
  rw [if_neg (ne_nil_of_size hl), image_eta hk]
  unfold diskFrom
  simp only
  rw [hn]

/-- The second object, opened in state `x`, when the first one is in state `x'`. -/
def stale (x' : Session) (s : Shape) (v : Volume) (b : Bam) : Disk :=
  ⟨s.type.format, ⟨x'.disk.dev.image, x'.disk.dev.geometry, []⟩, some v.header, some s.type.format, some 0, [b]⟩

theorem stale_onDisk (h' : Rep x' s v' r b' a') : OnDisk (stale x' s v b).dev s v' := by
  have hw := h'.ready.mounted.onDisk.wf
  have hw' : Wf ⟨x'.disk.dev.image, x'.disk.dev.geometry, []⟩ s :=
    ⟨hw.shape, hw.geometry, hw.tracks, hw.errorTable, hw.size⟩
  have hr : Header.read ⟨x'.disk.dev.image, x'.disk.dev.geometry, []⟩ s.type.format.header =
      Header.read x'.disk.dev s.type.format.header := by
    rw [hw.headerRead, hw'.headerRead]; rfl
  exact h'.ready.mounted.onDisk.frame hw' hr (fun _ _ => rfl) (fun _ _ => rfl)

/-- The header in memory is of no importance for the files. -/
theorem items_header {h h' : Header} (hg : h.geos = h'.geos) (hd : disk.header = some h) :
    disk.items = ({ disk with header := some h' } : Disk).items := by
  unfold Disk.items Disk.diskFormat Disk.getHeader
  rw [hd]
  simp only [hg]

theorem stale_opened (h : Rep x s v r b a) (h' : Rep x' s v' r b' a') :
    Opened { stale x' s v b with header := some v'.header } s v' ∧
    (stale x' s v b).items = ({ stale x' s v b with header := some v'.header } : Disk).items :=
  ⟨⟨rfl, rfl, h'.ready.noGeos, rfl, stale_onDisk h'⟩,
    items_header (by rw [h.ready.noGeos, h'.ready.noGeos]) rfl⟩

/-- Opening the image that the first object has saved, and what the second one has before it later. -/
theorem second (h : Rep x s v r b a) (hs : a.saved = true) (hk : x.disk.dev.image.kind = .readWriteMap)
    (hrun : Store.run calls a = some (rs, a')) :
    ∃ x' v' b' y, runs calls x = (rs, x') ∧ Rep x' s v' r b' a' ∧ x'.disk.dev.image.kind = .readWriteMap ∧
      Disk.openTyped a.type p true (host.during p x.disk) = .ok y ∧
      y.sees (host.during p x'.disk) p = stale x' s v b := by
  obtain ⟨x', v', b', hx', hrep'⟩ := simulation_run calls h hrun
  obtain ⟨-, hnew⟩ := reopen_ready h.ready (h.saved hs)
  have hsh := keep_run (R := SameShape) calls x
  rw [← runs_state, hx'] at hsh
  have hk' : x'.disk.dev.image.kind = .readWriteMap := by rw [hsh.kind, hk]
  refine ⟨x', v', b', _, hx', hrep', hk', openTyped_during hk (by rw [h.type]; exact hnew), ?_⟩
  unfold Disk.sees
  rw [during_at hk']
  simp only
  unfold stale
  rw [← hsh.geometry, hk, ← hk']

theorem stale_items (h : Rep x s v r b a) (h' : Rep x' s v' r b' a') :
    (stale x' s v b).items = (reopened x'.disk s v' b').items :=
  items_header (disk := stale x' s v b) (by rw [h.ready.noGeos, h'.ready.noGeos]) rfl

theorem stale_openFile (h : Rep x s v r b a) (h' : Rep x' s v' r b' a') (name : Petscii) :
    (stale x' s v b).openFile name = (reopened x'.disk s v' b').openFile name := by
  unfold Disk.openFile Disk.findDirectoryEntry
  rw [stale_items h h']
  rfl

/-- **C83** An object that was opened on an image file sees at once all that another object on the same file
does to the directory and the files, whatever calls within the contract that other one makes, saved or not; it
only has to read. -/
theorem C83_reading_partial (h : Reaches x a) (hs : a.saved = true) (hk : x.disk.dev.image.kind = .readWriteMap)
    (hrun : Store.run calls a = some (rs, a')) :
    ∃ y x' second, Disk.openTyped a.type p true (host.during p x.disk) = .ok y ∧ runs calls x = (rs, x') ∧
      y.sees (host.during p x'.disk) p = second ∧ Lists second a'.listing ∧
      (∀ name, a'.find name = none → second.openFile name = fail .notFound) ∧
      ∀ name i data, a'.find name = some i → a'.read i = some data → ReadsName second name data := by
  obtain ⟨s, v, r, b, hrep⟩ := h.rep
  obtain ⟨x', v', b', y, h1, h2, -, h3, h4⟩ := second (host := host) (p := p) hrep hs hk hrun
  have hcore : Core (reopened x'.disk s v' b') s v' 0 b' a' :=
    ⟨(reopen_any h2.ready).1, h2.type, h2.label, h2.slots, h2.settled⟩
  have hsh := hcore.shows
  refine ⟨y, x', _, h3, h1, h4, ?_, fun name hn => ?_, fun name i data hf hr => ?_⟩
  · obtain ⟨es, he, hl⟩ := hsh.lists
    refine ⟨es, ?_, hl⟩
    unfold Disk.directory at he ⊢
    rw [stale_items hrep h2]
    exact he
  · rw [stale_openFile hrep h2]
    exact hsh.absent name hn
  · obtain ⟨f, q, hf, hd⟩ := hsh.reads name i data hf hr
    exact ⟨f, q, by rw [stale_openFile hrep h2]; exact hf, hd⟩

/-- **C83** An object that is opened when the other one has saved everything goes on where that one stopped. -/
theorem C83_taking_turns_partial (h : Reaches x a) (hs : a.saved = true)
    (hk : x.disk.dev.image.kind = .readWriteMap) (hw : a.writers = []) :
    ∃ y, Disk.openTyped a.type p true (host.during p x.disk) = .ok y ∧
      ∀ calls rs a', Store.run calls { a with handles := [] } = some (rs, a') →
        ∃ y', runs calls ⟨y, [], []⟩ = (rs, y') ∧ Shows y' a' := by
  obtain ⟨y, h1, h2⟩ := C36_continue h hs hw
  exact ⟨y, openTyped_during hk h1, h2⟩

theorem opens_exactly {d : Device} (h : OnDisk d s v) (hg : v.header.geos = none) (hy : Synced d s b)
    (hb : b.format = s.type.format) (hl : b.invalidated = false) :
    Disk.new s.type d.image = .ok ⟨s.type.format, ⟨d.image, d.geometry, []⟩, some v.header, some s.type.format,
      some 0, [b]⟩ := by
  have hw := h.wf
  have hw' : Wf ⟨d.image, d.geometry, []⟩ s :=
    ⟨hw.shape, hw.geometry, hw.tracks, hw.errorTable, hw.size⟩
  have hr : Header.read ⟨d.image, d.geometry, []⟩ s.type.format.header =
      Header.read d s.type.format.header := by
    rw [hw.headerRead, hw'.headerRead]; rfl
  have hod : OnDisk ⟨d.image, d.geometry, []⟩ s v :=
    h.frame hw' hr (fun _ _ => rfl) (fun _ _ => rfl)
  unfold Disk.new Disk.fromImage
  rw [find_geometry hw]
  simp only
  have hp := hod.head
  rw [hw'.headerRead] at hp
  rw [initialize_of_header (disk := ⟨s.type.format, ⟨d.image, d.geometry, []⟩, none,
    none, none, []⟩) (s := s) hw' rfl hp]
  unfold initialized
  have hfmt : formatFor s.type.format v.header = s.type.format := by
    unfold formatFor
    rw [hg]; rfl
  have he : (⟨s.type.format, storedEntries d s, false⟩ : Bam) = b := by
    rw [synced_entries hy hw, bam_eta hb hl]
  rw [← he]
  simp only [hfmt]
  rfl

/-- More free sectors are more free blocks. -/
theorem blocksFree_mono {ty : DiskType} (hb : Consistent b ty) (hb' : Consistent b' ty)
    (h : ∀ l, isFree b l = true → isFree b' l = true) {n n' : Nat} (hn : b.blocksFree = .ok n)
    (hn' : b'.blocksFree = .ok n') : n ≤ n' := by
  rw [C12_blocks_free hb] at hn
  rw [C12_blocks_free hb'] at hn'
  rw [← Except.ok.inj hn, ← Except.ok.inj hn', ← List.countP_eq_length_filter, ← List.countP_eq_length_filter]
  refine List.countP_mono_left fun p hp hf => ?_
  have hp' := mem_allSectors.1 hp
  have hbt := bamTracks_le ty
  have hs := sectorsPerTrack_le ty p.1
  have e1 : (UInt8.ofNat p.1).toNat = p.1 := by rw [UInt8.toNat_ofNat']; omega
  have e2 : (UInt8.ofNat p.2).toNat = p.2 := by rw [UInt8.toNat_ofNat']; omega
  have := h ⟨UInt8.ofNat p.1, UInt8.ofNat p.2⟩
  unfold isFree at this
  simp only [e1, e2] at this
  simp only [Bool.and_eq_true] at hf ⊢
  exact ⟨hf.1, this hf.2⟩

/-- A block of a file that is marked free is reported. -/
theorem misoccupied_reported (h : Opened disk s v) (hr : disk.bam = some r) (hb : disk.cells[r]? = some b)
    (hc : BamOf b s.type) {l : Location} (hl : l ∈ v.used) (hf : isFree b l = true) :
    ∃ errs owner, disk.validate = .ok errs ∧ .sectorMisoccupied l owner ∈ errs := by
  have hod := h.onDisk
  have hscan : ∀ f ∈ v.files, ∀ q, scanFile disk (f.entry q) = .ok (dedupLocs (sortLocs f.locs)) := by
    intro f hf q
    have hch := hod.chains f hf
    unfold scanFile Disk.openFileFromEntry Disk.bamRef
    rw [hr, res_bind_ok]
    show (do
      let ls ← chainLocations disk.dev f.first
      pure (dedupLocs (sortLocs ls))) = _
    rw [chainLocations_chain hod.wf hch (chain_head hch)]
    rfl
  have hcan : CanValidate disk s.type b v.header v.dir v.listing := by
    refine ⟨⟨false, by rw [h.format]; cases s.type <;> rfl⟩, h.header, by unfold bamOf; rw [hr]; exact hb, hc, ?_,
      h.directory, fun e he => ?_⟩
    · obtain ⟨content, hch⟩ := hod.dirChain
      exact chainLocations_chain hod.wf hch hod.dirFirst
    · obtain ⟨q, f, hq, rfl⟩ := mem_listing.1 he
      rw [hscan f (mem_files.2 ⟨q, hq⟩)]
      exact ⟨nofun, nofun⟩
  obtain ⟨errs, hv, hm⟩ := C32_reports_exactly_the_violations hcan
  have hd := hod.dataLocs l hl
  obtain ⟨f, hff, hlf⟩ := List.mem_flatMap.1 hl
  obtain ⟨q, hq⟩ := mem_files.1 hff
  cases ho : owner (claims disk s.type v.dir (v.header.geos.map GEOSDiskHeader.border) v.listing) l with
  | some n =>
    refine ⟨errs, n, hv, (hm _).2 (.misoccupied hd.1 hf ?_ ho)⟩
    exact not_own hd
  | none =>
    exfalso
    unfold owner at ho
    rw [Option.map_eq_none_iff, List.find?_eq_none] at ho
    refine ho (f.name, dedupLocs (sortLocs f.locs)) ?_ ?_
    · unfold claims
      refine List.mem_cons_of_mem _ (List.mem_filterMap.2 ⟨f.entry (slotPos v.dir q), mem_listing.2 ⟨q, f, hq, rfl⟩, ?_⟩)
      rw [hscan f hff]
      rfl
    · simp only [List.contains_iff_mem]
      exact mem_sorted.2 hlf

/-- **C83, refuted** One object on an image file makes calls and saves everything; another object that was
opened before deletes a file.  If the calls had used up blocks, then the image is damaged: it is the first
object's directory without the deleted file, but more blocks are said to be free than are, and `validate`
finds blocks of files that are marked as free, which the next writer will use. -/
theorem C83_second_disk_refuted (h : Reaches x a) (hs : a.saved = true)
    (hk : x.disk.dev.image.kind = .readWriteMap) (hrun : Store.run calls a = some (rs, a'))
    (hfind : a'.find name = some i) (hless : (a'.put i none).room < a.room) :
    ∃ y x' y' z, Disk.openTyped a.type p true (host.during p x.disk) = .ok y ∧ runs calls x = (rs, x') ∧
      runs [.openFile name, .delete 0] ⟨y.sees (host.during p x'.disk) p, [], []⟩ = ([.ok (), .ok ()], y') ∧
      Disk.openTyped a.type p true (host.during p y'.disk) = .ok z ∧ Lists z (a'.put i none).listing ∧
      (∃ n, z.blocksFree = .ok n ∧ (a'.put i none).room < n) ∧
      ∃ errs l owner, z.validate = .ok errs ∧ .sectorMisoccupied l owner ∈ errs := by
  obtain ⟨s, v, r, b, hrep⟩ := h.rep
  obtain ⟨x', v', b', y, h1, h2, hk', h3, h4⟩ := second (host := host) (p := p) hrep hs hk hrun
  have hon := stale_onDisk (v := v) (b := b) h2
  have hcon := hrep.ready.mounted.recorded.consistent
  -- the file
  obtain ⟨f, hi, hn, hopen⟩ : ∃ f, v'.slots[i]? = some (some f) ∧ f.name = name ∧
      (stale x' s v b).openFile name = .ok (.linear (f.entry (slotPos v'.dir i)), 0) := by
    rcases find_ready (reopen_any h2.ready).1 name with ⟨j, f, hj, hn, hno, hf⟩ | ⟨hno, -⟩
    · have hfj : a'.find name = some j := by
        obtain ⟨g, hg, hfg⟩ := h2.slots.some_left hj
        unfold Store.find
        rw [find_some_iff]
        refine ⟨⟨g, hg, hfg.name.symm.trans hn⟩, fun k g' hk hg' hn' => ?_⟩
        obtain ⟨f', hf', hfg'⟩ := h2.slots.some_right hg'
        exact hno k f' hk hf' (hfg'.name.trans hn')
      rw [hfind] at hfj
      cases hfj
      refine ⟨f, hj, hn, ?_⟩
      rw [stale_openFile hrep h2]
      unfold Disk.openFile
      rw [hf]
      rfl
    · obtain ⟨⟨g, hg, hgn⟩, -⟩ := find_some_iff.1 hfind
      obtain ⟨f, hf, hfg⟩ := h2.slots.some_right hg
      exact absurd (hfg.name.trans hgn) (hno f (mem_files.2 ⟨_, hf⟩))
  have hlt := slot_lt hi
  have hch := hon.chains f (mem_files.2 ⟨i, hi⟩)
  have hwr : Writable (stale x' s v b).dev := h2.ready.mounted.writable
  obtain ⟨d', b1, j1, j2, j3, j4, j5, j6, -, j8⟩ := delete_gen (e := f.entry (slotPos v'.dir i)) (x := f.extra)
    (st := ⟨(stale x' s v b).dev, b⟩) hon hcon hwr hlt rfl (hon.name_le hi) rfl (hon.extra_len hi) hch
    (chain_head hch) fun l hl => (hon.dataLocs l (List.mem_flatMap.2 ⟨f, mem_files.2 ⟨i, hi⟩, hl⟩)).1
  have hstep1 : Session.step (.openFile name) ⟨stale x' s v b, [], []⟩ =
      (.ok (), ⟨stale x' s v b, [(.linear (f.entry (slotPos v'.dir i)), 0)], []⟩) := by
    show (_ >>= _ : M Session Unit) _ = _
    rw [M.bind_of_ok (s' := ⟨stale x' s v b, [], []⟩) (by rw [M.run_read]; exact congrArg (·, _) hopen)]
    rfl
  have hdel : ∀ X, Session.step (.delete 0) X = Session.onFile 0 File.delete X := fun _ => rfl
  have hstep2 := onFile_run (m := File.delete) (k := 0) (r := 0) (b := b)
    (x := ⟨stale x' s v b, [(.linear (f.entry (slotPos v'.dir i)), 0)], []⟩) rfl rfl j1
  rw [← hdel] at hstep2
  have hruns := runs_cons (.openFile name) [.delete 0] hstep1
  rw [runs_cons (.delete 0) [] hstep2] at hruns
  have hshape := keep_run (R := SameShape) [.openFile name, .delete 0] ⟨stale x' s v b, [], []⟩
  rw [← runs_state, hruns] at hshape
  have hkd : d'.image.kind = .readWriteMap := hshape.kind.trans hk'
  have hng : (v'.set i none).header.geos = none := h2.ready.noGeos
  have hnew := opens_exactly j2 hng j8 (j5.trans hrep.ready.bamFormat) j4.live
  have hz : OnDisk ⟨d'.image, d'.geometry, []⟩ s (v'.set i none) := by
    have hw := j2.wf
    have hw' : Wf ⟨d'.image, d'.geometry, []⟩ s := ⟨hw.shape, hw.geometry, hw.tracks, hw.errorTable, hw.size⟩
    exact j2.frame hw' (by rw [hw.headerRead, hw'.headerRead]; rfl) (fun _ _ => rfl) (fun _ _ => rfl)
  have hslots := h2.slots.set (y := none) (z := none) .none i
  have hroom : (a'.put i none).room = (v'.set i none).room s.type := by
    have h3 : (v'.set i none).used.length = (a'.put i none).used := hslots.used
    unfold Store.room Volume.room
    rw [h3]
    show dataBlocks a'.type - _ = _
    rw [h2.type]
  have hopened : Opened ⟨s.type.format, ⟨d'.image, d'.geometry, []⟩, some (v'.set i none).header,
      some s.type.format, some 0, [b1]⟩ s (v'.set i none) := ⟨rfl, rfl, hng, rfl, hz⟩
  refine ⟨y, x', _, _, h3, h1, by rw [h4]; exact hruns,
    openTyped_during hkd (by rw [hrep.type]; exact hnew), ⟨_, hopened.directory, ?_⟩, ?_, ?_⟩
  · rw [listing_lines]
    refine hslots.lines fun f hf => ?_
    obtain ⟨j, hj⟩ := (mem_files (v := v'.set i none)).1 hf
    have hj' : (v'.slots.set i none)[j]? = some (some f) := hj
    rw [List.getElem?_set] at hj'
    split at hj'
    · cases hj'
    · exact h2.ready.exact f (mem_files.2 ⟨j, hj'⟩)
  · have e1 := C12_blocks_free j4
    refine ⟨_, ?_, Nat.lt_of_lt_of_le hless (Nat.le_trans (Nat.le_of_eq hrep.room)
      (blocksFree_mono hcon j4 (fun l hl => ?_) (blocksFree_volume hrep.ready.mounted.recorded hrep.ready.onDisk) e1))⟩
    · exact e1
    · rw [j6, hl, Bool.or_true]
  · have hex : ∃ l ∈ (v'.set i none).used, isFree b1 l = true := by
      apply Classical.byContradiction
      intro hno
      have hsub : ∀ l ∈ (v'.set i none).used, l ∈ v.used := by
        intro l hl
        apply Classical.byContradiction
        intro hnu
        refine hno ⟨l, hl, ?_⟩
        rw [j6]
        exact Bool.or_eq_true_iff.2 (.inr ((hrep.ready.mounted.recorded.data_free hrep.ready.onDisk
          (j2.dataLocs l hl)).2 hnu))
      have hle := nodup_length_le_of_subset _ _ j2.apart hsub
      rw [hroom, hrep.room] at hless
      unfold Volume.room at hless
      omega
    obtain ⟨l, hl, hf⟩ := hex
    obtain ⟨errs, o, hv, hm⟩ := misoccupied_reported hopened rfl rfl j4.toBamOf hl hf
    exact ⟨errs, l, o, hv, hm⟩

/-- A file of one block is on the disk; the first object writes one of three blocks and closes it; the second
one deletes the first file. -/
example : ∃ x a a' rs, Reaches x a ∧ a.saved = true ∧ x.disk.dev.image.kind = .readWriteMap ∧ a.writers = [] ∧
    Store.run [.create [0x42] .PRG .linear, .openWriter 1, .write 0 (List.replicate 600 7), .drop 0] a =
      some (rs, a') ∧ a'.find [0x41] = some 0 ∧ a'.find [0x42] = some 1 ∧ (a'.put 0 none).room < a.room := by
  obtain ⟨bytes, hl⟩ : ∃ bytes : List Byte, bytes.length = 174848 := ⟨List.replicate 174848 0, List.length_replicate⟩
  obtain ⟨disk, hd⟩ := (C05_accepts_exactly .d64 ⟨.readWriteMap, bytes⟩).1.2 (by rw [hl]; decide)
  obtain ⟨x, h1, hx⟩ := reaches_new hd (by simp) (name := [0x41]) (by decide) (0x42, 0x43)
  have hk : x.disk.dev.image.kind = .readWriteMap := by
    have h := keep_run (R := SameShape) [.format [0x41] (0x42, 0x43)] ⟨disk, [], []⟩
    unfold Session.run Session.run at h
    rw [h1] at h
    rw [h.kind, show disk.dev.image = _ from (new_ok hd).choose_spec.2.2.2.1]
  have hq : (Store.run [.create [0x41] .PRG .linear, .openWriter 0, .write 0 (List.replicate 100 7), .drop 0]
      (Store.empty .d64 [0x41] (0x42, 0x43))).any (fun p => p.2.saved && p.2.writers.isEmpty &&
        ((Store.run [.create [0x42] .PRG .linear, .openWriter 1, .write 0 (List.replicate 600 7), .drop 0] p.2).any
          fun q => decide (q.2.find [0x41] = some 0) && decide (q.2.find [0x42] = some 1) &&
            decide ((q.2.put 0 none).room < p.2.room))) = true := by decide +kernel
  obtain ⟨⟨rs, a⟩, ha, hp⟩ := (Option.any_eq_true _ _).1 hq
  simp only [Bool.and_eq_true] at hp
  obtain ⟨⟨q1, q2⟩, q3⟩ := hp
  obtain ⟨⟨rs', a'⟩, ha', hp'⟩ := (Option.any_eq_true _ _).1 q3
  simp only [Bool.and_eq_true, decide_eq_true_eq] at hp'
  obtain ⟨x', hx1, hx'⟩ := hx.run ha
  have h := keep_run (R := SameShape) [.create [0x41] .PRG .linear, .openWriter 0, .write 0 (List.replicate 100 7),
    .drop 0] x
  rw [← runs_state, hx1] at h
  exact ⟨x', a, a', rs', hx', q1, h.kind.trans hk, List.isEmpty_iff.1 q2, ha', hp'.1.1, hp'.1.2, hp'.2⟩

end Cbm
