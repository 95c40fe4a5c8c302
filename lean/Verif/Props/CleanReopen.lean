import Verif.Props.CleanWrite
import Verif.Spec.CleanReopen
/-!
# C93: What was written to a clean disk is there when its image is opened again
-/

namespace Cbm
open Spec

variable {disk disk' : Disk} {s : Shape} {b b' : Bam} {e : DirectoryEntry} {es : List DirectoryEntry}
  {header : Header} {dir locs : List Location} {data : List Byte} {x : Session}

theorem Spec.SameOpened.scan {o : DirectoryEntry} (h : SameOpened disk disk' o) : scanFile disk' o = scanFile disk o := by
  obtain ⟨f, r, r', k1, k2, k3, -⟩ := h
  unfold scanFile
  rw [k1, k2, res_bind_ok, res_bind_ok]
  exact k3

theorem Spec.SameFile.opened {disk₁ disk₂ disk₃ : Disk} {o : DirectoryEntry} (h : SameFile disk₁ disk₂ o o)
    (h' : SameOpened disk₂ disk₃ o) : SameOpened disk₁ disk₃ o := by
  obtain ⟨f, f', r, k1, k2, k3, -, k5, k6⟩ := h
  obtain ⟨g, q, q', l1, l2, l3, l4⟩ := h'
  rw [k2] at l1
  cases l1
  have hf : f' = f := by
    rw [k3, ← file_entry (openFile_parts k1).2, setEntry_self]
  subst hf
  exact ⟨f', r, q', k1, l2, l3.trans k5, fun i => (l4 i).trans (k6 i)⟩

/-- Two disks with the same sectors, header and layout, whose maps say the same. -/
theorem Tidy.copy (h : Tidy disk s b header dir es) (hw : Wf disk'.dev s) (hwr : Writable disk'.dev)
    (hblk : ∀ l, disk'.dev.blk s l = disk.dev.blk s l) (hf : disk'.format = disk.format) (hh : disk'.header = some header)
    (hb : bamOf disk' = some b') (hbam : BamOf b' s.type) (hfree : ∀ l, isFree b' l = isFree b l) :
    Tidy disk' s b' header dir es ∧ ∀ o ∈ es, SameOpened disk disk' o := by
  obtain ⟨f, r, content, hfm, hr, hcell, hfirst, hd, hc⟩ := h.places
  have hf' : disk'.format = some f := hf.trans hfm
  have hc' : IsChain disk'.dev s dir content := hc.frame fun l _ => hblk l
  obtain ⟨c1, c2, c3⟩ := (C32_empty_iff h.can).1 h.clean
  have hr' : ∃ r', disk'.bam = some r' := by
    unfold bamOf at hb
    obtain ⟨r', h1, -⟩ := Option.bind_eq_some_iff.1 hb
    exact ⟨r', h1⟩
  obtain ⟨r', hr'⟩ := hr'
  have hsame : ∀ o ∈ es, SameOpened disk disk' o := by
    intro o ho
    obtain ⟨ls, hls⟩ := c1 o ho
    unfold scanFile at hls
    obtain ⟨⟨g, q⟩, hopen, hls⟩ := res_bind_eq_ok.1 hls
    obtain ⟨-, hg⟩ := openFile_parts hopen
    obtain ⟨a1, a2, a3⟩ := file_on h.wf hw (fun l _ _ => hblk l) hg hls
    refine ⟨g, q, r', hopen, ?_, a2.trans hls.symm, a3⟩
    unfold Disk.openFileFromEntry Disk.bamRef
    rw [hr', a1]
    rfl
  have hscan : ∀ o ∈ es, scanFile disk' o = scanFile disk o := fun o ho => (hsame o ho).scan
  have hlist : disk'.directory = .ok es := by
    have hbd := directory_border h.wf hfm h.can.header h.can.listed
    have := h.can.listed
    rw [directory_picked h.wf hfm h.can.header hd hc hbd] at this
    rw [← this, directory_picked hw hf' hh hd hc' hbd]
    unfold allPicked
    refine congrArg Except.ok (congr (congrArg _ ?_) ?_)
    · refine flatMap_congr_left fun l _ => ?_
      rw [hblk l, picked_same (hblk l)]
    · exact flatMap_congr_left fun l _ => picked_same (hblk l)
  have hcan : CanValidate disk' s.type b' header dir es := by
    refine ⟨by rw [hf]; exact h.can.format, hh, hb, hbam, ?_, hlist, fun o ho => ?_⟩
    · rw [← hfirst]
      exact chainLocations_chain hw hc' hd
    · rw [hscan o ho]
      exact h.can.scans o ho
  refine ⟨⟨hw, hwr, hcan, (C32_empty_iff hcan).2 ⟨fun o ho => ?_, ?_, fun l hl => ?_⟩, h.border, fun t ht => ?_⟩, hsame⟩
  · rw [hscan o ho]
    exact c1 o ho
  · rw [claims_same hscan]
    exact c2
  · rw [claims_same hscan, hfree]
    exact c3 l hl
  · rw [hblk t]
    exact h.full t ht

/-- What the map on the image says depends on the bytes of the map only. -/
theorem Spec.MapStored.area {d d' : Device} (hs : MapStored d s.type b) (hw : Wf d s) (hw' : Wf d' s)
    (hb : ∀ l j, s.Valid l → bamArea s.type l j → (d'.blk s l)[j]? = (d.blk s l)[j]?) : MapStored d' s.type b := by
  obtain ⟨b', h1, h2⟩ := hs
  rw [hw.readBam _ rfl] at h1
  cases h1
  have : Synced d s ⟨s.type.format, storedEntries d s, false⟩ := hw.readBam _ rfl
  exact ⟨_, this.area hw hw' hb, h2⟩

theorem Spec.Synced.mapStored {d : Device} (hs : Synced d s b) : MapStored d s.type b := ⟨_, hs, fun _ => rfl⟩

/-- **C93** A disk is in order, its header is on the image and the map on the image says the same as that in memory. Then
the image opens, and the disk one gets is in order: it has the same listing, the same sectors are free, every file, of any
kind, opens as before and reads the same, and every linear file holds the same bytes. -/
theorem C93_reopens (h : Tidy disk s b header dir es)
    (hh : Header.read disk.dev s.type.format.header = .ok header)
    (hf : disk.format = some (formatFor s.type.format header)) (hm : MapStored disk.dev s.type b) :
    ∃ disk' b', Disk.new s.type disk.dev.image = .ok disk' ∧ Tidy disk' s b' header dir es ∧
      (∀ l, isFree b' l = isFree b l) ∧ (∀ o ∈ es, SameOpened disk disk' o) ∧
      ∀ e locs data, LinearFile disk s es e locs data → LinearFile disk' s es e locs data := by
  have hw := h.wf
  have hw' : Wf ⟨disk.dev.image, disk.dev.geometry, []⟩ s :=
    ⟨hw.shape, hw.geometry, hw.tracks, hw.errorTable, hw.size⟩
  have hp : Header.parse s.type.format.header ((⟨disk.dev.image, disk.dev.geometry, []⟩ : Device).blk s
      s.type.format.header.location) = .ok header := by
    rw [hw.headerRead] at hh
    exact hh
  obtain ⟨b0, hb0, hfree⟩ := hm
  rw [hw.readBam _ rfl] at hb0
  cases hb0
  have hnew : Disk.new s.type disk.dev.image = .ok ⟨s.type.format, ⟨disk.dev.image, disk.dev.geometry, []⟩, some header,
      some (formatFor s.type.format header), some 0,
      [⟨formatFor s.type.format header, storedEntries disk.dev s, false⟩]⟩ := by
    unfold Disk.new Disk.fromImage
    rw [find_geometry hw]
    simp only
    rw [initialize_of_header (disk := ⟨s.type.format, ⟨disk.dev.image, disk.dev.geometry, []⟩, none,
      none, none, []⟩) (s := s) hw' rfl hp]
    unfold initialized
    simp only
    rfl
  obtain ⟨h1, h2⟩ := h.copy (b' := ⟨formatFor s.type.format header, storedEntries disk.dev s, false⟩)
    (disk' := ⟨s.type.format, ⟨disk.dev.image, disk.dev.geometry, []⟩, some header,
      some (formatFor s.type.format header), some 0,
      [⟨formatFor s.type.format header, storedEntries disk.dev s, false⟩]⟩)
    hw' h.writable (fun _ => rfl) hf.symm rfl rfl
    ⟨by unfold formatFor; cases header.geos <;> cases s.type <;> rfl, length_storedEntries _ _, rfl⟩ hfree
  exact ⟨_, _, hnew, h1, hfree, h2, fun e locs data hl => ⟨hl.entry, hl.scheme, hl.first,
    hl.chain.frame fun _ _ => rfl, hl.count⟩⟩

theorem header_own {ty : DiskType} : headerSector ty ∈ ownSectors ty := by
  refine mem_ownSectors.2 ⟨?_, ?_⟩
  · cases ty <;> decide
  · cases ty <;> rfl

/-- **C93** A writer of a linear file is opened on a disk in order, written to and flushed any number of times, and then
flushed or closed. If the image is then opened anew, even if the program does nothing more, the disk one gets is in order; its
listing is as before except for the size of that file; the file holds the bytes it had, followed by bytes that were
written, all of them if every call succeeded; and every other file, of any kind, reads as it did before the writer was
opened. -/
theorem C93_written {k : Nat} (h : ToWrite x s b header dir es k e locs data) (hc : Consistent b s.type)
    (hh : Header.read x.disk.dev s.type.format.header = .ok header)
    (hf : x.disk.format = some (formatFor s.type.format header)) (ho : headerSector s.type ∉ homes dir header)
    (calls : List (Option (List Byte))) (last : Call)
    (hlast : last = .flush x.writers.length ∨ last = .drop x.writers.length) :
    ∃ x' disk' b' p n locs' more,
      x' = Session.run (.openWriter k :: calls.map (writerCall x.writers.length) ++ [last]) x ∧
      Disk.new s.type x'.disk.dev.image = .ok disk' ∧
      e.position = some p ∧ n + locs.length = e.fileSize + locs'.length ∧
      Tidy disk' s b' header dir (es.map (sizedAt p n)) ∧
      LinearFile disk' s (es.map (sizedAt p n)) { e with fileSize := n } locs' (data ++ more) ∧
      Partly (calls.filterMap id) more ∧
      (AllOk (.openWriter k :: calls.map (writerCall x.writers.length)) x → more = (calls.filterMap id).flatten) ∧
      ∀ o ∈ es, o.position ≠ some p → SameOpened x.disk disk' o := by
  obtain ⟨x', b1, p, n, locs', more, h1, h2, h3, -, ⟨r1, r2, r3, r4, r5⟩, hfm, hsy, hfr⟩ := h.saved calls last hlast
  have hread : Header.read x'.disk.dev s.type.format.header = .ok header := by
    rw [header_outside h.tidy.wf r1.wf ?_, hh]
    rw [headerSector_format]
    exact hfr _ header_own (headerSector_format s.type ▸ header_valid s h.tidy.wf.shape) ho
  obtain ⟨disk', b', k1, k2, -, k4, k5⟩ := C93_reopens r1 hread (hfm.trans hf) (hsy hc).mapStored
  refine ⟨x', disk', b', p, n, locs', more, h1, k1, h2, h3, k2, k5 _ _ _ r2, r3, r4, fun o hm hp => ?_⟩
  refine (r5 o hm hp).opened (k4 o ?_)
  rw [← sized_other (n := n) hp]
  exact List.mem_map.2 ⟨o, hm, rfl⟩

/-- **C93** A file is created on a disk in order, written and flushed or closed, and every call succeeds. If the image is
then opened anew, the disk one gets is in order and has one more file than before, with the name and exactly the bytes that
were written, in order; every file there was reads as it did. -/
theorem C93_new_file {name : Petscii} {type : FileType} (h : Tidy x.disk s b header dir es)
    (hmap : ∀ l ∈ homes dir header, ∀ j, ¬ bamArea s.type l j) (hc : Consistent b s.type)
    (hh : Header.read x.disk.dev s.type.format.header = .ok header)
    (hf : x.disk.format = some (formatFor s.type.format header)) (hd : headerSector s.type ∉ homes dir header)
    (ht : type.toByte &&& 0x0F ≠ 4) (calls : List (Option (List Byte))) (last : Call)
    (hlast : last = .flush x.writers.length ∨ last = .drop x.writers.length)
    (hok : AllOk (.create name type .linear :: .openWriter x.files.length :: calls.map (writerCall x.writers.length)) x) :
    ∃ x' disk' b' dir' pre post o locs,
      x' = Session.run (.create name type .linear :: .openWriter x.files.length ::
        calls.map (writerCall x.writers.length) ++ [last]) x ∧
      Disk.new s.type x'.disk.dev.image = .ok disk' ∧
      es = pre ++ post ∧ o.filename = storedName name ∧ o.fileSize = locs.length ∧
      Tidy disk' s b' header dir' (pre ++ o :: post) ∧
      LinearFile disk' s (pre ++ o :: post) o locs (calls.filterMap id).flatten ∧
      ∀ o ∈ es, SameOpened x.disk disk' o := by
  obtain ⟨x1, b1, dir1, pre, post, o, hx1, hwr, hes, hname, hsize, hto, hk, hhome, hne, hsame⟩ := h.newFile hmap ht hok.1
  have hok := hok.2
  rw [hx1, ← hwr] at hok
  have hread : Header.read x1.disk.dev s.type.format.header = .ok header := by
    rw [header_same h.wf hto.tidy.wf ?_, hh]
    rw [headerSector_format]
    exact hk.frame _ header_own (headerSector_format s.type ▸ header_valid s h.wf.shape) hd
  have hd1 : headerSector s.type ∉ homes dir1 header := fun hm => by
    rcases hhome _ hm with hm | hm
    · exact hd hm
    · exact hm header_own
  obtain ⟨x', disk', b', p, n, locs, more, rfl, k1, r1, r2, r4, r5, -, r7, r8⟩ := C93_written hto (hk.even hc) hread
    (hk.format.trans hf) hd1 calls last (by rw [hwr]; exact hlast)
  have hother : ∀ o' ∈ es, o'.position ≠ some p := fun o' ho' => r1 ▸ hne o' ho'
  rw [new_listing hes r1 hother] at r4 r5
  rw [r7 hok, List.nil_append] at r5
  have hrun : Session.run (.create name type .linear :: .openWriter x.files.length ::
      calls.map (writerCall x.writers.length) ++ [last]) x =
      Session.run (.openWriter x.files.length :: calls.map (writerCall x1.writers.length) ++ [last]) x1 := by
    rw [hwr, ← hx1]
    rfl
  refine ⟨_, disk', b', dir1, pre, post, { o with fileSize := n }, locs, rfl, ?_, hes, hname, ?_, r4, r5, fun o' ho' =>
    (hsame o' ho').opened (r8 o' ?_ (hother o' ho'))⟩
  · rw [hrun]
    exact k1
  · simp only [List.length_singleton] at r2
    show n = _
    omega
  · rw [hes] at ho'
    simp only [List.mem_append, List.mem_cons] at ho' ⊢
    exact ho'.elim .inl fun h => .inr (.inr h)

/-- **C93** A file of any kind is renamed on a disk in order whose map is on the image. If the image is then opened anew,
the disk one gets is in order; its listing is as before except for that name; and every file, of any kind, that one as
well, reads as it did. -/
theorem C93_renamed {x' : Session} {original new : Petscii} (h : Tidy x.disk s b header dir es)
    (hmap : ∀ l ∈ homes dir header, ∀ j, ¬ bamArea s.type l j)
    (hh : Header.read x.disk.dev s.type.format.header = .ok header)
    (hf : x.disk.format = some (formatFor s.type.format header)) (hd : headerSector s.type ∉ homes dir header)
    (hm : MapStored x.disk.dev s.type b) (hstep : Session.step (.rename original new) x = (.ok (), x')) :
    ∃ disk' b' e p, Disk.new s.type x'.disk.dev.image = .ok disk' ∧ e ∈ es ∧ e.filename = original ∧
      e.position = some p ∧ Tidy disk' s b' header dir (es.map (renamedAt p new)) ∧
      (∀ l, isFree b' l = isFree b l) ∧
      ∀ o ∈ es, SameFile x.disk x'.disk o (renamedAt p new o) ∧ SameOpened x'.disk disk' (renamedAt p new o) := by
  obtain ⟨q, disk₁, hq⟩ : ∃ q disk₁, Disk.rename original new x.disk = (q, disk₁) := ⟨_, _, rfl⟩
  rw [show Session.step (.rename original new) x = _ from onDisk_run hq] at hstep
  obtain ⟨rfl, rfl⟩ := Prod.mk.inj hstep
  obtain ⟨pre, e, post, p, h1, -, h2, h3, h4, h5, h6, h7⟩ := rename_where h.wf h.can.listed hq
  have he : e ∈ es := by rw [h1]; simp
  have hhome : p.location ∈ homes dir header := by
    obtain ⟨q, hq, -, -, hh, -⟩ := entry_home h.wf h.can he
    rw [h3] at hq
    cases hq
    exact hh
  obtain ⟨e', he', p', a1, a2, k3, k4, -⟩ := rename_clean h.wf h.can h.clean hq
  obtain ⟨es', ht, -⟩ := h.rename hq
  have hes : es' = es.map (renamedAt p' new) := by
    have hl := ht.can.listed
    rw [k3] at hl
    exact (Except.ok.inj hl).symm
  subst hes
  have hread : Header.read disk₁.dev s.type.format.header = .ok header := by
    rw [header_outside h.wf h5.wf ?_, hh]
    rw [headerSector_format]
    refine fun j _ => h5.frame _ j (headerSector_format s.type ▸ header_valid s h.wf.shape) fun hfl => ?_
    exact hd (hfl.1 ▸ hhome)
  have hm' : MapStored disk₁.dev s.type b := hm.area h.wf h5.wf fun l j hv ha =>
    h5.frame l j hv fun hfl => hmap l (hfl.1 ▸ hhome) j ha
  obtain ⟨disk', b', l1, l2, l3, l4, -⟩ := C93_reopens ht hread (by rw [h6]; exact hf) hm'
  exact ⟨disk', b', e', p', l1, he', a1, a2, l2, l3, fun o ho => ⟨k4 o ho, l4 _ (List.mem_map.2 ⟨o, ho, rfl⟩)⟩⟩

theorem linear_gone {k : Nat} (h : OpenedEntry x s b k e es) (hl : LinearFile x.disk s es e locs data)
    (hu : ∀ l ∈ locs, Usable s.type l) :
    ∃ x', Session.step (.delete k) x = (.ok (), x') ∧ Gone x x' s b e es locs locs := by
  obtain ⟨f, r, hopen, hk⟩ := h.handle
  obtain ⟨hr, hf⟩ := openFile_parts hopen
  unfold File.fromEntry at hf
  rw [hl.scheme] at hf
  cases hf
  obtain ⟨st₁, r1, f1⟩ := removeChain_frees (st := ⟨x.disk.dev, b⟩) h.wf h.writable h.consistent hl.first hl.chain
    fun l hl => (hu l hl).1.2.1
  exact deleted h hk hr rfl r1 f1 hu

/-- **C93** A linear file is deleted on a disk in order. The call succeeds, and if the image is then opened anew, the disk
one gets is in order; the file is not listed any more and its sectors are free, and so is every sector that was free, and no
other; every other file, of any kind, is listed and reads as it did. -/
theorem C93_deleted {k : Nat} (h : OpenedEntry x s b k e es) (ht : Tidy x.disk s b header dir es)
    (hl : LinearFile x.disk s es e locs data) (hin : ∀ l ∈ locs, ValidLoc s.type (bamTracks s.type) l)
    (hh : Header.read x.disk.dev s.type.format.header = .ok header)
    (hf : x.disk.format = some (formatFor s.type.format header)) (hd : headerSector s.type ∉ homes dir header) :
    ∃ x' disk' b', Session.step (.delete k) x = (.ok (), x') ∧ Disk.new s.type x'.disk.dev.image = .ok disk' ∧
      Tidy disk' s b' header dir (es.filter fun e' => e'.position ≠ e.position) ∧
      (∀ l, isFree b' l = true ↔ l ∈ locs ∨ isFree b l = true) ∧
      ∀ o ∈ es, o.position ≠ e.position → SameOpened x.disk disk' o := by
  have hcl := clean_of ht.can ht.clean
  obtain ⟨ls, hls, hmem⟩ := blocks_scan h (.linear hl.scheme hl.first hl.chain)
  obtain ⟨x', hx, hg⟩ := linear_gone h hl fun l hl =>
    ⟨hin l hl, fun ⟨j, hj⟩ => hcl.own e h.entry ls hls l ((hmem l).1 hl) (area_own (.inl hj))⟩
  obtain ⟨b1, h1⟩ := Tidy.delete h ht hls hmem hg hx
  obtain ⟨b1', hb1, hfree1⟩ := hg.bam
  rw [h1.can.bam] at hb1
  cases hb1
  obtain ⟨b2, hb2, hfree2⟩ := hg.saved
  obtain ⟨p, hp, -, -, hph, -, -⟩ := entry_home h.wf ht.can h.entry
  have hread : Header.read x'.disk.dev s.type.format.header = .ok header := by
    rw [header_outside h.wf hg.wf ?_, hh]
    rw [headerSector_format]
    refine fun j hj => hg.others _ j (headerSector_format s.type ▸ header_valid s h.wf.shape) hj fun q hq heq => ?_
    rw [hp] at hq
    cases hq
    exact absurd (heq ▸ hph) hd
  obtain ⟨disk', b', k1, k2, k3, k4, -⟩ := C93_reopens h1 hread (hg.kept.2.1.trans hf)
    ⟨b2, hb2, fun l => Bool.eq_iff_iff.2 ((hfree2 l).trans (hfree1 l).symm)⟩
  refine ⟨x', disk', b', hx, k1, k2, fun l => by rw [k3]; exact hfree1 l, fun o ho hne => ?_⟩
  obtain ⟨lo, hlo⟩ := hcl.scans o ho
  have hsame : SameOn s (· ∈ lo) x.disk.dev x'.disk.dev := by
    intro l hl hvl
    refine List.ext_getElem? fun j => hg.others l j hvl (fun ha => hcl.own o ho lo hlo l hl (area_own (.inl ha))) ?_
    intro q hq heq
    rw [hp] at hq
    cases hq
    exact absurd (heq ▸ hph) (hcl.home o ho lo hlo l hl)
  obtain ⟨f, r, hr, hfe, hopen, hocc⟩ := scan_open hlo
  obtain ⟨hf', hocc', hrec⟩ := file_on h.wf hg.wf hsame hfe hocc
  obtain ⟨g, q, q', l1, l2, l3, l4⟩ := k4 o (List.mem_filter.2 ⟨ho, by simpa using hne⟩)
  obtain ⟨-, hg'⟩ := openFile_parts l1
  rw [hf'] at hg'
  cases hg'
  refine ⟨f, r, q', ?_, l2, l3.trans (hocc'.trans hocc.symm), fun i => (l4 i).trans (hrec i)⟩
  unfold Disk.openFileFromEntry Disk.bamRef
  rw [hr, hfe]
  rfl

/-! ## Such disks -/

/-- A disk that a program gets to with the calls of C34 has its header on the image. -/
theorem ready_stored {v : Volume} {r : Nat} (h : ReadyAt disk s v r b) : Consistent b s.type ∧
      Header.read disk.dev s.type.format.header = .ok v.header ∧
      disk.format = some (formatFor s.type.format v.header) ∧ headerSector s.type ∉ homes v.dir v.header := by
  refine ⟨h.mounted.recorded.consistent, h.onDisk.head, ?_, ?_⟩
  · rw [h.format]
    unfold formatFor
    rw [h.noGeos]
    rfl
  · unfold homes
    rw [h.noGeos]
    intro hl
    have := (h.onDisk.dirTrack _ (by simpa using hl)).2
    rw [show systemSector s.type (headerSector s.type) = true by cases s.type <;> rfl] at this
    cases this

/-- A handle of a file on such a disk. -/
theorem ready_handle {v : Volume} {r k : Nat} {i : Nat} {file : File} {f : FileRec} (h : ReadyAt x.disk s v r b)
    (hk : x.files[k]? = some (file, r)) (hf : Handle file v i f) :
    ToWrite x s b v.header v.dir v.listing k (f.entry (slotPos v.dir i)) f.locs f.data := by
  obtain ⟨h1, h2⟩ := ready_tidy h
  have hm : f ∈ v.files := mem_files.2 ⟨i, hf.slot⟩
  have hc := h.onDisk.chains f hm
  obtain ⟨e, y, rfl, he1, he2, -⟩ := hf.entry
  exact ⟨h1, h2, ⟨mem_listing.2 ⟨i, f, hf.slot, rfl⟩, rfl, chain_head hc, hc, Nat.le_of_eq (h.exact f hm)⟩,
    e, r, hk, h.bam, he1.symm, he2.symm⟩

/-- The hypotheses of `C93_new_file` hold of a formatted disk, a name and 1000 bytes in two writes. -/
example : ∃ x s b header dir es, Tidy x.disk s b header dir es ∧ (∀ l ∈ homes dir header, ∀ j, ¬ bamArea s.type l j) ∧
    Consistent b s.type ∧ Header.read x.disk.dev s.type.format.header = .ok header ∧
    x.disk.format = some (formatFor s.type.format header) ∧ headerSector s.type ∉ homes dir header ∧
    AllOk (.create [0x41] .PRG .linear :: .openWriter x.files.length ::
      [some (List.replicate 600 1), some (List.replicate 400 2)].map (writerCall x.writers.length)) x := by
  obtain ⟨x, hx⟩ := exists_formatted .d64 [0x41] (by decide) (0x30, 0x31)
  obtain ⟨s, v, r, b, hr⟩ := hx.rep
  obtain ⟨h1, h2⟩ := ready_tidy hr.ready
  obtain ⟨k2, k3, k4, k5⟩ := ready_stored hr.ready
  refine ⟨x, s, b, _, _, _, h1, h2, k2, k3, k4, k5, ?_⟩
  have := C18_succeeds_if_it_fits (type := .PRG) (name := [0x41]) hx (by decide)
    [List.replicate 600 1, List.replicate 400 2] (fin := .flush x.writers.length) (.inl rfl) (by decide) hx.shows.lists
    (by intro line hl; cases hl) (by decide) hx.shows.blocksFree
    (by rw [show [List.replicate 600 (1 : Byte), List.replicate 400 2].flatten.length = 1000 by
        simp only [List.flatten_cons, List.flatten_nil, List.length_append, List.length_replicate, List.length_nil]]
        decide)
  exact AllOk.left (more := [.flush x.writers.length]) (allOk_of_runs this)

/-- A session with a handle of a linear file, to delete it through. -/
theorem Tidy.opened {r : Nat} (h : Tidy disk s b header dir es) (hmap : ∀ l ∈ homes dir header, ∀ j, ¬ bamArea s.type l j)
    (hc : Consistent b s.type) (he : e ∈ es) (hs : e.scheme = .linear) (hr : disk.bam = some r) :
    OpenedEntry ⟨disk, [(.linear e, r)], []⟩ s b 0 e es := by
  obtain ⟨f, r', content, hf, -, -, -, hd, hch⟩ := h.places
  refine ⟨h.wf, h.writable, h.can.bam, hc, h.can.listed, he, ⟨f, header, dir, content, hf, h.can.header, hd, hch,
    fun l hl ⟨j, hj⟩ => hmap l hl j hj⟩, .linear e, r, ?_, rfl⟩
  unfold Disk.openFileFromEntry Disk.bamRef File.fromEntry
  rw [hs]
  simp only [hr]
  rfl

/-- The hypotheses of C93 hold of a disk of each kind with a file of 300 bytes on it: it can be written, renamed and, in a
session that opens it anew, deleted. -/
example (ty : DiskType) : ∃ x s b header dir es e locs data r, s.type = ty ∧ data = List.replicate 300 7 ∧
    ToWrite x s b header dir es 0 e locs data ∧ Consistent b s.type ∧
    Header.read x.disk.dev s.type.format.header = .ok header ∧
    x.disk.format = some (formatFor s.type.format header) ∧ headerSector s.type ∉ homes dir header ∧
    MapStored x.disk.dev s.type b ∧ (∃ x', Session.step (.rename [0x41] [0x42]) x = (.ok (), x')) ∧
    OpenedEntry ⟨x.disk, [(.linear e, r)], []⟩ s b 0 e es ∧ ∀ l ∈ locs, ValidLoc s.type (bamTracks s.type) l := by
  obtain ⟨x, hx⟩ := exists_formatted ty [0x41] (by decide) (0x42, 0x43)
  have hd : (Store.run [.create [0x41] .PRG .linear, .openWriter 0, .write 0 (List.replicate 300 7), .drop 0]
      (Store.empty ty [0x41] (0x42, 0x43))).map (fun p => (p.2.saved, p.2.type, decide (p.2.handles = [some 0]),
        p.2.writers.length, decide ((p.2.slots[0]?.join).map StoredFile.data = some (List.replicate 300 7)),
        decide (((Store.step (.rename [0x41] [0x42]) p.2).map fun q => match q.1 with
          | .ok _ => true
          | .error _ => false) = some true))) =
      some (true, ty, true, 0, true, true) := by
    cases ty <;> decide +kernel
  obtain ⟨⟨rs, a⟩, hr, ha⟩ := Option.map_eq_some_iff.1 hd
  obtain ⟨x', -, hx'⟩ := hx.run hr
  simp only [Prod.mk.injEq] at ha
  obtain ⟨h1, h2, h3, h4, h5, h6⟩ := ha
  have hren : (Store.step (.rename [0x41] [0x42]) a).map Prod.fst = some (.ok ()) := by
    obtain ⟨⟨q, a'⟩, hq, hq'⟩ := Option.map_eq_some_iff.1 (of_decide_eq_true h6)
    rw [hq]
    cases q with
    | ok u => rfl
    | error y => cases hq'
  obtain ⟨s, v, r, b, hrep⟩ := hx'.rep
  obtain ⟨file, f, g1, g2⟩ := hrep.handles 0 0 (by rw [of_decide_eq_true h3]; rfl)
  obtain ⟨g, hg, -⟩ := hrep.slots.some_left g2.slot
  have hdata : f.data = List.replicate 300 7 := by
    rw [hrep.settled 0 f g g2.slot hg (by rw [List.eq_nil_of_length_eq_zero h4]; nofun)]
    have h5 := of_decide_eq_true h5
    rw [hg] at h5
    exact Option.some.inj h5
  have k1 := ready_handle hrep.ready g1 g2
  obtain ⟨t1, t2⟩ := ready_tidy hrep.ready
  obtain ⟨k2, k3, k4, k5⟩ := ready_stored hrep.ready
  exact ⟨x', s, b, _, _, _, _, _, _, r, hrep.type.symm.trans h2, hdata, k1, k2, k3, k4, k5, (hrep.saved h1).mapStored,
    one_result hx' hren, t1.opened t2 k2 k1.file.entry k1.file.scheme hrep.ready.bam,
    fun l hl => (hrep.ready.onDisk.dataLocs l (mem_used_of_slot g2.slot hl)).1⟩

end Cbm
