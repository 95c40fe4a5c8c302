import Verif.Lemmas.Durable
import Verif.Lemmas.BamKeeps
import Verif.Props.Format
import Verif.Props.Validate
/-!
# What the image alone says (C36, C37), and disks that became unformatted (C38)
-/

namespace Cbm
open Spec

variable {s : Shape} {i j k w r : Nat} {b : Bam} {a a' : Store} {x x' : Session} {g : StoredFile}
  {disk : Disk} {name original new : Petscii} {type : FileType} {calls : List Call} {fin : Call}

/-! ## C36: durability -/

/-- **C36** In any reachable state in which no allocation is pending, opening the image
alone gives the same header, directory, contents, BAM and free blocks. -/
theorem C36_image_determines_state (h : Reaches x a) (hs : a.saved = true) :
    ∃ disk', Disk.new a.type x.disk.dev.image = .ok disk' ∧ SameState x.disk disk' := by
  obtain ⟨s, v, r, b, hrep⟩ := h.rep
  obtain ⟨hr', hnew⟩ := reopen_any hrep.ready
  rw [synced_entries (hrep.saved hs) hrep.ready.mounted.onDisk.wf,
    bam_eta hrep.ready.bamFormat hrep.ready.mounted.recorded.consistent.live] at hnew
  rw [hrep.type]
  refine ⟨_, hnew, sameFiles_ready hrep.ready hr' rfl, ?_, ?_, ?_, ?_, ?_⟩
  · rw [bamOf_ready hrep.ready, bamOf_ready hr']
  · rw [bamOf_ready hrep.ready]; rfl
  · rw [blocksFree_ready hrep.ready, blocksFree_ready hr']
  · exact validate_ready hrep.ready
  · exact validate_ready hr'

/-- **C36** The program can go on with the opened disk: the store is the same, without handles. -/
theorem C36_continue (h : Reaches x a) (hs : a.saved = true) (hw : a.writers = []) :
    ∃ disk', Disk.new a.type x.disk.dev.image = .ok disk' ∧
      ∀ calls rs a', Store.run calls { a with handles := [] } = some (rs, a') →
        ∃ x', runs calls ⟨disk', [], []⟩ = (rs, x') ∧ Shows x' a' := by
  obtain ⟨s, v, r, b, hrep⟩ := h.rep
  obtain ⟨disk', hnew, hb, hc, hi, hcore⟩ := hrep.reopen hs
  refine ⟨disk', hnew, fun calls rs a' hrun => ?_⟩
  have hr0 : Rep ⟨disk', [], []⟩ s v 0 b { a with handles := [] } := by
    refine ⟨hcore.ready, hcore.type, hcore.label, hcore.slots, hcore.settled, rfl, ?_, ?_, ?_, ?_, ?_⟩
    · intro h i hh; simp at hh
    · simp [hw]
    · intro k y hk; simp [hw] at hk
    · simp [hw]
    · intro _
      have hsy := hrep.saved hs
      have hbl : ∀ l, disk'.dev.blk s l = x.disk.dev.blk s l := by
        intro l; unfold Device.blk; rw [hi]
      exact hsy.frame hrep.ready.mounted.onDisk.wf hcore.ready.mounted.onDisk.wf fun l _ _ => hbl l
  obtain ⟨x', v', b', hx', hrep'⟩ := simulation_run calls hr0 hrun
  exact ⟨x', hx', hrep'.shows⟩

theorem saved_step {c : Call} (h : Reaches x a) (hc : Store.step c a = some (.ok (), a'))
    (hs : a'.saved = true) :
    ∃ x' disk', Session.step c x = (.ok (), x') ∧
      Disk.new a.type x'.disk.dev.image = .ok disk' ∧ SameState x'.disk disk' := by
  obtain ⟨x', hx', hr⟩ := h.one hc
  obtain ⟨disk', hd, hsame⟩ := C36_image_determines_state hr hs
  have ht : a'.type = a.type := by
    obtain ⟨s, v, r, b, hrep⟩ := h.rep
    obtain ⟨y, v', b', hy, hrep'⟩ := simulation hrep hc
    rw [hrep.type, hrep'.type]
  exact ⟨x', disk', hx', ht ▸ hd, hsame⟩

/-- **C36** After flushing or dropping a writer that was used since its last flush, or
when nothing was pending. -/
theorem C36_after_flush (h : Reaches x a) (hfin : Closes fin w) (hw : w < x.writers.length)
    (hp : a.saved = true ∨ ∃ i, a.writers[w]? = some ⟨i, true⟩) :
    ∃ x' disk', Session.step fin x = (.ok (), x') ∧
      Disk.new a.type x'.disk.dev.image = .ok disk' ∧ SameState x'.disk disk' := by
  have hl : w < a.writers.length := by rw [← h.writers]; exact hw
  obtain ⟨y, hy⟩ : ∃ y, a.writers[w]? = some y := ⟨_, List.getElem?_eq_getElem hl⟩
  have hsv : (a.saved || y.pending) = true := by
    rcases hp with hp | ⟨i, hp⟩
    · rw [hp]; rfl
    · rw [hy] at hp
      cases hp
      simp
  rcases hfin with rfl | rfl
  · exact saved_step h (a' := { a with
      writers := a.writers.set w ⟨y.slot, false⟩, saved := a.saved || y.pending })
      (by simp only [Store.step, hy]) hsv
  · exact saved_step h (a' := { a with
      writers := a.writers.eraseIdx w, saved := a.saved || y.pending })
      (by simp only [Store.step, hy]) hsv

/-- **C36** After a delete, whatever was pending before. -/
theorem C36_after_delete (h : Reaches x a) (hk : a.handles[k]? = some (some i))
    (hw : a.writing i = false) :
    ∃ x' disk', Session.step (.delete k) x = (.ok (), x') ∧
      Disk.new a.type x'.disk.dev.image = .ok disk' ∧ SameState x'.disk disk' := by
  refine saved_step h (a' := { a.put i none with
        handles := a.handles.map fun k => if k = some i then none else k, saved := true }) ?_ rfl
  simp only [Store.step, hk, hw]
  rfl

/-- **C36** After a rename that succeeds, when nothing was pending. -/
theorem C36_after_rename (h : Reaches x a) (hs : a.saved = true)
    (hok : (Session.step (.rename original new) x).1 = .ok ()) :
    ∃ disk', Disk.new a.type (Session.step (.rename original new) x).2.disk.dev.image = .ok disk' ∧
      SameState (Session.step (.rename original new) x).2.disk disk' := by
  have key : ∀ res a', Store.step (.rename original new) a = some (res, a') → a'.saved = a.saved := by
    intro res a' hst
    simp only [Store.step] at hst
    split at hst
    · cases hst; rfl
    · split at hst
      · cases hst; rfl
      · split at hst
        · cases hst; rfl
        · split at hst
          · cases hst
          · cases hst; rfl
  have tot : ∃ res a', Store.step (.rename original new) a = some (res, a') := by
    simp only [Store.step]
    split
    · exact ⟨_, _, rfl⟩
    · rename_i i hf
      split
      · exact ⟨_, _, rfl⟩
      · split
        · exact ⟨_, _, rfl⟩
        · obtain ⟨⟨g', hg', -⟩, -⟩ := find_some_iff.1 hf
          rw [file?_eq.2 hg']
          exact ⟨_, _, rfl⟩
  obtain ⟨res, a', hst⟩ := tot
  obtain ⟨s, v, r, b, hrep⟩ := h.rep
  obtain ⟨y, v', b', hy, hrep'⟩ := simulation hrep hst
  rw [hy] at hok
  cases hok
  obtain ⟨x', disk', hx', hd, hsame⟩ := saved_step h hst ((key _ _ hst).trans hs)
  rw [hx']
  exact ⟨disk', hd, hsame⟩

/-- Each of the four applies to a state with files and open writers. -/
example : ∃ x a, Reaches x a ∧ a.files.length = 2 ∧ a.writers[0]? = some ⟨0, true⟩ ∧
    0 < x.writers.length ∧ a.handles[1]? = some (some 1) ∧ a.writing 1 = false := by
  obtain ⟨x, hx⟩ := exists_formatted .d71 [0x41] (by decide) (0x42, 0x43)
  have hd : (Store.run [.create [0x41] .PRG .linear, .openWriter 0,
      .write 0 (List.replicate 600 7), .create [0x42] .SEQ .linear]
      (Store.empty .d71 [0x41] (0x42, 0x43))).map (fun p => (p.2.files.length, p.2.writers[0]?,
        p.2.handles[1]?, p.2.writing 1, p.2.writers.length)) =
      some (2, some ⟨0, true⟩, some (some 1), false, 1) := by
    decide +kernel
  obtain ⟨⟨rs, a⟩, hr, ha⟩ := Option.map_eq_some_iff.1 hd
  obtain ⟨x', -, hx'⟩ := hx.run hr
  simp only [Prod.mk.injEq] at ha
  exact ⟨x', a, hx', ha.1, ha.2.1, by rw [hx'.writers, ha.2.2.2.2]; decide, ha.2.2.1, ha.2.2.2.1⟩

/-- And a saved state with a file to rename, without writers. -/
example : ∃ x a, Reaches x a ∧ a.saved = true ∧ a.files.length = 1 ∧ a.writers = [] ∧
    (Session.step (.rename [0x41] [0x42]) x).1 = .ok () := by
  obtain ⟨x, hx⟩ := exists_formatted .d81 [0x41] (by decide) (0x42, 0x43)
  have hd : (Store.run [.create [0x41] .PRG .linear, .openWriter 0,
      .write 0 (List.replicate 600 7), .drop 0]
      (Store.empty .d81 [0x41] (0x42, 0x43))).map (fun p => (p.2.saved, p.2.files.length, p.2.writers,
        (Store.step (.rename [0x41] [0x42]) p.2).map Prod.fst)) =
      some (true, 1, [], some (.ok ())) := by
    decide +kernel
  obtain ⟨⟨rs, a⟩, hr, ha⟩ := Option.map_eq_some_iff.1 hd
  obtain ⟨x', -, hx'⟩ := hx.run hr
  simp only [Prod.mk.injEq] at ha
  obtain ⟨h1, h2, h3, h4⟩ := ha
  obtain ⟨⟨res, a'⟩, h5, h6⟩ := Option.map_eq_some_iff.1 h4
  simp only at h6
  subst h6
  obtain ⟨x'', hx'', -⟩ := hx'.one h5
  exact ⟨x', a, hx', h1, h2, h3, by rw [hx'']⟩

/-! ## C37: a created file

The property is false: `create_file` does not save the BAM. -/

/-- **C37 is false.** From every reachable state in which nothing is pending: if
`create_file` succeeds, then opening the image gives a disk whose BAM marks the first
sector of the new file as free, and `validate` says so, although the live disk
validates. -/
theorem C37_create_is_not_durable (h : Reaches x a) (hs : a.saved = true)
    (ht : type.toByte &&& 0x0F ≠ 4)
    (hc : Session.step (.create name type .linear) x = (.ok (), x')) :
    ∃ e r disk' bam errs, x'.files = x.files ++ [(.linear e, r)] ∧
      Disk.new a.type x'.disk.dev.image = .ok disk' ∧ bamOf disk' = some bam ∧
      ValidLoc a.type (bamTracks a.type) e.firstSector ∧ isFree bam e.firstSector = true ∧
      disk'.validate = .ok errs ∧
      (∃ owner, .sectorMisoccupied e.firstSector owner ∈ errs) ∧ x'.disk.validate = .ok [] := by
  obtain ⟨s, v, r, b, hrep⟩ := h.rep
  have hout := createFile_ready hrep.ready name type ht
  rw [hrep.type]
  simp only [Session.step] at hc
  generalize hrun : Disk.createFile name type .linear x.disk = out at hout
  have fails : ∀ (e : Fail) (disk' : Disk), Disk.createFile name type .linear x.disk ≠ (.error e, disk') := by
    intro e disk' hrun
    rw [M.bind_of_error (onDisk_run hrun)] at hc
    cases hc
  cases hout with
  | tooLong => exact absurd hrun (fails _ _)
  | «exists» => exact absurd hrun (fails _ _)
  | dirFull => exact absurd hrun (fails _ _)
  | full => exact absurd hrun (fails _ _)
  | @created v₁ i st₁ st slot first hlen hno hres hr1 hsame hroom hdl hnu hp hr _ hsys =>
    rw [M.bind_of_ok (onDisk_run hrun)] at hc
    cases hc
    have hwf := hrep.ready.mounted.onDisk.wf
    have hwf' := hr.mounted.onDisk.wf
    have hsy : Synced st.dev s b := (hrep.saved hs).frame hwf hwf' hsys
    obtain ⟨hro, hnew⟩ := reopen_any hr
    have hst : storedEntries (x.disk.withSt r st).dev s = b.entries := synced_entries hsy hwf'
    rw [hst, bam_eta hrep.ready.bamFormat hrep.ready.mounted.recorded.consistent.live] at hnew
    have hfree : isFree b first = true := by
      cases hf : isFree b first with
      | true => rfl
      | false =>
        rcases (hrep.ready.mounted.recorded.exact first hdl.1).1 hf with h1 | h1 | h1
        · have := not_own hdl
          unfold ownSector at this
          rw [h1] at this
          cases this
        · have := (hrep.ready.mounted.onDisk.dirTrack first h1).1
          have h2 := hdl.2
          rw [this] at h2
          revert h2
          cases s.type <;> decide
        · exact absurd h1 hnu
    have hcan : CanValidate (reopened (x.disk.withSt r st) s
        (v₁.set i (some (newFile name type first))) b) s.type b
        (v₁.set i (some (newFile name type first))).header
        (v₁.set i (some (newFile name type first))).dir
        (v₁.set i (some (newFile name type first))).listing := by
      have hdir := dir_ready hro
      have hlist := directory_ready hro
      refine ⟨⟨s.type.format.geos, rfl⟩, rfl, rfl, ?_, hdir, hlist, ?_⟩
      · exact hrep.ready.mounted.recorded.consistent.toBamOf
      · intro e he
        obtain ⟨j, f, hf, rfl⟩ := mem_listing.1 he
        have hsc := scan_entry hro (mem_files.2 ⟨j, hf⟩) (slotPos
          (v₁.set i (some (newFile name type first))).dir j)
        have hsc : scanFile (reopened (x.disk.withSt r st) s
          (v₁.set i (some (newFile name type first))) b) _ = _ := hsc
        rw [hsc]
        exact ⟨by simp, by simp⟩
    obtain ⟨errs, hval, herrs⟩ := C32_reports_exactly_the_violations hcan
    have hslot : (v₁.set i (some (newFile name type first))).slots[i]? =
      some (some (newFile name type first)) := set_slot (slot_lt hres.slot)
    have hmem := mem_listing.2 ⟨i, _, hslot, rfl⟩
    have hsc := scan_entry hro (mem_files.2 ⟨i, hslot⟩) (slotPos
          (v₁.set i (some (newFile name type first))).dir i)
    have hsc : scanFile (reopened (x.disk.withSt r st) s
          (v₁.set i (some (newFile name type first))) b) _ = _ := hsc
    obtain ⟨n, hn⟩ := owner_of_mem (cs := claims (reopened (x.disk.withSt r st) s
        (v₁.set i (some (newFile name type first))) b) s.type
        (v₁.set i (some (newFile name type first))).dir
        ((v₁.set i (some (newFile name type first))).header.geos.map GEOSDiskHeader.border)
        (v₁.set i (some (newFile name type first))).listing) (l := first) (by
      refine ⟨_, List.mem_cons_of_mem _ (List.mem_filterMap.2 ⟨_, hmem, by rw [hsc]⟩), ?_⟩
      show first ∈ dedupLocs (sortLocs [first])
      rw [show sortLocs [first] = [first] from rfl]
      simp [dedupLocs])
    refine ⟨newFileEntry slot name type first, r, _, b, errs, rfl, hnew, rfl, hdl.1, hfree, hval,
      ⟨n, (herrs _).2 (.misoccupied hdl.1 hfree (not_own hdl) hn)⟩, ?_⟩
    exact validate_ready hr

/-- **C37**, the part that holds: after `create_file`, successful or not, and whatever was pending,
opening the image gives a disk with the same header and directory (so with the new
entry), and the same contents (so the new file is empty).  Missing: the BAM. -/
theorem C37_created_file_in_image_partial (h : Reaches x a) (ht : type.toByte &&& 0x0F ≠ 4) :
    ∃ disk', Disk.new a.type (Session.step (.create name type .linear) x).2.disk.dev.image = .ok disk' ∧
      SameFiles (Session.step (.create name type .linear) x).2.disk disk' := by
  obtain ⟨res, a', hst⟩ := create_total ht name a
  obtain ⟨s, v, r, b, hrep⟩ := h.rep
  obtain ⟨y, v', b', hy, hrep'⟩ := simulation hrep hst
  rw [hy]
  obtain ⟨hro, hnew⟩ := reopen_any hrep'.ready
  exact ⟨_, hrep.type ▸ hnew, sameFiles_reopened hrep'.ready _⟩

/-- **C37**, the part that holds: the new file is in the opened image, and is empty. -/
theorem C37_created_file_reads_empty_partial (h : Reaches x a) (ht : type.toByte &&& 0x0F ≠ 4)
    (hn : name.getLast? ≠ some 0xA0)
    (hc : Session.step (.create name type .linear) x = (.ok (), x')) :
    ∃ disk', Disk.new a.type x'.disk.dev.image = .ok disk' ∧ ReadsName disk' name [] := by
  obtain ⟨disk', hd, hsame⟩ := C37_created_file_in_image_partial (name := name) h ht
  rw [hc] at hd hsame
  refine ⟨disk', hd, (hsame.reads _ _).2 ?_⟩
  obtain ⟨res, a', hst⟩ := create_total ht name a
  obtain ⟨y, hy, hr⟩ := h.one hst
  rw [hc] at hy
  cases hy
  obtain ⟨i, hcr⟩ := created h.good.quota hst
  refine hr.shows.reads name i [] ?_ ?_
  · refine find_of hcr.slot (storedName_plain hn) fun j g' hj hg' => ?_
    exact hcr.absent j g' ((hcr.others j g' hj).1 hg')
  · refine read_eq (g := ⟨storedName name, type.toByte ||| 0x80, []⟩) hcr.slot fun w hw hwi => ?_
    have := hcr.writing h.good
    unfold Store.writing at this
    rw [List.any_eq_false] at this
    exact absurd (by simpa using hwi) (this w hw)

/-- The hypotheses are met: on a new disk, for every type of disk. -/
example (ty : DiskType) : ∃ x a x', Reaches x a ∧ a.type = ty ∧ a.saved = true ∧
    Session.step (.create [0x41] .PRG .linear) x = (.ok (), x') := by
  obtain ⟨x, hx⟩ := exists_formatted ty [0x41] (by decide) (0x42, 0x43)
  obtain ⟨a', ha'⟩ := create_fits (a := Store.empty ty [0x41] (0x42, 0x43)) (name := [0x41])
    (type := .PRG) (by decide) (by decide) (by cases ty <;> decide +kernel)
    (by cases ty <;> decide +kernel) (by cases ty <;> decide +kernel)
  obtain ⟨x', hx', -⟩ := hx.one ha'
  exact ⟨x, _, x', hx, rfl, rfl, hx'⟩

/-! ## C38: handles from before -/

/-- Every access to the BAM fails. -/
structure FencedOff (b : Bam) : Prop where
  allocate : ∀ l, b.allocate l = fail .invalidBAM
  free : ∀ l, b.free l = fail .invalidBAM
  entry : ∀ t, b.entry t = fail .invalidBAM
  next : ∀ prev, b.nextFreeBlock prev = fail .invalidBAM
  flush : ∀ d, b.flush d = (fail .invalidBAM, d)

theorem fencedOff (h : b.invalidated = true) : FencedOff b := by
  have hc : b.checkValidity = fail .invalidBAM := by unfold Bam.checkValidity; rw [if_pos h]
  refine ⟨fun l => ?_, fun l => ?_, fun t => ?_, fun p => ?_, fun d => ?_⟩
  · unfold Bam.allocate Bam.modifyEntry; rw [hc]; rfl
  · unfold Bam.free Bam.modifyEntry; rw [hc]; rfl
  · unfold Bam.entry; rw [hc]; rfl
  · unfold Bam.nextFreeBlock; rw [hc]; rfl
  · unfold Bam.flush; rw [hc]; rfl

theorem init_run {x x' : Session} (hs : Session.step .init x = (.ok (), x')) :
    ∃ disk', x.disk.initialize = .ok disk' ∧ x' = { x with disk := disk' } := by
  simp only [Session.step] at hs
  cases hi : x.disk.initialize with
  | ok disk' =>
    refine ⟨disk', rfl, ?_⟩
    rw [onDisk_run (x := x) (res := .ok ()) (disk' := disk') (by unfold M.update; rw [hi])] at hs
    cases hs
    rfl
  | error e =>
    rw [onDisk_run (x := x) (res := .error e) (disk' := x.disk) (by unfold M.update; rw [hi])] at hs
    cases hs

theorem fenced_setBam (hb : disk.bam = some r) (hc : disk.cells[r]? = some b) :
    Fenced r b.invalidate (disk.setBam none) := by
  have hlt := (List.getElem?_eq_some_iff.1 hc).1
  unfold Disk.setBam
  rw [hb]
  simp only [hc]
  exact ⟨by simp, by simp [hlt], rfl⟩

theorem fenced_after_init {x x' : Session} (hb : x.disk.bam = some r) (hc : x.disk.cells[r]? = some b)
    (hs : Session.step .init x = (.ok (), x')) (hu : x'.disk.bam = none) :
    Fenced r b.invalidate x'.disk := by
  obtain ⟨disk', hi, rfl⟩ := init_run hs
  unfold Disk.initialize at hi
  rw [res_bind_eq_ok] at hi
  obtain ⟨hd, -, hi⟩ := hi
  split at hi
  · cases hi
    exact fenced_setBam hb hc
  · rw [res_bind_eq_ok] at hi
    obtain ⟨b', -, hi⟩ := hi
    cases hi
    cases b' with
    | none => exact fenced_setBam hb hc
    | some b' =>
      simp only [Option.map_some, setBam_some] at hu
      cases hu

/-- **C38** A disk was in use with a BAM; re-reading it finds it unformatted.  Whatever
is called afterwards, re-formatting included: the BAM that handles obtained before refer to rejects every
access, and the disk never uses it again. -/
theorem C38_fenced_off (hb : x.disk.bam = some r) (hc : x.disk.cells[r]? = some b)
    (hs : Session.step .init x = (.ok (), x')) (hu : x'.disk.bam = none) (calls : List Call) :
    (Session.run calls x').disk.bam ≠ some r ∧
    ∃ b', (Session.run calls x').disk.cells[r]? = some b' ∧ FencedOff b' := by
  obtain ⟨h1, h2, h3⟩ := fence_run calls x' _ _ (fenced_after_init hb hc hs hu)
  exact ⟨h1, _, h2, fencedOff h3⟩

theorem removeChain_fenced {d : Device} (hf : FencedOff b) (start : Location) :
    ∃ e, removeChain start ⟨d, b⟩ = (.error e, ⟨d, b⟩) := by
  unfold removeChain
  cases hl : chainLocations d start with
  | error e =>
    exact ⟨e, M.bind_of_error (by show (chainLocations d start, (⟨d, b⟩ : St)) = _; rw [hl])⟩
  | ok ls =>
    cases ls with
    | nil =>
      refine ⟨.err .invalidBAM, ?_⟩
      rw [M.bind_of_ok (s := (⟨d, b⟩ : St)) (s' := ⟨d, b⟩) (a := ([] : List Location))
        (by show (chainLocations d start, (⟨d, b⟩ : St)) = _; rw [hl])]
      show ((b.flush d).1, (⟨(b.flush d).2, b⟩ : St)) = _
      rw [hf.flush]
    | cons l ls =>
      refine ⟨.err .invalidBAM, ?_⟩
      rw [M.bind_of_ok (s := (⟨d, b⟩ : St)) (s' := ⟨d, b⟩) (a := l :: ls)
        (by show (chainLocations d start, (⟨d, b⟩ : St)) = _; rw [hl])]
      apply M.bind_of_error
      unfold M.forEach
      apply M.bind_of_error
      unfold St.updBam M.update
      simp only [hf.free]
      rfl

/-- **C38** Deleting a file through a handle obtained before fails and changes nothing, whatever kind
of file it is. -/
theorem C38_delete_fails (hb : x.disk.bam = some r) (hc : x.disk.cells[r]? = some b)
    (hs : Session.step .init x = (.ok (), x')) (hu : x'.disk.bam = none) (calls : List Call)
    {file : File} (hk : (Session.run calls x').files[k]? = some (file, r)) :
    ∃ e, (Session.step (.delete k) (Session.run calls x')).1 = .error e ∧
      (Session.step (.delete k) (Session.run calls x')).2.disk.dev = (Session.run calls x').disk.dev ∧
      (Session.step (.delete k) (Session.run calls x')).2.disk.cells = (Session.run calls x').disk.cells := by
  obtain ⟨-, b', hcell, hf⟩ := C38_fenced_off hb hc hs hu calls
  generalize Session.run calls x' = y at hk hcell
  have hfree : ∃ e, file.freeBlocks ⟨y.disk.dev, b'⟩ = (.error e, ⟨y.disk.dev, b'⟩) := by
    cases file with
    | linear e => exact removeChain_fenced hf _
    | relative f =>
      obtain ⟨e, he⟩ := removeChain_fenced (d := y.disk.dev) hf f.entry.firstSector
      exact ⟨e, M.bind_of_error he⟩
    | geosSequential f =>
      obtain ⟨e, he⟩ := removeChain_fenced (d := y.disk.dev) hf f.entry.firstSector
      exact ⟨e, M.bind_of_error he⟩
    | geosVLIR f =>
      obtain ⟨e, he⟩ := removeChain_fenced (d := y.disk.dev) hf f.entry.firstSector
      exact ⟨e, M.bind_of_error he⟩
  obtain ⟨e, he⟩ := hfree
  have hdel : File.delete ⟨file, y.disk.dev, b'⟩ = (.error e, ⟨file, y.disk.dev, b'⟩) := by
    unfold File.delete
    rw [M.bind_of_ok (m := M.get) (s := (⟨file, y.disk.dev, b'⟩ : FSt)) (s' := ⟨file, y.disk.dev, b'⟩)
      (a := ⟨file, y.disk.dev, b'⟩) rfl]
    apply M.bind_of_error
    show ((file.freeBlocks ⟨y.disk.dev, b'⟩).1, (⟨file, (file.freeBlocks ⟨y.disk.dev, b'⟩).2.dev,
      (file.freeBlocks ⟨y.disk.dev, b'⟩).2.bam⟩ : FSt)) = _
    rw [he]
  have hrun := onFile_run (x := y) hk hcell hdel
  refine ⟨e, ?_, ?_, ?_⟩
  · simp only [Session.step]; rw [hrun]
  · simp only [Session.step]; rw [hrun]; rfl
  · simp only [Session.step]; rw [hrun]
    show y.disk.cells.set r b' = y.disk.cells
    exact set_getElem? hcell

/-- **C38** If re-reading finds the disk formatted, or it is formatted again while in
use, handles obtained before are attached to the new BAM: the disk uses the same cell. -/
theorem C38_reread_keeps_handles (hb : x.disk.bam = some r)
    (hs : Session.step .init x = (.ok (), x')) (hu : x'.disk.bam ≠ none) :
    x'.disk.bam = some r ∧ x'.files = x.files ∧ x'.writers = x.writers := by
  obtain ⟨disk', hi, rfl⟩ := init_run hs
  refine ⟨?_, rfl, rfl⟩
  unfold Disk.initialize at hi
  rw [res_bind_eq_ok] at hi
  obtain ⟨hd, -, hi⟩ := hi
  split at hi
  · cases hi
    refine absurd ?_ hu
    show (x.disk.setBam none).bam = none
    unfold Disk.setBam
    rw [hb]
  · rw [res_bind_eq_ok] at hi
    obtain ⟨b', -, hi⟩ := hi
    cases hi
    cases b' with
    | none =>
      refine absurd ?_ hu
      show (x.disk.setBam none).bam = none
      unfold Disk.setBam
      rw [hb]
    | some b' =>
      simp only [Option.map_some, setBam_some]
      unfold Disk.cellRef
      rw [hb]
      rfl

/-- **C38** Formatting a disk that is in use, after any history: handles obtained before are attached to
the new BAM, which marks everything as free but the sectors of the disk itself. -/
theorem C38_format_keeps_handles {ty : DiskType} {image : Image} (hnew : Disk.new ty image = .ok disk)
    (hw : image.kind ≠ .readOnlyMap) (calls : List Call) (hx : Session.run calls ⟨disk, [], []⟩ = x)
    (hb : x.disk.bam = some r) (hname : name.length ≤ 16) (id : Byte × Byte) :
    ∃ x' b', Session.step (.format name id) x = (.ok (), x') ∧ x'.disk.bam = some r ∧
      x'.disk.cells[r]? = some b' ∧ x'.files = x.files ∧ x'.writers = x.writers ∧ Consistent b' ty ∧
      ∀ l, ValidLoc ty (bamTracks ty) l → (isFree b' l = false ↔ ownSector ty l = true) := by
  obtain ⟨s, hs, h, hn, hkind, hr, -⟩ := history_ok hnew calls
  subst hs
  rw [hx] at h hn hkind hr
  obtain ⟨d', b', ws, hrun, hready, -, -, -, hfree, -⟩ := writeFormat_ok h
    (by unfold Writable; rw [hkind]; exact hw) hn hr hname id
  have hcr : x.disk.cellRef = r := by unfold Disk.cellRef; rw [hb]; rfl
  refine ⟨_, b', onDisk_run hrun, congrArg some hcr, ?_, rfl, rfl,
    hready.mounted.recorded.consistent, hfree⟩
  rw [← hcr]
  exact hready.cell

/-- The hypotheses are met: a disk with a file and a handle; its header sector is overwritten;
the disk is read again and found unformatted. -/
example : ∃ x x' r b file, x.disk.bam = some r ∧ x.disk.cells[r]? = some b ∧
    Session.step .init x = (.ok (), x') ∧ x'.disk.bam = none ∧
    (Session.run [] x').files[0]? = some (file, r) := by
  obtain ⟨x, hx⟩ := exists_formatted .d71 [0x41] (by decide) (0x42, 0x43)
  obtain ⟨a', ha'⟩ := create_fits (a := Store.empty .d71 [0x41] (0x42, 0x43)) (name := [0x41])
    (type := .PRG) (by decide) (by decide) (by decide +kernel) (by decide +kernel) (by decide +kernel)
  obtain ⟨x₁, -, hr₁⟩ := hx.one ha'
  obtain ⟨i, hcr⟩ := created hx.good.quota ha'
  obtain ⟨s, v, r, b, hrep⟩ := hr₁.rep
  have hty : s.type = .d71 := by rw [← hrep.type, hcr.type]; rfl
  have hw := hrep.ready.mounted.onDisk.wf
  obtain ⟨file, f, hfile, -⟩ := hrep.handles 0 i (by rw [hcr.handles]; rfl)
  have hv : s.Valid ⟨18, 0⟩ := by
    have := header_valid s hw.shape
    rw [hty] at this
    exact this
  have hz : zeros.length = 256 := by unfold zeros; exact List.length_replicate
  have hpar : Header.parse s.type.format.header
      ((x₁.disk.dev.put s ⟨18, 0⟩ zeros).blk s s.type.format.header.location) = fail .invalidHeader := by
    have hloc : s.type.format.header.location = ⟨18, 0⟩ := by rw [hty]; rfl
    rw [hloc, hw.blk_put hv hv hz, if_pos rfl, hty]
    decide +kernel
  have hini := initialize_of_no_header (disk := { x₁.disk with dev := x₁.disk.dev.put s ⟨18, 0⟩ zeros })
    (s := s) (hw.put hv hz) hrep.ready.native hpar
  refine ⟨{ x₁ with disk := { x₁.disk with dev := x₁.disk.dev.put s ⟨18, 0⟩ zeros } },
    { x₁ with disk := uninitialized { x₁.disk with dev := x₁.disk.dev.put s ⟨18, 0⟩ zeros } }, r, b, file,
    hrep.ready.bam, hrep.ready.cell, ?_, ?_, hfile⟩
  · simp only [Session.step]
    refine onDisk_run ?_
    unfold M.update
    rw [hini]
  · show (uninitialized _).bam = none
    unfold uninitialized Disk.setBam
    simp only [hrep.ready.bam]

/-- Re-reading a disk on which nothing is pending finds it formatted. -/
example (h : Reaches x a) (hs : a.saved = true) : ∃ r x', x.disk.bam = some r ∧
    Session.step .init x = (.ok (), x') ∧ x'.disk.bam ≠ none := by
  obtain ⟨s, v, r, b, hrep⟩ := h.rep
  obtain ⟨x', hx', hr'⟩ := h.one (c := .init) (res := .ok ()) (a' := a) (by simp [Store.step, hs])
  obtain ⟨s', v', r', b', hrep'⟩ := hr'.rep
  exact ⟨r, x', hrep.ready.bam, hx', by rw [hrep'.ready.bam]; simp⟩

/-- A blank image: opened, formatted, and then in use. -/
example (ty : DiskType) : ∃ image disk x r, Disk.new ty image = .ok disk ∧ image.kind ≠ .readOnlyMap ∧
    Session.run [.format [0x41] (0x42, 0x43)] ⟨disk, [], []⟩ = x ∧ x.disk.bam = some r := by
  have hlen : (Image.openMemory (match ty with
      | .d64 => 174848 | .d71 => 349696 | .d81 => 819200)).bytes.length ∈ imageSizes ty := by
    simp only [Image.openMemory, List.length_replicate]
    cases ty <;> decide
  obtain ⟨disk, hd⟩ := (C05_accepts_exactly ty _).1.2 hlen
  obtain ⟨x, hx, hr⟩ := reaches_new hd (by simp [Image.openMemory]) (name := [0x41]) (by decide) (0x42, 0x43)
  obtain ⟨s, v, r, b, hrep⟩ := hr.rep
  refine ⟨_, disk, x, r, hd, by simp [Image.openMemory], ?_, hrep.ready.bam⟩
  show (Session.step _ _).2 = x
  rw [hx]

end Cbm
