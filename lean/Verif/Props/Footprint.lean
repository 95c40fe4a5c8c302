import Verif.Lemmas.FootprintDisk
/-!
# C85: what a call changes on a disk

On an image with any bytes, after any calls: a call changes only the bytes of `Spec.Footprint`, and marks
only the sectors of `Spec.Released` as free.
-/

namespace Cbm
open Spec

variable {s : Shape} {disk : Disk} {x : Session} {α : Type}

/-- A call through a writer. -/
theorem touch_onWriter {m : M WSt α} {i : Nat} {A : Location → Nat → Prop} {R : Nat → Location → Prop}
    (h : Steady s x)
    (hm : ∀ w r b p, x.writers[i]? = some (w, r) → x.disk.cells[r]? = some b → w.entry.position = some p →
      WriterOk s w → BamSize b s.type →
      Framed s A (fun l => isFree b l = true) x.disk.dev (m ⟨w, x.disk.dev, b⟩).2.st) :
    Touch s A R x.disk (Session.onWriter i m x).2.disk := by
  cases hw : x.writers[i]? with
  | none =>
    have : Session.onWriter i m x = (.error .panic, x) := by
      unfold Session.onWriter
      rw [hw]
    rw [this]
    exact touch_refl _
  | some q =>
    obtain ⟨w, r⟩ := q
    obtain ⟨h1, h2⟩ := h.writers _ (List.mem_of_getElem? hw)
    obtain ⟨b, hb, hs⟩ := h.cell h2
    obtain ⟨p, hp, -⟩ := h1.entry.position
    rw [onWriter_run hw hb (res := (m ⟨w, x.disk.dev, b⟩).1) (y := (m ⟨w, x.disk.dev, b⟩).2) rfl]
    exact touch_withSt hb (hm w r b p hw hb hp h1 hs.bam) fun l hl => .inl hl

theorem touch_flush {i : Nat} {R : Nat → Location → Prop} (h : Steady s x) :
    Touch s (fun l j => bamArea s.type l j ∨ ∃ w r, x.writers[i]? = some (w, r) ∧ l = w.location) R x.disk
      (Session.onWriter i ChainWriter.flush x).2.disk := by
  refine touch_onWriter h fun w r b p hw hb hp h1 h2 => ?_
  refine (Kept.state (wkept_flush (s := s) (d0 := x.disk.dev) (p := p) (G := fun l => isFree b l = true)
    fun l j hl => .inl hl) ⟨⟨h.standing.wf, h2, changesOnly_refl _, fun _ h => h⟩, h1, fun j => ?_, hp⟩).st
  exact .inr ⟨w, r, hw, rfl⟩

/-- What a call does, on any image. -/
theorem touch_step (h : Steady s x) (c : Call) :
    Touch s (Footprint x s c) (Released x s c) x.disk (Session.step c x).2.disk := by
  have hst := h.standing
  cases c with
  | init =>
    show Touch s _ _ x.disk (Session.onDisk (M.update Disk.initialize) x).2.disk
    rw [onDisk_state]
    exact touch_init hst fun b r l h1 h2 => ⟨b, h1, h2⟩
  | format name id =>
    refine ⟨(keep_step (R := Inside) (.format name id) x s hst.wf).2, fun r b' l _ _ => .inr trivial⟩
  | setHeader hd => exact touch_cells (changesOnly_refl _) rfl
  | setFormat f => exact touch_cells (changesOnly_refl _) rfl
  | setBam b =>
    show Touch s _ _ x.disk (x.disk.setBam b)
    exact touch_setBam b fun b' r l hb hf => by subst hb; exact hf
  | flushHeader =>
    show Touch s _ _ x.disk (Session.onDisk Disk.flushHeader x).2.disk
    rw [onDisk_state]
    exact flushHeader_changes hst
  | create name type scheme =>
    have : (Session.step (.create name type scheme) x).2.disk = (Disk.createFile name type scheme x.disk).2 := by
      show ((_ >>= _ : M Session Unit) x).2.disk = _
      rcases hcf : Disk.createFile name type scheme x.disk with ⟨res, disk'⟩
      cases res with
      | ok p => rw [M.bind_of_ok (onDisk_run hcf)]; rfl
      | error q => rw [M.bind_of_error (onDisk_run hcf)]
    rw [this]
    exact touch_create hst name type scheme
  | openFile name =>
    have : (Session.step (.openFile name) x).2.disk = x.disk := by
      show ((_ >>= _ : M Session Unit) x).2.disk = _
      cases hr : x.disk.openFile name with
      | ok p => rw [M.bind_of_ok (s' := x) (a := p) (by rw [M.run_read, hr])]; rfl
      | error q => rw [M.bind_of_error (s' := x) (e := q) (by rw [M.run_read, hr])]
    rw [this]
    exact touch_refl _
  | openEntry e =>
    have : (Session.step (.openEntry e) x).2.disk = x.disk := by
      show ((_ >>= _ : M Session Unit) x).2.disk = _
      cases hr : x.disk.openFileFromEntry e with
      | ok p => rw [M.bind_of_ok (s' := x) (a := p) (by rw [M.run_read, hr])]; rfl
      | error q => rw [M.bind_of_error (s' := x) (e := q) (by rw [M.run_read, hr])]
    rw [this]
    exact touch_refl _
  | openWriter i =>
    have : (Session.step (.openWriter i) x).2.disk = x.disk := by
      show ((_ >>= _ : M Session Unit) x).2.disk = _
      cases hr : indexRes x.files i with
      | error q => rw [M.bind_of_error (s' := x) (e := q) (by rw [M.run_read, hr])]
      | ok p =>
        rw [M.bind_of_ok (s' := x) (a := p) (by rw [M.run_read, hr])]
        show ((_ >>= _ : M Session Unit) x).2.disk = _
        cases hr : p.1.writer x.disk.dev with
        | ok w => rw [M.bind_of_ok (s' := x) (a := w) (by rw [M.run_read, hr])]; rfl
        | error q => rw [M.bind_of_error (s' := x) (e := q) (by rw [M.run_read, hr])]
    rw [this]
    exact touch_refl _
  | write i buf =>
    have : (Session.step (.write i buf) x).2.disk = (Session.onWriter i (ChainWriter.write buf) x).2.disk := by
      show ((_ >>= _ : M Session Unit) x).2.disk = _
      rcases hm : Session.onWriter i (ChainWriter.write buf) x with ⟨r, y⟩
      cases r with
      | ok a => rw [M.bind_of_ok hm]; rfl
      | error q => rw [M.bind_of_error hm]
    rw [this]
    refine touch_onWriter h fun w r b p hw hb hp h1 h2 => ?_
    refine (Kept.state (wkept_write (s := s) (d0 := x.disk.dev) (p := p) (G := fun l => isFree b l = true)
      (fun l j hl => ?_) (fun l j hl => ?_) buf)
      ⟨⟨hst.wf, h2, changesOnly_refl _, fun _ h => h⟩, h1, fun j => ?_, hp⟩).st
    · exact ⟨w, r, hw, .inr (.inl ⟨b, hb, hl⟩)⟩
    · exact ⟨w, r, hw, .inr (.inr ⟨p, hp, hl⟩)⟩
    · exact ⟨w, r, hw, .inl rfl⟩
  | flush i => exact touch_flush h
  | drop i => exact touch_flush h
  | delete i =>
    cases hf : x.files[i]? with
    | none =>
      have hstep : Session.step (.delete i) x = (.error .panic, x) := by
        show Session.onFile i File.delete x = _
        unfold Session.onFile
        rw [hf]
      rw [hstep]
      exact touch_refl _
    | some q =>
      obtain ⟨f, r⟩ := q
      obtain ⟨h1, h2⟩ := h.files _ (List.mem_of_getElem? hf)
      obtain ⟨b, hb, hs⟩ := h.cell h2
      have hstep : Session.step (.delete i) x = ((File.delete ⟨f, x.disk.dev, b⟩).1, { x with
          disk := x.disk.withSt r (File.delete ⟨f, x.disk.dev, b⟩).2.st
          files := x.files.set i ((File.delete ⟨f, x.disk.dev, b⟩).2.file, r) }) :=
        onFile_run (m := File.delete) hf hb (res := (File.delete ⟨f, x.disk.dev, b⟩).1)
          (y := (File.delete ⟨f, x.disk.dev, b⟩).2) rfl
      rw [hstep]
      have hd := framed_delete (s := s) (f := f) (d0 := x.disk.dev)
        (G := fun l => isFree b l = true ∨ BlockOf x.disk.dev s f l) (st := ⟨x.disk.dev, b⟩)
        ⟨hst.wf, hs.bam, changesOnly_refl _, fun _ h => .inl h⟩ rfl fun l hl => .inr hl
      refine touch_withSt hb (hd.mono (A' := Footprint x s (.delete i)) fun l j hlj => ?_) fun l hl => ?_
      · rcases hlj with hlj | ⟨p, hp, hlj⟩
        · exact .inl hlj
        · exact .inr ⟨f, r, p, hf, hp, hlj⟩
      · rcases hl with hl | hl
        · exact .inl hl
        · exact .inr ⟨f, hf, hl⟩
  | rename a b =>
    show Touch s _ _ x.disk (Session.onDisk (Disk.rename a b) x).2.disk
    rw [onDisk_state]
    exact rename_changes hst a b
  | nextFreeDirectoryEntry =>
    have : (Session.step .nextFreeDirectoryEntry x).2.disk = (Disk.nextFreeDirectoryEntry x.disk).2 := by
      show ((_ >>= _ : M Session Unit) x).2.disk = _
      rcases hnf : Disk.nextFreeDirectoryEntry x.disk with ⟨res, disk'⟩
      cases res with
      | ok e => rw [M.bind_of_ok (onDisk_run hnf)]; rfl
      | error q => rw [M.bind_of_error (onDisk_run hnf)]
    rw [this]
    exact touch_nextFree hst
  | writeDirectoryEntry e =>
    show Touch s _ _ x.disk (Session.onDisk (Disk.writeDirectoryEntry e) x).2.disk
    rw [onDisk_state]
    unfold Disk.writeDirectoryEntry
    rw [onDev_state]
    exact touch_cells (changesOnly_update fun d' hd => (changesOnly_writeEntry hst.wf hd).2) rfl
  | writeSector l data =>
    show Touch s _ _ x.disk (Session.onDisk (Disk.writeSector l data) x).2.disk
    rw [onDisk_state]
    unfold Disk.writeSector
    rw [onDev_state]
    refine touch_cells (changesOnly_update fun d' hd => ?_) rfl
    unfold Device.writeSector at hd
    split at hd
    · cases hd
    · exact (changesOnly_sectorMut hst.wf (KeepLen.copy _) (fun _ _ _ _ _ ha => absurd rfl ha) hd).2
  | sectorMut l data =>
    show Touch s _ _ x.disk (Session.onDisk (Disk.onDev (M.sectorMut l (copyFromSlice data))) x).2.disk
    rw [onDisk_state, onDev_state]
    unfold M.sectorMut
    exact touch_cells (changesOnly_update fun d' hd =>
      (changesOnly_sectorMut hst.wf (KeepLen.copy _) (fun _ _ _ _ _ ha => absurd rfl ha) hd).2) rfl
  | bamAllocate r l =>
    show Touch s _ _ x.disk (Session.onDisk (Disk.withBam r (St.updBam fun b => b.allocate l)) x).2.disk
    rw [onDisk_state]
    cases hc : x.disk.cells[r]? with
    | none => unfold Disk.withBam; rw [hc]; exact touch_refl _
    | some b =>
      rw [withBam_run hc (res := ((St.updBam fun b => b.allocate l) ⟨x.disk.dev, b⟩).1)
        (st := ((St.updBam fun b => b.allocate l) ⟨x.disk.dev, b⟩).2) rfl]
      exact touch_withSt hc (Kept.state (framed_allocate l) (framed_start (G := fun l => isFree b l = true) hst.wf
        (h.cells b (List.mem_of_getElem? hc)) fun _ h => h)) fun _ h => .inl h
  | bamFree r l =>
    show Touch s _ _ x.disk (Session.onDisk (Disk.withBam r (St.updBam fun b => b.free l)) x).2.disk
    rw [onDisk_state]
    cases hc : x.disk.cells[r]? with
    | none => unfold Disk.withBam; rw [hc]; exact touch_refl _
    | some b =>
      rw [withBam_run hc (res := ((St.updBam fun b => b.free l) ⟨x.disk.dev, b⟩).1)
        (st := ((St.updBam fun b => b.free l) ⟨x.disk.dev, b⟩).2) rfl]
      refine touch_withSt hc (Kept.state (framed_free (.inr rfl)) (framed_start
        (G := fun m => isFree b m = true ∨ m = l) hst.wf (h.cells b (List.mem_of_getElem? hc)) fun _ h => .inl h))
        fun m hm => ?_
      rcases hm with hm | hm
      · exact .inl hm
      · exact .inr ⟨rfl, hm⟩
  | bamFlush r =>
    show Touch s _ _ x.disk (Session.onDisk (Disk.withBam r St.flushBam) x).2.disk
    rw [onDisk_state]
    cases hc : x.disk.cells[r]? with
    | none => unfold Disk.withBam; rw [hc]; exact touch_refl _
    | some b =>
      rw [withBam_run hc (res := (St.flushBam ⟨x.disk.dev, b⟩).1) (st := (St.flushBam ⟨x.disk.dev, b⟩).2) rfl]
      exact touch_withSt hc (Kept.state (framed_flushBam fun _ _ h => h) (framed_start
        (G := fun l => isFree b l = true) hst.wf (h.cells b (List.mem_of_getElem? hc)) fun _ h => h)) fun _ h => .inl h

/-- **C85** Take an image with any bytes, open it and make any calls.  Then any call, whether or not it
succeeds, changes only the bytes of the disk that it is about (`Footprint`); the same is true after each of
the sector writes of the call, so also of what is left on the disk when the program is stopped in the middle
of it. -/
theorem C85_changes_only_its_own {ty : DiskType} {image : Image} (hnew : Disk.new ty image = .ok disk) :
    ∃ s : Shape, s.type = ty ∧ ∀ calls : List Call, (∀ c ∈ calls, Plain s c) → ∀ x,
      x = Session.run calls ⟨disk, [], []⟩ →
      ∀ c, ChangesOnly s (Footprint x s c) x.disk.dev (Session.step c x).2.disk.dev := by
  obtain ⟨s, hty, hs⟩ := steady_new hnew
  refine ⟨s, hty, ?_⟩
  rintro calls hcalls x rfl c
  exact (touch_step (steady_run calls hs hcalls) c).only

/-- **C85** And a sector is marked as free after the call, in any of the maps that the program holds, only if
it was so before, or if the call is one that releases it (`Released`). -/
theorem C85_frees_only_its_own {ty : DiskType} {image : Image} (hnew : Disk.new ty image = .ok disk) :
    ∃ s : Shape, s.type = ty ∧ ∀ calls : List Call, (∀ c ∈ calls, Plain s c) → ∀ x,
      x = Session.run calls ⟨disk, [], []⟩ →
      ∀ c r b' l, (Session.step c x).2.disk.cells[r]? = some b' → isFree b' l = true →
        (∃ b, x.disk.cells[r]? = some b ∧ isFree b l = true) ∨ Released x s c r l := by
  obtain ⟨s, hty, hs⟩ := steady_new hnew
  refine ⟨s, hty, ?_⟩
  rintro calls hcalls x rfl c
  exact (touch_step (steady_run calls hs hcalls) c).free

/-- On a D64 with any bytes, after a few calls: writing the map leaves the whole sector 1/0 as it was, and
reading a file changes nothing; neither marks a sector as free. -/
example (bytes : List Byte) (hl : bytes.length = 174848) : ∃ disk, Disk.new .d64 ⟨.memory, bytes⟩ = .ok disk ∧
    ∃ s : Shape, s.type = .d64 ∧ ∀ x, x = Session.run
      [.create [0x41] .PRG .linear, .openFile [0x42], .delete 1, .openWriter 0, .write 0 [1, 2, 3]] ⟨disk, [], []⟩ →
      (∀ j, s.Valid ⟨1, 0⟩ → j < 256 →
        (Session.step (.bamFlush 0) x).2.disk.dev.image.bytes[256 * sectorNumber s.type ⟨1, 0⟩ + j]? =
          x.disk.dev.image.bytes[256 * sectorNumber s.type ⟨1, 0⟩ + j]?) ∧
      (∀ l j, s.Valid l → j < 256 → (Session.step (.openFile [0x41]) x).2.disk.dev.image.bytes[256 *
        sectorNumber s.type l + j]? = x.disk.dev.image.bytes[256 * sectorNumber s.type l + j]?) ∧
      (∀ b' l, (Session.step (.bamFlush 0) x).2.disk.cells[0]? = some b' → isFree b' l = true →
        ∃ b, x.disk.cells[0]? = some b ∧ isFree b l = true) := by
  obtain ⟨disk, hd⟩ := (C05_accepts_exactly .d64 ⟨.memory, bytes⟩).1.2 (by
    show bytes.length ∈ _
    rw [hl]
    decide)
  obtain ⟨s, hty, hs⟩ := steady_new hd
  refine ⟨disk, hd, s, hty, ?_⟩
  rintro x hx
  have h := steady_run [.create [0x41] .PRG .linear, .openFile [0x42], .delete 1, .openWriter 0,
    .write 0 [1, 2, 3]] hs (by
    intro c hc
    simp only [List.mem_cons, List.not_mem_nil, or_false] at hc
    rcases hc with rfl | rfl | rfl | rfl | rfl <;> exact trivial)
  rw [← hx] at h
  refine ⟨fun j hv hj => ?_, fun l j hv hj => ?_, fun b' l h1 h2 => ?_⟩
  · exact ((touch_step h (.bamFlush 0)).only.last).2.1 ⟨1, 0⟩ j hv hj (by
      show ¬ bamArea s.type ⟨1, 0⟩ j
      rw [hty]
      rintro h
      exact absurd h (by simp [bamArea]))
  · exact ((touch_step h (.openFile [0x41])).only.last).2.1 l j hv hj id
  · exact ((touch_step h (.bamFlush 0)).free 0 b' l h1 h2).resolve_right id

end Cbm
