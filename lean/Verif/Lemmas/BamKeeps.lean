import Verif.Lemmas.Keeps
/-!
# What no operation does to a BAM in memory

A relation that holds for `allocate` and `free` holds for every operation of a handle.
-/

namespace Cbm

open Keeps

variable {α : Type}

/-- A relation that holds for every single change of a BAM. -/
class BamRel (R : Bam → Bam → Prop) : Prop extends Pre R where
  allocate : ∀ {b b' : Bam} {l : Location}, b.allocate l = .ok b' → R b b'
  free : ∀ {b b' : Bam} {l : Location}, b.free l = .ok b' → R b b'

variable {R : Bam → Bam → Prop} [BamRel R]

theorem bkeep_onDev (m : M Device α) : Keeps R St.bam (St.onDev m) := fun _ => Pre.refl _

theorem bkeep_flushBam : Keeps R St.bam St.flushBam := bind get fun _ => bkeep_onDev _

theorem bkeep_updDev (f : Device → Res Device) : Keeps R St.bam (St.updDev f) :=
  update fun s s' h => by
    rw [res_bind_eq_ok] at h
    obtain ⟨b, _, h⟩ := h
    cases h
    exact Pre.refl _

theorem bkeep_allocate (l : Location) : Keeps R St.bam (St.updBam fun b => b.allocate l) :=
  update fun s s' h => by
    rw [res_bind_eq_ok] at h
    obtain ⟨b, hb, h⟩ := h
    cases h
    exact BamRel.allocate hb

theorem bkeep_free (l : Location) : Keeps R St.bam (St.updBam fun b => b.free l) :=
  update fun s s' h => by
    rw [res_bind_eq_ok] at h
    obtain ⟨b, hb, h⟩ := h
    cases h
    exact BamRel.free hb

theorem bkeep_removeChain (start : Location) : Keeps R St.bam (removeChain start) :=
  bind (read _) fun _ => bind (forEach (fun _ => bkeep_free _) _) fun _ => bkeep_flushBam

theorem bkeep_extendDirectory (last : Location) : Keeps R St.bam (extendDirectory last) :=
  bind (read _) fun _ => bind (bkeep_updDev _) fun _ => bind (read _) fun _ =>
    bind (lift _) fun _ => bind (bkeep_allocate _) fun _ => bind (bkeep_updDev _) fun _ => pure _

theorem bkeep_writeNewEntry (e : DirectoryEntry) (first : Location) :
    Keeps R St.bam (writeNewEntry e first) := by
  intro s
  unfold writeNewEntry
  have h1 := bkeep_updDev (R := R) (fun d => d.writeEntry e) s
  cases hc : St.updDev (fun d => d.writeEntry e) s with
  | mk r s' =>
    rw [hc] at h1
    simp only at h1
    cases r with
    | ok u => exact h1
    | error er =>
      cases er with
      | err er =>
        simp only
        have h2 := bkeep_free (R := R) first s'
        cases hc2 : St.updBam (fun b => b.free first) s' with
        | mk r2 s'' =>
          rw [hc2] at h2
          cases r2 <;> exact Pre.trans h1 h2
      | panic => exact h1
      | diverge => exact h1

theorem bkeep_createIn (slot : DirectoryEntry) (name : Petscii) (type : FileType) :
    Keeps R St.bam (createIn slot name type) :=
  bind (read _) fun _ => bind (bkeep_allocate _) fun _ =>
    bind (bkeep_updDev _) fun _ => bind (bkeep_writeNewEntry _ _) fun _ => pure _

/-! ## Writers -/

abbrev WSt.bam (x : WSt) : Bam := x.st.bam

omit [BamRel R] in
theorem bkeep_onSt {m : M St α} (h : Keeps R St.bam m) : Keeps R WSt.bam (ChainWriter.onSt m) :=
  zoom h (fun _ => rfl) (fun _ _ => rfl)

theorem bkeep_modW (f : ChainWriter → ChainWriter) : Keeps R WSt.bam (ChainWriter.modW f) :=
  modify fun _ => rfl

theorem bkeep_increment : Keeps R WSt.bam ChainWriter.incrementEntryBlocks :=
  bind (read _) fun _ => bind (bkeep_modW _) fun _ =>
    ite (bind (bkeep_modW _) fun _ => bkeep_onSt (bkeep_updDev _)) (throw _)

theorem bkeep_writeCurrentBlock : Keeps R WSt.bam ChainWriter.writeCurrentBlock :=
  bind get fun _ => bkeep_onSt (bkeep_updDev _)

theorem bkeep_linkTo (next : Location) : Keeps R WSt.bam (ChainWriter.linkTo next) := by
  intro x
  unfold ChainWriter.linkTo
  have h1 := bkeep_onSt (R := R)
    (bkeep_updDev fun d => d.sectorMut x.w.location (ChainWriter.writeLocation next)) x
  cases hc : ChainWriter.onSt (St.updDev fun d =>
      d.sectorMut x.w.location (ChainWriter.writeLocation next)) x with
  | mk r x' =>
    rw [hc] at h1
    simp only at h1
    cases r with
    | ok u => exact h1
    | error er =>
      cases er with
      | err er =>
        simp only
        have h2 := bkeep_onSt (R := R) (bkeep_free next) x'
        cases hc2 : ChainWriter.onSt (St.updBam (fun b => b.free next)) x' with
        | mk r2 s'' =>
          rw [hc2] at h2
          cases r2 <;> exact Pre.trans h1 h2
      | panic => exact h1
      | diverge => exact h1

theorem bkeep_allocateNextBlock : Keeps R WSt.bam ChainWriter.allocateNextBlock :=
  bind bkeep_writeCurrentBlock fun _ => bind (read _) fun _ => bind get fun _ => bind (lift _) fun _ =>
    bind (bkeep_modW _) fun _ => bind (bkeep_onSt (bkeep_updDev _)) fun _ =>
    bind (bkeep_onSt (bkeep_allocate _)) fun _ => bind bkeep_increment fun _ =>
    bind (bkeep_linkTo _) fun _ => bind (bkeep_modW _) fun _ => pure _

theorem bkeep_room : Keeps R WSt.bam ChainWriter.room := by
  unfold ChainWriter.room
  refine bind get fun _ => bind (lift _) fun a => ?_
  split
  · exact throw _
  · exact ite (bind bkeep_allocateNextBlock fun _ => pure _) (pure _)

theorem bkeep_writeLoop : ∀ (fuel : Nat) (bs : List Byte),
    Keeps R WSt.bam (ChainWriter.writeLoop fuel bs)
  | _, [] => by unfold ChainWriter.writeLoop; exact pure _
  | 0, _ :: _ => by unfold ChainWriter.writeLoop; exact throw _
  | fuel + 1, b :: bs => by
    unfold ChainWriter.writeLoop
    exact bind bkeep_room fun _ => bind get fun _ => bind (lift _) fun _ => bind (bkeep_modW _) fun _ =>
      bkeep_writeLoop fuel _

theorem bkeep_write (buf : List Byte) : Keeps R WSt.bam (ChainWriter.write buf) :=
  bind (bkeep_modW _) fun _ => bind (bkeep_writeLoop _ _) fun _ => pure _

theorem bkeep_flush : Keeps R WSt.bam ChainWriter.flush :=
  bind get fun _ => ite
    (bind bkeep_writeCurrentBlock fun _ => bind (bkeep_onSt bkeep_flushBam) fun _ =>
      bind (read _) fun _ => bkeep_modW _) (pure _)

/-! ## Files -/

abbrev FSt.bam (x : FSt) : Bam := x.st.bam

theorem bkeep_freeBlocks (f : File) : Keeps R St.bam f.freeBlocks := by
  have geos : ∀ f : GEOSFile, Keeps R St.bam (do
      removeChain f.entry.firstSector
      match ← M.lift f.entry.infoLocation with
      | some l => St.updBam fun b => b.free l
      | none => Pure.pure ()
      match f.vlir with
      | some records => M.forEach (records.filterMap id) removeChain
      | none => Pure.pure () : M St Unit) := by
    intro f
    refine bind (bkeep_removeChain _) fun _ => bind (lift _) fun a => ?_
    cases a <;> cases f.vlir <;> simp only []
    · exact pure _
    · exact forEach (fun _ => bkeep_removeChain _) _
    · exact bind (bkeep_free _) fun _ => pure _
    · exact bind (bkeep_free _) fun _ => forEach (fun _ => bkeep_removeChain _) _
  cases f with
  | linear e => exact bkeep_removeChain _
  | relative f => exact bind (bkeep_removeChain _) fun _ => forEach (fun _ => bkeep_free _) _
  | geosSequential f => exact geos f
  | geosVLIR f => exact geos f

theorem bkeep_delete : Keeps R FSt.bam File.delete :=
  bind get fun _ => bind (zoom (bkeep_freeBlocks _) (fun _ => rfl) (fun _ _ => rfl)) fun _ =>
    bind (modify fun _ => rfl) fun _ =>
      zoom (bkeep_updDev _) (fun _ => rfl) (fun _ _ => rfl)

/-! ## An invalidated BAM never changes -/

/-- An invalidated BAM stays as it is. -/
def Frozen (b b' : Bam) : Prop := b.invalidated = true → b' = b

theorem modifyEntry_frozen {b b' : Bam} {t : Nat} {f : BamEntry → Res BamEntry}
    (h : b.modifyEntry t f = .ok b') (hb : b.invalidated = true) : b' = b := by
  unfold Bam.modifyEntry Bam.checkValidity at h
  rw [if_pos hb] at h
  cases h

instance : BamRel Frozen where
  refl _ _ := rfl
  trans h1 h2 h := by
    have h3 := h1 h
    subst h3
    exact h2 h
  allocate h hb := modifyEntry_frozen h hb
  free h hb := modifyEntry_frozen h hb

/-- Cell `r` is invalidated and the disk does not use it. -/
def Fenced (r : Nat) (b : Bam) (disk : Disk) : Prop :=
  disk.bam ≠ some r ∧ disk.cells[r]? = some b ∧ b.invalidated = true

/-- Once a cell is fenced off it stays so. -/
def StaysFenced (disk disk' : Disk) : Prop := ∀ r b, Fenced r b disk → Fenced r b disk'

instance : Pre StaysFenced where
  refl _ _ _ h := h
  trans h1 h2 r b h := h2 r b (h1 r b h)

theorem fenced_set {disk : Disk} {r ref : Nat} {b c c' : Bam} {d : Device} (h : Fenced r b disk)
    (hc : disk.cells[ref]? = some c) (hf : Frozen c c') :
    Fenced r b { disk with dev := d, cells := disk.cells.set ref c' } := by
  obtain ⟨h1, h2, h3⟩ := h
  refine ⟨h1, ?_, h3⟩
  show (disk.cells.set ref c')[r]? = some b
  rw [List.getElem?_set]
  split
  · rename_i he
    subst he
    rw [h2] at hc
    cases hc
    have hlt : ref < disk.cells.length := by
      rcases Nat.lt_or_ge ref disk.cells.length with hlt | hge
      · exact hlt
      · rw [List.getElem?_eq_none hge] at h2; cases h2
    rw [if_pos hlt, hf h3]
  · exact h2

theorem fence_onDev (m : M Device α) : Keeps StaysFenced id (Disk.onDev m) := fun _ _ _ h => h

theorem fence_withBam {m : M St α} (hm : Keeps Frozen St.bam m) (ref : Nat) :
    Keeps StaysFenced id (Disk.withBam ref m) := by
  intro disk r b h
  unfold Disk.withBam
  split
  · exact h
  · rename_i c hc
    exact fenced_set h hc (hm ⟨disk.dev, c⟩)

theorem fence_setBam (disk : Disk) (b : Option Bam) : StaysFenced disk (disk.setBam b) := by
  intro r c h
  unfold Disk.setBam
  split
  · rename_i b ref hb
    obtain ⟨h1, h2, h3⟩ := h
    refine ⟨h1, ?_, h3⟩
    show (disk.cells.set ref b)[r]? = some c
    rw [List.getElem?_set, if_neg]
    · exact h2
    · rintro rfl
      exact h1 hb
  · rename_i b hb
    obtain ⟨h1, h2, h3⟩ := h
    have hlt : r < disk.cells.length := by
      rcases Nat.lt_or_ge r disk.cells.length with hlt | hge
      · exact hlt
      · rw [List.getElem?_eq_none hge] at h2; cases h2
    refine ⟨?_, ?_, h3⟩
    · show some disk.cells.length ≠ some r
      intro he
      cases he
      omega
    · show (disk.cells ++ [b])[r]? = some c
      rw [List.getElem?_append_left hlt]
      exact h2
  · rename_i ref hb
    obtain ⟨h1, h2, h3⟩ := h
    refine ⟨by simp, ?_, h3⟩
    cases hc : disk.cells[ref]? with
    | none => exact h2
    | some q =>
      simp only []
      rw [List.getElem?_set, if_neg]
      · exact h2
      · rintro rfl
        exact h1 hb
  · exact h

theorem fence_initialize {disk disk' : Disk} (h : disk.initialize = .ok disk') :
    StaysFenced disk disk' := by
  unfold Disk.initialize at h
  rw [res_bind_eq_ok] at h
  obtain ⟨hd, _, h⟩ := h
  split at h
  · cases h
    exact fence_setBam disk none
  · rw [res_bind_eq_ok] at h
    obtain ⟨b, _, h⟩ := h
    cases h
    exact fence_setBam disk _

theorem fence_writeFormat (name : Petscii) (id : Byte × Byte) :
    Keeps StaysFenced (fun d => d) (Disk.writeFormat name id) :=
  bind get fun _ => bind (lift _) fun _ => bind (fence_onDev _) fun _ => bind (fence_onDev _) fun _ =>
    bind (fence_onDev _) fun _ => bind (modify' fun _ _ _ h => h) fun _ => bind (lift _) fun _ =>
    bind (fence_onDev _) fun _ => bind (modify' fun _ => fence_setBam _ _) fun _ => bind (read _) fun _ =>
    update fun _ _ h => fence_initialize h

theorem fence_nextFree : Keeps StaysFenced (fun d => d) Disk.nextFreeDirectoryEntry := by
  unfold Disk.nextFreeDirectoryEntry
  refine bind get fun _ => bind (lift _) fun _ => bind (lift _) fun a => ?_
  split
  · exact pure _
  · exact bind (lift _) fun _ => fence_withBam (bkeep_extendDirectory _) _

theorem fence_createFile (name : Petscii) (type : FileType) (scheme : Scheme) :
    Keeps StaysFenced (fun d => d) (Disk.createFile name type scheme) :=
  ite (throw _) (bind (lift _) fun _ => bind (read _) fun _ => bind fence_nextFree fun _ =>
    bind (read _) fun _ => bind (fence_withBam (bkeep_createIn _ _ _) _) fun _ => bind (read _) fun _ =>
    pure _)

theorem fence_onDisk {m : M Disk α} (h : Keeps StaysFenced (fun d => d) m) :
    Keeps StaysFenced Session.disk (Session.onDisk m) :=
  zoom h (fun _ => rfl) (fun _ _ => rfl)

theorem fence_onWriter {m : M WSt α} (hm : Keeps Frozen WSt.bam m) (i : Nat) :
    Keeps StaysFenced Session.disk (Session.onWriter i m) := by
  intro s r b h
  unfold Session.onWriter
  split
  · exact h
  · rename_i w ref hw
    split
    · exact h
    · rename_i c hc
      exact fenced_set h hc (hm ⟨w, s.disk.dev, c⟩)

theorem fence_onFile {m : M FSt α} (hm : Keeps Frozen FSt.bam m) (i : Nat) :
    Keeps StaysFenced Session.disk (Session.onFile i m) := by
  intro s r b h
  unfold Session.onFile
  split
  · exact h
  · rename_i w ref hw
    split
    · exact h
    · rename_i c hc
      exact fenced_set h hc (hm ⟨w, s.disk.dev, c⟩)

theorem fence_step (c : Call) : Keeps StaysFenced Session.disk (Session.step c) := by
  cases c with
  | init => exact fence_onDisk (update fun _ _ h => fence_initialize h)
  | format => exact fence_onDisk (fence_writeFormat _ _)
  | setHeader => exact fence_onDisk (modify' fun _ _ _ h => h)
  | setFormat => exact fence_onDisk (modify' fun _ _ _ h => h)
  | setBam => exact fence_onDisk (modify' fun _ => fence_setBam _ _)
  | flushHeader => exact fence_onDisk (bind (read _) fun _ => bind get fun _ => fence_onDev _)
  | create => exact bind (fence_onDisk (fence_createFile _ _ _)) fun _ => modify fun _ => rfl
  | openFile => exact bind (read _) fun _ => modify fun _ => rfl
  | openEntry => exact bind (read _) fun _ => modify fun _ => rfl
  | openWriter => exact bind (read _) fun _ => bind (read _) fun _ => modify fun _ => rfl
  | write => exact bind (fence_onWriter (bkeep_write _) _) fun _ => pure _
  | flush => exact fence_onWriter bkeep_flush _
  | drop i => exact fun s => fence_onWriter bkeep_flush i s
  | delete => exact fence_onFile bkeep_delete _
  | rename => exact fence_onDisk (bind (read _) fun _ => bind (lift _) fun _ => bind (read _) fun _ =>
      fence_onDev _)
  | nextFreeDirectoryEntry => exact bind (fence_onDisk fence_nextFree) fun _ => pure _
  | writeDirectoryEntry => exact fence_onDisk (fence_onDev _)
  | writeSector => exact fence_onDisk (fence_onDev _)
  | sectorMut => exact fence_onDisk (fence_onDev _)
  | bamAllocate => exact fence_onDisk (fence_withBam (bkeep_allocate _) _)
  | bamFree => exact fence_onDisk (fence_withBam (bkeep_free _) _)
  | bamFlush => exact fence_onDisk (fence_withBam bkeep_flushBam _)

theorem fence_run : ∀ (calls : List Call) (s : Session),
    StaysFenced s.disk (Session.run calls s).disk
  | [], _ => Pre.refl _
  | c :: cs, s => Pre.trans (fence_step c s) (fence_run cs _)

end Cbm
