import Verif.Lemmas.Safe
/-!
# What every call keeps of the BAM objects ever handed out
-/

namespace Cbm
open Spec Keeps

variable {α : Type} {ty : DiskType} {n : Nat}

/-- Every BAM ever handed out has the right number of entries, and there are at least `n` of them. -/
structure Cells (ty : DiskType) (n : Nat) (disk : Disk) : Prop where
  native : disk.native = ty.format
  size : ∀ b ∈ disk.cells, BamSize b ty
  many : n ≤ disk.cells.length

/-- It stays so. -/
def StaysCells (ty : DiskType) (n : Nat) (disk disk' : Disk) : Prop := Cells ty n disk → Cells ty n disk'

instance : Pre (StaysCells ty n) where
  refl _ h := h
  trans h1 h2 h := h2 (h1 h)

/-- A BAM keeps its size. -/
def StaysSize (ty : DiskType) (b b' : Bam) : Prop := BamSize b ty → BamSize b' ty

instance : BamRel (StaysSize ty) where
  refl _ h := h
  trans h1 h2 h := h2 (h1 h)
  allocate h hb := modifyEntry_size h hb
  free h hb := modifyEntry_size h hb

theorem mem_set_of {b : Bam} : ∀ {xs : List Bam} {i : Nat} {c : Bam}, b ∈ xs.set i c → b ∈ xs ∨ b = c
  | [], _, _, h => by cases h
  | x :: xs, 0, c, h => by
    rcases List.mem_cons.1 h with h | h
    · exact .inr h
    · exact .inl (List.mem_cons_of_mem _ h)
  | x :: xs, i + 1, c, h => by
    rcases List.mem_cons.1 h with rfl | h
    · exact .inl (by simp)
    · rcases mem_set_of h with h | h
      · exact .inl (List.mem_cons_of_mem _ h)
      · exact .inr h

theorem cells_set {disk : Disk} {ref : Nat} {c c' : Bam} {d : Device} (h : Cells ty n disk)
    (hc : disk.cells[ref]? = some c) (hs : StaysSize ty c c') :
    Cells ty n { disk with dev := d, cells := disk.cells.set ref c' } := by
  refine ⟨h.native, fun b hb => ?_, by simpa using h.many⟩
  rcases mem_set_of hb with hb | rfl
  · exact h.size b hb
  · exact hs (h.size c (List.mem_of_getElem? hc))

theorem cells_onDev (m : M Device α) : Keeps (StaysCells ty n) (fun d => d) (Disk.onDev m) :=
  fun _ h => ⟨h.native, h.size, h.many⟩

theorem cells_withBam {m : M St α} (hm : Keeps (StaysSize ty) St.bam m) (ref : Nat) :
    Keeps (StaysCells ty n) (fun d => d) (Disk.withBam ref m) := by
  intro disk h
  unfold Disk.withBam
  split
  · exact h
  · rename_i c hc
    exact cells_set h hc (hm ⟨disk.dev, c⟩)

theorem cells_setBam {disk : Disk} (h : Cells ty n disk) (new : Option Bam)
    (hn : ∀ b, new = some b → BamSize b ty) : Cells ty n (disk.setBam new) := by
  unfold Disk.setBam
  split
  · rename_i b ref hr
    refine ⟨h.native, fun c hc => ?_, by simpa using h.many⟩
    rcases mem_set_of hc with hc | rfl
    · exact h.size c hc
    · exact hn _ rfl
  · rename_i b hb
    refine ⟨h.native, fun c hc => ?_, ?_⟩
    · rcases List.mem_append.1 hc with hc | hc
      · exact h.size c hc
      · rw [List.mem_singleton.1 hc]; exact hn b rfl
    · have := h.many
      simp only [List.length_append]
      omega
  · rename_i ref hr
    cases hc : disk.cells[ref]? with
    | none => exact ⟨h.native, h.size, h.many⟩
    | some c =>
      refine ⟨h.native, fun b hb => ?_, by simpa using h.many⟩
      rcases mem_set_of hb with hb | rfl
      · exact h.size b hb
      · have := h.size c (List.mem_of_getElem? hc)
        exact ⟨this.format, this.length⟩
  · exact h

theorem cells_initialize {disk disk' : Disk} (h : disk.initialize = .ok disk') :
    StaysCells ty n disk disk' := by
  intro hf
  unfold Disk.initialize at h
  obtain ⟨hd, -, h⟩ := res_bind_eq_ok.1 h
  cases hd with
  | none =>
    cases h
    have := cells_setBam hf none nofun
    exact ⟨this.native, this.size, this.many⟩
  | some hdr =>
    simp only at h
    obtain ⟨ob, hob, h⟩ := res_bind_eq_ok.1 h
    cases h
    have hfor : ∃ g, formatFor disk.native hdr = { ty.format with geos := g } := by
      rw [hf.native]
      unfold formatFor
      split
      · exact ⟨true, rfl⟩
      · exact ⟨ty.format.geos, rfl⟩
    obtain ⟨g, hg⟩ := hfor
    rw [hg]
    have := cells_setBam hf (ob.map fun b => { b with format := { ty.format with geos := g } }) (by
      intro b hb
      cases ob with
      | none => cases hb
      | some c =>
        cases hb
        refine (bamRead_of (d := disk.dev) ?_ g).size
        rw [← hf.native]
        cases hr : Bam.read disk.dev disk.native with
        | ok c' => rw [hr] at hob; cases hob; rfl
        | error q =>
          rw [hr] at hob
          cases q <;> cases hob)
    exact ⟨this.native, this.size, this.many⟩

theorem cells_writeFormat (name : Petscii) (id : Byte × Byte) :
    Keeps (StaysCells ty n) (fun d => d) (Disk.writeFormat name id) := by
  intro disk hf
  obtain ⟨b, hb, hc, -, -⟩ := initialBam_ok ty
  have key : ∀ fmt : DiskFormat, fmt = ty.format → Keeps (StaysCells ty n) (fun d => d) (do
      let locs ← M.lift (formatLocations fmt disk.dev.geometry)
      Disk.onDev (M.forEach locs fun l => M.sectorMut l zeroBlock)
      Disk.onDev (M.sectorMut fmt.firstDirectoryLocation fun b => .ok (splice b 0 [0x00, 0xFF]))
      Disk.onDev ((Header.new fmt name id).write fmt.header)
      M.modify fun disk => { disk with header := some (Header.new fmt name id) }
      let bam ← M.lift (initialBam fmt)
      Disk.onDev bam.flush
      M.modify fun disk => disk.setBam (some bam)
      M.read fun disk => disk.dev.flush
      M.update Disk.initialize : M Disk Unit) := by
    intro fmt hfmt
    refine bind (lift _) fun _ => bind (cells_onDev _) fun _ => bind (cells_onDev _) fun _ =>
      bind (cells_onDev _) fun _ => bind (modify' fun _ h => ⟨h.native, h.size, h.many⟩) fun _ => ?_
    rw [hfmt, hb]
    have hset : ∀ d : Disk, Cells ty n d → Cells ty n (d.setBam (some b)) := fun d h =>
      cells_setBam h _ fun c hc' => Option.some.inj hc' ▸ hc.toBamOf.size
    show Keeps (StaysCells ty n) (fun d => d) (do
      Disk.onDev b.flush
      M.modify fun disk => disk.setBam (some b)
      M.read fun disk => disk.dev.flush
      M.update Disk.initialize)
    exact bind (cells_onDev _) fun _ => bind (modify' fun d h => hset d h) fun _ => bind (read _) fun _ => update fun _ _ h => cells_initialize h
  exact key disk.native hf.native disk hf

theorem cells_nextFree : Keeps (StaysCells ty n) (fun d => d) Disk.nextFreeDirectoryEntry := by
  unfold Disk.nextFreeDirectoryEntry
  refine bind get fun _ => bind (lift _) fun _ => bind (lift _) fun a => ?_
  split
  · exact pure _
  · exact bind (lift _) fun _ => cells_withBam (bkeep_extendDirectory _) _

theorem cells_createFile (name : Petscii) (type : FileType) (scheme : Scheme) :
    Keeps (StaysCells ty n) (fun d => d) (Disk.createFile name type scheme) :=
  ite (throw _) (bind (lift _) fun _ => bind (read _) fun _ => bind cells_nextFree fun _ =>
    bind (read _) fun _ => bind (cells_withBam (bkeep_createIn _ _ _) _) fun _ => bind (read _) fun _ =>
    pure _)

theorem cells_onDisk {m : M Disk α} (h : Keeps (StaysCells ty n) (fun d => d) m) :
    Keeps (StaysCells ty n) Session.disk (Session.onDisk m) :=
  zoom h (fun _ => rfl) (fun _ _ => rfl)

theorem cells_onWriter {m : M WSt α} (hm : Keeps (StaysSize ty) WSt.bam m) (i : Nat) :
    Keeps (StaysCells ty n) Session.disk (Session.onWriter i m) := by
  intro s h
  unfold Session.onWriter
  split
  · exact h
  · rename_i w ref hw
    split
    · exact h
    · rename_i c hc
      exact cells_set h hc (hm ⟨w, s.disk.dev, c⟩)

theorem cells_onFile {m : M FSt α} (hm : Keeps (StaysSize ty) FSt.bam m) (i : Nat) :
    Keeps (StaysCells ty n) Session.disk (Session.onFile i m) := by
  intro s h
  unfold Session.onFile
  split
  · exact h
  · rename_i w ref hw
    split
    · exact h
    · rename_i c hc
      exact cells_set h hc (hm ⟨w, s.disk.dev, c⟩)

theorem cells_step (c : Call) (hc : Installs c = false) :
    Keeps (StaysCells ty n) Session.disk (Session.step c) := by
  cases c with
  | init => exact cells_onDisk (update fun _ _ h => cells_initialize h)
  | format => exact cells_onDisk (cells_writeFormat _ _)
  | setHeader => exact cells_onDisk (modify' fun _ h => ⟨h.native, h.size, h.many⟩)
  | setFormat f =>
    cases f with
    | none => exact cells_onDisk (modify' fun _ h => ⟨h.native, h.size, h.many⟩)
    | some f => cases hc
  | setBam b =>
    cases b with
    | none => exact cells_onDisk (modify' fun _ h => cells_setBam h _ nofun)
    | some b => cases hc
  | flushHeader => exact cells_onDisk (bind (read _) fun _ => bind get fun _ => cells_onDev _)
  | create => exact bind (cells_onDisk (cells_createFile _ _ _)) fun _ => modify fun _ => rfl
  | openFile => exact bind (read _) fun _ => modify fun _ => rfl
  | openEntry => exact bind (read _) fun _ => modify fun _ => rfl
  | openWriter => exact bind (read _) fun _ => bind (read _) fun _ => modify fun _ => rfl
  | write => exact bind (cells_onWriter (bkeep_write _) _) fun _ => pure _
  | flush => exact cells_onWriter bkeep_flush _
  | drop i => exact fun s => cells_onWriter bkeep_flush i s
  | delete => exact cells_onFile bkeep_delete _
  | rename => exact cells_onDisk (bind (read _) fun _ => bind (lift _) fun _ => bind (read _) fun _ =>
      cells_onDev _)
  | nextFreeDirectoryEntry => exact bind (cells_onDisk cells_nextFree) fun _ => pure _
  | writeDirectoryEntry => exact cells_onDisk (cells_onDev _)
  | writeSector => exact cells_onDisk (cells_onDev _)
  | sectorMut => exact cells_onDisk (cells_onDev _)
  | bamAllocate => exact cells_onDisk (cells_withBam (bkeep_allocate _) _)
  | bamFree => exact cells_onDisk (cells_withBam (bkeep_free _) _)
  | bamFlush => exact cells_onDisk (cells_withBam bkeep_flushBam _)

end Cbm
