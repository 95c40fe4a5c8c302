import Verif.Lemmas.BamKeeps
import Verif.Lemmas.Format
import Verif.Lemmas.Open
import Verif.Spec.Robust
/-!
# What every call keeps of the format and the BAM of a disk
-/

namespace Cbm
open Spec Keeps

variable {α : Type} {ty : DiskType}

/-- The format is the one of the type, and the BAM has the right number of entries. -/
structure Formed (ty : DiskType) (disk : Disk) : Prop where
  native : disk.native = ty.format
  format : ∀ f, disk.format = some f → ∃ g, f = { ty.format with geos := g }
  bam : ∀ r, disk.bam = some r → ∃ b, disk.cells[r]? = some b ∧ BamOf b ty

/-- It stays so. -/
def StaysFormed (ty : DiskType) (disk disk' : Disk) : Prop := Formed ty disk → Formed ty disk'

instance : Pre (StaysFormed ty) where
  refl _ h := h
  trans h1 h2 h := h2 (h1 h)

/-- A BAM keeps its size. -/
def StaysBam (ty : DiskType) (b b' : Bam) : Prop := BamOf b ty → BamOf b' ty

theorem modifyEntry_stays {b b' : Bam} {t : Nat} {f : BamEntry → Res BamEntry}
    (h : b.modifyEntry t f = .ok b') : StaysBam ty b b' := by
  intro hb
  unfold Bam.modifyEntry at h
  obtain ⟨_, -, h⟩ := res_bind_eq_ok.1 h
  obtain ⟨_, -, h⟩ := res_bind_eq_ok.1 h
  obtain ⟨_, -, h⟩ := res_bind_eq_ok.1 h
  obtain ⟨_, -, h⟩ := res_bind_eq_ok.1 h
  cases h
  exact ⟨hb.format, by simp [hb.length], hb.live⟩

instance : BamRel (StaysBam ty) where
  refl _ h := h
  trans h1 h2 h := h2 (h1 h)
  allocate h := modifyEntry_stays h
  free h := modifyEntry_stays h

theorem formed_set {disk : Disk} {ref : Nat} {c c' : Bam} {d : Device} (h : Formed ty disk)
    (hc : disk.cells[ref]? = some c) (hs : StaysBam ty c c') :
    Formed ty { disk with dev := d, cells := disk.cells.set ref c' } := by
  refine ⟨h.native, h.format, fun r hr => ?_⟩
  obtain ⟨b, hb, ho⟩ := h.bam r hr
  show ∃ b, (disk.cells.set ref c')[r]? = some b ∧ _
  rw [List.getElem?_set]
  split
  · rename_i he
    subst he
    rw [hb] at hc
    cases hc
    have hlt : ref < disk.cells.length := by
      rcases Nat.lt_or_ge ref disk.cells.length with hlt | hge
      · exact hlt
      · rw [List.getElem?_eq_none hge] at hb; cases hb
    rw [if_pos hlt]
    exact ⟨c', rfl, hs ho⟩
  · exact ⟨b, hb, ho⟩

theorem form_onDev (m : M Device α) : Keeps (StaysFormed ty) (fun d => d) (Disk.onDev m) :=
  fun _ h => ⟨h.native, h.format, h.bam⟩

theorem form_withBam {m : M St α} (hm : Keeps (StaysBam ty) St.bam m) (ref : Nat) :
    Keeps (StaysFormed ty) (fun d => d) (Disk.withBam ref m) := by
  intro disk h
  unfold Disk.withBam
  split
  · exact h
  · rename_i c hc
    exact formed_set h hc (hm ⟨disk.dev, c⟩)

theorem form_setBam {disk : Disk} (h : Formed ty disk) (new : Option Bam)
    (hn : ∀ b, new = some b → BamOf b ty) : Formed ty (disk.setBam new) := by
  unfold Disk.setBam
  split
  · rename_i b ref hr
    refine ⟨h.native, h.format, fun r hr' => ?_⟩
    have hrr : ref = r := Option.some.inj (hr.symm.trans hr')
    subst hrr
    obtain ⟨c, hc, -⟩ := h.bam _ hr
    have hlt : ref < disk.cells.length := by
      rcases Nat.lt_or_ge ref disk.cells.length with hlt | hge
      · exact hlt
      · rw [List.getElem?_eq_none hge] at hc; cases hc
    exact ⟨b, by simp [hlt], hn b rfl⟩
  · rename_i b hb
    refine ⟨h.native, h.format, fun r hr' => ?_⟩
    cases hr'
    exact ⟨b, by simp, hn b rfl⟩
  · exact ⟨h.native, h.format, nofun⟩
  · exact h

theorem mapRes_length {β γ : Type} {f : β → Res γ} : ∀ {xs : List β} {ys : List γ}, mapRes f xs = .ok ys →
    ys.length = xs.length
  | [], _, h => by cases h; rfl
  | x :: xs, _, h => by
    unfold mapRes at h
    obtain ⟨y, -, h⟩ := res_bind_eq_ok.1 h
    obtain ⟨ys, hys, h⟩ := res_bind_eq_ok.1 h
    cases h
    rw [List.length_cons, List.length_cons, mapRes_length hys]

theorem readParts_length {d : Device} : ∀ {secs : List BamSection} {parts : List (List BamEntry)},
    mapRes (readSection d) secs = .ok parts → parts.flatten.length = (secs.map BamSection.tracks).sum
  | [], _, h => by cases h; rfl
  | sec :: secs, _, h => by
    unfold mapRes at h
    obtain ⟨y, hy, h⟩ := res_bind_eq_ok.1 h
    obtain ⟨ys, hys, h⟩ := res_bind_eq_ok.1 h
    cases h
    rw [List.flatten_cons, List.length_append, readParts_length hys, List.map_cons, List.sum_cons]
    congr 1
    unfold readSection at hy
    obtain ⟨_, -, hy⟩ := res_bind_eq_ok.1 hy
    simp only at hy
    split at hy
    · obtain ⟨_, -, hy⟩ := res_bind_eq_ok.1 hy
      rw [mapRes_length hy, List.length_range]
    · obtain ⟨_, -, hy⟩ := res_bind_eq_ok.1 hy
      rw [mapRes_length hy, List.length_range]

theorem bamRead_of {d : Device} {b : Bam} (h : Bam.read d ty.format = .ok b) (g : Bool) :
    BamOf { b with format := { ty.format with geos := g } } ty := by
  unfold Bam.read at h
  obtain ⟨parts, hp, h⟩ := res_bind_eq_ok.1 h
  cases h
  refine ⟨rfl, ?_, rfl⟩
  show parts.flatten.length = bamTracks ty
  rw [readParts_length hp]
  cases ty <;> decide

theorem form_initialize {disk disk' : Disk} (h : disk.initialize = .ok disk') :
    StaysFormed ty disk disk' := by
  intro hf
  unfold Disk.initialize at h
  obtain ⟨hd, -, h⟩ := res_bind_eq_ok.1 h
  cases hd with
  | none =>
    cases h
    have := form_setBam hf none nofun
    exact ⟨this.native, nofun, this.bam⟩
  | some hdr =>
    simp only at h
    obtain ⟨ob, hob, h⟩ := res_bind_eq_ok.1 h
    cases h
    have hfor : ∃ g, formatFor disk.native hdr = { ty.format with geos := g } := by
      rw [hf.native]
      unfold formatFor
      split
      · exact ⟨true, rfl⟩
      · exact ⟨ty.format.geos, rfl⟩
    obtain ⟨g, hg⟩ := hfor
    rw [hg]
    have := form_setBam hf (ob.map fun b => { b with format := { ty.format with geos := g } }) (by
      intro b hb
      cases ob with
      | none => cases hb
      | some c =>
        cases hb
        refine bamRead_of (d := disk.dev) ?_ g
        rw [← hf.native]
        cases hr : Bam.read disk.dev disk.native with
        | ok c' => rw [hr] at hob; cases hob; rfl
        | error q =>
          rw [hr] at hob
          cases q <;> cases hob)
    exact ⟨this.native, fun f hf' => by cases hf'; exact ⟨g, rfl⟩, this.bam⟩

theorem form_writeFormat (name : Petscii) (id : Byte × Byte) :
    Keeps (StaysFormed ty) (fun d => d) (Disk.writeFormat name id) := by
  intro disk hf
  obtain ⟨b, hb, hc, -, -⟩ := initialBam_ok ty
  have key : ∀ fmt : DiskFormat, fmt = ty.format → Keeps (StaysFormed ty) (fun d => d) (do
      let locs ← M.lift (formatLocations fmt disk.dev.geometry)
      Disk.onDev (M.forEach locs fun l => M.sectorMut l zeroBlock)
      Disk.onDev (M.sectorMut fmt.firstDirectoryLocation fun b => .ok (splice b 0 [0x00, 0xFF]))
      Disk.onDev ((Header.new fmt name id).write fmt.header)
      M.modify fun disk => { disk with header := some (Header.new fmt name id) }
      let bam ← M.lift (initialBam fmt)
      Disk.onDev bam.flush
      M.modify fun disk => disk.setBam (some bam)
      M.read fun disk => disk.dev.flush
      M.update Disk.initialize : M Disk Unit) := by
    intro fmt hfmt
    refine bind (lift _) fun _ => bind (form_onDev _) fun _ => bind (form_onDev _) fun _ =>
      bind (form_onDev _) fun _ => bind (modify' fun _ h => ⟨h.native, h.format, h.bam⟩) fun _ => ?_
    rw [hfmt, hb]
    have hset : ∀ d : Disk, Formed ty d → Formed ty (d.setBam (some b)) := fun d h =>
      form_setBam h _ fun c hc' => Option.some.inj hc' ▸ hc.toBamOf
    show Keeps (StaysFormed ty) (fun d => d) (do
      Disk.onDev b.flush
      M.modify fun disk => disk.setBam (some b)
      M.read fun disk => disk.dev.flush
      M.update Disk.initialize)
    exact bind (form_onDev _) fun _ => bind (modify' fun d h => hset d h) fun _ => bind (read _) fun _ => update fun _ _ h => form_initialize h
  exact key disk.native hf.native disk hf

theorem form_nextFree : Keeps (StaysFormed ty) (fun d => d) Disk.nextFreeDirectoryEntry := by
  unfold Disk.nextFreeDirectoryEntry
  refine bind get fun _ => bind (lift _) fun _ => bind (lift _) fun a => ?_
  split
  · exact pure _
  · exact bind (lift _) fun _ => form_withBam (bkeep_extendDirectory _) _

theorem form_createFile (name : Petscii) (type : FileType) (scheme : Scheme) :
    Keeps (StaysFormed ty) (fun d => d) (Disk.createFile name type scheme) :=
  ite (throw _) (bind (lift _) fun _ => bind (read _) fun _ => bind form_nextFree fun _ =>
    bind (read _) fun _ => bind (form_withBam (bkeep_createIn _ _ _) _) fun _ => bind (read _) fun _ =>
    pure _)

theorem form_onDisk {m : M Disk α} (h : Keeps (StaysFormed ty) (fun d => d) m) :
    Keeps (StaysFormed ty) Session.disk (Session.onDisk m) :=
  zoom h (fun _ => rfl) (fun _ _ => rfl)

theorem form_onWriter {m : M WSt α} (hm : Keeps (StaysBam ty) WSt.bam m) (i : Nat) :
    Keeps (StaysFormed ty) Session.disk (Session.onWriter i m) := by
  intro s h
  unfold Session.onWriter
  split
  · exact h
  · rename_i w ref hw
    split
    · exact h
    · rename_i c hc
      exact formed_set h hc (hm ⟨w, s.disk.dev, c⟩)

theorem form_onFile {m : M FSt α} (hm : Keeps (StaysBam ty) FSt.bam m) (i : Nat) :
    Keeps (StaysFormed ty) Session.disk (Session.onFile i m) := by
  intro s h
  unfold Session.onFile
  split
  · exact h
  · rename_i w ref hw
    split
    · exact h
    · rename_i c hc
      exact formed_set h hc (hm ⟨w, s.disk.dev, c⟩)

theorem form_step (c : Call) (hc : Installs c = false) :
    Keeps (StaysFormed ty) Session.disk (Session.step c) := by
  cases c with
  | init => exact form_onDisk (update fun _ _ h => form_initialize h)
  | format => exact form_onDisk (form_writeFormat _ _)
  | setHeader => exact form_onDisk (modify' fun _ h => ⟨h.native, h.format, h.bam⟩)
  | setFormat f =>
    cases f with
    | none => exact form_onDisk (modify' fun _ h => ⟨h.native, nofun, h.bam⟩)
    | some f => cases hc
  | setBam b =>
    cases b with
    | none => exact form_onDisk (modify' fun _ h => form_setBam h _ nofun)
    | some b => cases hc
  | flushHeader => exact form_onDisk (bind (read _) fun _ => bind get fun _ => form_onDev _)
  | create => exact bind (form_onDisk (form_createFile _ _ _)) fun _ => modify fun _ => rfl
  | openFile => exact bind (read _) fun _ => modify fun _ => rfl
  | openEntry => exact bind (read _) fun _ => modify fun _ => rfl
  | openWriter => exact bind (read _) fun _ => bind (read _) fun _ => modify fun _ => rfl
  | write => exact bind (form_onWriter (bkeep_write _) _) fun _ => pure _
  | flush => exact form_onWriter bkeep_flush _
  | drop i => exact fun s => form_onWriter bkeep_flush i s
  | delete => exact form_onFile bkeep_delete _
  | rename => exact form_onDisk (bind (read _) fun _ => bind (lift _) fun _ => bind (read _) fun _ =>
      form_onDev _)
  | nextFreeDirectoryEntry => exact bind (form_onDisk form_nextFree) fun _ => pure _
  | writeDirectoryEntry => exact form_onDisk (form_onDev _)
  | writeSector => exact form_onDisk (form_onDev _)
  | sectorMut => exact form_onDisk (form_onDev _)
  | bamAllocate => exact form_onDisk (form_withBam (bkeep_allocate _) _)
  | bamFree => exact form_onDisk (form_withBam (bkeep_free _) _)
  | bamFlush => exact form_onDisk (form_withBam bkeep_flushBam _)

theorem form_run : ∀ (calls : List Call) (s : Session), (∀ c ∈ calls, Installs c = false) →
    StaysFormed ty s.disk (Session.run calls s).disk
  | [], _, _ => Pre.refl _
  | c :: cs, s, h => Pre.trans (form_step c (h c (by simp)) s)
      (form_run cs _ fun x hx => h x (List.mem_cons_of_mem _ hx))

end Cbm
