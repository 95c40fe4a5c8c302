import Verif.Model.Session
import Verif.Lemmas.Device
/-!
# What no operation can do

A relation between the device before and after that holds for every single sector
write holds for every operation, whatever its arguments and whether or not it succeeds.
-/

namespace Cbm

variable {σ τ α β V W : Type}

/-- Reflexive and transitive. -/
class Pre (R : V → V → Prop) : Prop where
  refl : ∀ a, R a a
  trans : ∀ {a b c}, R a b → R b c → R a c

/-- The view `g` of the state before and after the operation is related by `R`. -/
def Keeps (R : V → V → Prop) (g : σ → V) (m : M σ α) : Prop := ∀ s, R (g s) (g (m s).2)

namespace Keeps
variable {R : V → V → Prop} [Pre R] {g : σ → V}

theorem pure (a : α) : Keeps R g (Pure.pure a : M σ α) := fun _ => Pre.refl _
theorem throw (e : Fail) : Keeps R g (M.throw e : M σ α) := fun _ => Pre.refl _
theorem lift (r : Res α) : Keeps R g (M.lift r : M σ α) := fun _ => Pre.refl _
theorem get : Keeps R g (M.get : M σ σ) := fun _ => Pre.refl _
theorem read (f : σ → Res α) : Keeps R g (M.read f) := fun _ => Pre.refl _

omit [Pre R] in
theorem modify' {f : σ → σ} (h : ∀ s, R (g s) (g (f s))) : Keeps R g (M.modify f) := h

theorem modify {f : σ → σ} (h : ∀ s, g (f s) = g s) : Keeps R g (M.modify f) := by
  intro s
  show R (g s) (g (f s))
  rw [h]
  exact Pre.refl _

theorem update {f : σ → Res σ} (h : ∀ s s', f s = .ok s' → R (g s) (g s')) :
    Keeps R g (M.update f) := by
  intro s
  rw [M.run_update]
  split
  · exact h _ _ (by assumption)
  · exact Pre.refl _

theorem bind {m : M σ α} {f : α → M σ β} (h1 : Keeps R g m) (h2 : ∀ a, Keeps R g (f a)) :
    Keeps R g (m >>= f) := by
  intro s
  rw [M.run_bind]
  have := h1 s
  split
  · rename_i a s' he
    rw [he] at this
    exact Pre.trans this (h2 a s')
  · rename_i e s' he
    rw [he] at this
    exact this

omit [Pre R] in
theorem zoom {gets : τ → σ} {sets : σ → τ → τ} {g' : τ → V} {m : M σ α}
    (h : Keeps R g m) (h1 : ∀ t, g' t = g (gets t)) (h2 : ∀ s t, g' (sets s t) = g s) :
    Keeps R g' (M.zoom gets sets m) := by
  intro t
  rw [M.run_zoom]
  simp only
  rw [h2, h1]
  exact h _

theorem forEach {f : β → M σ Unit} (h : ∀ b, Keeps R g (f b)) :
    ∀ xs, Keeps R g (M.forEach xs f)
  | [] => fun _ => Pre.refl _
  | x :: xs => bind (h x) fun _ => forEach h xs

omit [Pre R] in
theorem ite {c : Prop} [Decidable c] {a b : M σ α} (h1 : Keeps R g a) (h2 : Keeps R g b) :
    Keeps R g (if c then a else b) := by split <;> assumption

end Keeps

open Keeps

/-- The closure given to `sector_mut` returns a block of the same length; a Rust
slice cannot do otherwise. -/
def KeepLen (f : List Byte → Res (List Byte)) : Prop :=
  ∀ b n, b.length = BLOCK_SIZE → f b = .ok n → n.length = BLOCK_SIZE

/-- A relation that holds for every single sector write. -/
class DevRel (R : Device → Device → Prop) : Prop extends Pre R where
  sectorMut : ∀ {d d' : Device} {l : Location} {f}, KeepLen f → d.sectorMut l f = .ok d' → R d d'

variable {R : Device → Device → Prop} [DevRel R]

/-! ## Every closure keeps the length -/

theorem KeepLen.copy (data : List Byte) : KeepLen (copyFromSlice data) := by
  intro b n hb hn
  unfold copyFromSlice at hn
  split at hn
  · cases hn; omega
  · cases hn

theorem KeepLen.zero : KeepLen zeroBlock := by
  intro b n hb hn
  cases hn
  simp only [List.length_replicate]
  exact hb

theorem KeepLen.splice {o : Nat} {src : List Byte} (h : o + src.length ≤ BLOCK_SIZE) :
    KeepLen fun b => .ok (splice b o src) := by
  intro b n hb hn
  cases hn
  rw [length_splice _ _ _ (by omega)]
  exact hb

theorem KeepLen.fresh : KeepLen freshDirectoryBlock := by
  intro b n hb hn
  cases hn
  have h1 : (Cbm.splice b 0 [0x00, 0xFF]).length = BLOCK_SIZE :=
    KeepLen.splice (by decide) b _ hb rfl
  exact KeepLen.splice (by rw [List.length_replicate]; decide) _ _ h1 rfl

theorem KeepLen.chainLink (k : ChainLink) : KeepLen k.toBytes := by
  intro b n hb hn
  unfold ChainLink.toBytes at hn
  split at hn
  · cases hn
  · split at hn
    · cases hn; exact KeepLen.splice (by simp [BLOCK_SIZE]) b _ hb rfl
    · split at hn
      · cases hn; exact KeepLen.splice (by simp [BLOCK_SIZE]) b _ hb rfl
      · cases hn

theorem KeepLen.writeLocation (l : Location) : KeepLen (ChainWriter.writeLocation l) := by
  intro b n hb hn
  unfold ChainWriter.writeLocation at hn
  split at hn
  · cases hn; exact KeepLen.splice (by simp [BLOCK_SIZE]) b _ hb rfl
  · cases hn

theorem length_writeBytesWithPadding {bytes : Petscii} {n : Nat} {p : Byte} {out : List Byte}
    (h : writeBytesWithPadding bytes n p = some out) : out.length = n := by
  unfold writeBytesWithPadding at h
  split at h
  · cases h
  · cases h
    simp only [List.length_append, List.length_replicate]
    omega

theorem length_extraToBytes {e : Extra} {b n : List Byte} (hb : b.length = 9)
    (h : e.toBytes b = .ok n) : n.length = 9 := by
  unfold Extra.toBytes at h
  split at h
  · unfold copyFromSlice at h
    split at h
    · cases h; omega
    · cases h
  · split at h
    · cases h
      have h1 := length_splice b 0 [(‹RelativeExtra›).firstSideSector.track,
        (‹RelativeExtra›).firstSideSector.sector] (by simp; omega)
      rw [length_splice _ _ _ (by omega), h1, hb]
    · cases h
  · cases h
    rw [length_splice _ _ _ (by simp; omega), hb]

theorem length_entryToBytes {e : DirectoryEntry} {b n : List Byte} (h : e.toBytes b = .ok n) :
    n.length = b.length := by
  unfold DirectoryEntry.toBytes at h
  split at h
  · cases h
  · rename_i hb
    have hb : b.length = 32 := Decidable.not_not.1 hb
    split at h
    · cases h
    · rename_i name hn
      have hn := length_writeBytesWithPadding hn
      have hn : name.length = 16 := hn
      rw [res_bind_eq_ok] at h
      obtain ⟨x, hx, h⟩ := h
      cases h
      have h1 : (Cbm.splice b 2 [e.attributes.toByte, e.firstSector.track,
          e.firstSector.sector]).length = 32 := by
        rw [length_splice _ _ _ (by simp; omega), hb]
      have h2 := length_splice _ 5 name (by rw [h1]; omega)
      rw [h1] at h2
      have h3 : x.length = 9 := length_extraToBytes (length_slice _ _ _ (by
        rw [h2]; decide)) hx
      have h4 := length_splice _ ENTRY_EXTRA_OFFSET x (by rw [h2, h3]; decide)
      rw [h2] at h4
      rw [length_splice _ _ _ (by rw [h4]; simp), h4, hb]

/-! ## The device and the BAM -/

theorem keep_writeEntry {d d' : Device} {e : DirectoryEntry} (hd : d.writeEntry e = .ok d') :
    R d d' := by
  unfold Device.writeEntry Device.positionedWrite at hd
  rw [res_bind_eq_ok] at hd
  obtain ⟨p, _, hd⟩ := hd
  refine DevRel.sectorMut ?_ hd
  intro b n hb hn
  rw [res_bind_eq_ok] at hn
  obtain ⟨x, hx, hn⟩ := hn
  rw [res_bind_eq_ok] at hn
  obtain ⟨y, hy, hn⟩ := hn
  cases hn
  unfold DirectoryEntry.positionedWrite at hy
  rw [res_bind_eq_ok] at hy
  obtain ⟨q, _, hy⟩ := hy
  split at hy
  · cases hy
  · have hl := length_entryToBytes hy
    unfold subSlice at hx
    split at hx
    · rename_i hle
      cases hx
      rw [length_slice _ _ _ hle] at hl
      rw [length_splice _ _ _ (by omega)]
      exact hb
    · cases hx

theorem keep_M_sectorMut (l : Location) {f} (hf : KeepLen f) : Keeps R id (M.sectorMut l f) :=
  update fun _ _ e => DevRel.sectorMut hf e

theorem keep_writeSection (entries : List BamEntry) (prev : Nat) (sec : BamSection) :
    Keeps R id (writeSection entries prev sec) := by
  unfold writeSection
  refine bind (read _) fun _ => bind (lift _) fun _ => ?_
  split
  · exact bind (keep_M_sectorMut _ (.copy _)) fun _ => bind (read _) fun _ => bind (lift _) fun _ =>
      keep_M_sectorMut _ (.copy _)
  · exact bind (lift _) fun _ => keep_M_sectorMut _ (.copy _)

theorem keep_writeSections (entries : List BamEntry) : ∀ (secs : List BamSection) (prev : Nat),
    Keeps R id (writeSections entries prev secs)
  | [], _ => pure _
  | _ :: rest, _ => bind (keep_writeSection _ _ _) fun _ => keep_writeSections entries rest _

theorem keep_bamFlush (b : Bam) : Keeps R id b.flush :=
  bind (lift _) fun _ => keep_writeSections _ _ _

theorem keep_headerWrite (h : Header) (hf : HeaderFormat) : Keeps R id (h.write hf) :=
  bind (read _) fun _ => bind (lift _) fun _ => keep_M_sectorMut _ (.copy _)

/-! ## `St` -/

omit [DevRel R] in
theorem keep_onDev {m : M Device α} (h : Keeps R id m) : Keeps R St.dev (St.onDev m) :=
  zoom h (fun _ => rfl) (fun _ _ => rfl)

theorem keep_flushBam : Keeps R St.dev St.flushBam :=
  bind get fun _ => keep_onDev (keep_bamFlush _)

theorem keep_updBam (f : Bam → Res Bam) : Keeps R St.dev (St.updBam f) :=
  update fun s s' h => by
    rw [res_bind_eq_ok] at h
    obtain ⟨b, _, h⟩ := h
    cases h
    exact Pre.refl _

theorem keep_updDev {f : Device → Res Device}
    (hf : ∀ d d', f d = .ok d' → R d d') : Keeps R St.dev (St.updDev f) :=
  update fun s s' h => by
    rw [res_bind_eq_ok] at h
    obtain ⟨b, hb, h⟩ := h
    cases h
    exact hf _ _ hb

theorem keep_updDev_sectorMut (l : Location) {f} (hf : KeepLen f) :
    Keeps R St.dev (St.updDev fun d => d.sectorMut l f) :=
  keep_updDev fun _ _ e => DevRel.sectorMut hf e

theorem keep_updDev_writeEntry (e : DirectoryEntry) :
    Keeps R St.dev (St.updDev fun d => d.writeEntry e) :=
  keep_updDev fun _ _ e => keep_writeEntry e

theorem keep_removeChain (start : Location) : Keeps R St.dev (removeChain start) :=
  bind (read _) fun _ => bind (forEach (fun _ => keep_updBam _) _) fun _ => keep_flushBam

theorem keep_extendDirectory (last : Location) : Keeps R St.dev (extendDirectory last) :=
  bind (read _) fun _ => bind (keep_updDev_sectorMut _ .fresh) fun _ => bind (read _) fun _ =>
    bind (lift _) fun _ => bind (keep_updBam _) fun _ =>
    bind (keep_updDev_sectorMut _ (.splice (by simp [BLOCK_SIZE]))) fun _ =>
    pure _

theorem keep_writeNewEntry (e : DirectoryEntry) (first : Location) :
    Keeps R St.dev (writeNewEntry e first) := by
  intro s
  unfold writeNewEntry
  have h1 := keep_updDev_writeEntry (R := R) e s
  cases hc : St.updDev (fun d => d.writeEntry e) s with
  | mk r s' =>
    rw [hc] at h1
    simp only at h1
    cases r with
    | ok u => exact h1
    | error er =>
      cases er with
      | err er =>
        simp only
        have h2 := keep_updBam (R := R) (fun b => b.free first) s'
        cases hc2 : St.updBam (fun b => b.free first) s' with
        | mk r2 s'' =>
          rw [hc2] at h2
          cases r2 <;> exact Pre.trans h1 h2
      | panic => exact h1
      | diverge => exact h1

theorem keep_createIn (slot : DirectoryEntry) (name : Petscii) (type : FileType) :
    Keeps R St.dev (createIn slot name type) :=
  bind (read _) fun _ => bind (keep_updBam _) fun _ =>
    bind (keep_updDev_sectorMut _ (.chainLink _)) fun _ => bind (keep_writeNewEntry _ _) fun _ => pure _

/-! ## Writers -/

abbrev WSt.dev (x : WSt) : Device := x.st.dev

omit [DevRel R] in
theorem keep_onSt {m : M St α} (h : Keeps R St.dev m) : Keeps R WSt.dev (ChainWriter.onSt m) :=
  zoom h (fun _ => rfl) (fun _ _ => rfl)

theorem keep_modW (f : ChainWriter → ChainWriter) : Keeps R WSt.dev (ChainWriter.modW f) :=
  modify fun _ => rfl

theorem keep_increment : Keeps R WSt.dev ChainWriter.incrementEntryBlocks :=
  bind (read _) fun _ => bind (keep_modW _) fun _ =>
    ite (bind (keep_modW _) fun _ => keep_onSt (keep_updDev_writeEntry _)) (throw _)

theorem keep_writeCurrentBlock : Keeps R WSt.dev ChainWriter.writeCurrentBlock :=
  bind get fun _ => keep_onSt (keep_updDev_sectorMut _ (.copy _))

theorem keep_linkTo (next : Location) : Keeps R WSt.dev (ChainWriter.linkTo next) := by
  intro x
  unfold ChainWriter.linkTo
  have h1 := keep_onSt (R := R)
    (keep_updDev_sectorMut x.w.location (.writeLocation next)) x
  cases hc : ChainWriter.onSt (St.updDev fun d =>
      d.sectorMut x.w.location (ChainWriter.writeLocation next)) x with
  | mk r x' =>
    rw [hc] at h1
    simp only at h1
    cases r with
    | ok u => exact h1
    | error er =>
      cases er with
      | err er =>
        simp only
        have h2 := keep_onSt (R := R) (keep_updBam (fun b => b.free next)) x'
        cases hc2 : ChainWriter.onSt (St.updBam (fun b => b.free next)) x' with
        | mk r2 s'' =>
          rw [hc2] at h2
          cases r2 <;> exact Pre.trans h1 h2
      | panic => exact h1
      | diverge => exact h1

theorem keep_allocateNextBlock : Keeps R WSt.dev ChainWriter.allocateNextBlock :=
  bind keep_writeCurrentBlock fun _ => bind (read _) fun _ => bind get fun _ => bind (lift _) fun _ =>
    bind (keep_modW _) fun _ => bind (keep_onSt (keep_updDev_sectorMut _ (.copy _))) fun _ =>
    bind (keep_onSt (keep_updBam _)) fun _ => bind keep_increment fun _ => bind (keep_linkTo _) fun _ =>
    bind (keep_modW _) fun _ => pure _

theorem keep_room : Keeps R WSt.dev ChainWriter.room := by
  unfold ChainWriter.room
  refine bind get fun _ => bind (lift _) fun a => ?_
  split
  · exact throw _
  · exact ite (bind keep_allocateNextBlock fun _ => pure _) (pure _)

theorem keep_writeLoop : ∀ (fuel : Nat) (bs : List Byte),
    Keeps R WSt.dev (ChainWriter.writeLoop fuel bs)
  | _, [] => by unfold ChainWriter.writeLoop; exact pure _
  | 0, _ :: _ => by unfold ChainWriter.writeLoop; exact throw _
  | fuel + 1, b :: bs => by
    unfold ChainWriter.writeLoop
    exact bind keep_room fun _ => bind get fun _ => bind (lift _) fun _ => bind (keep_modW _) fun _ =>
      keep_writeLoop fuel _

theorem keep_write (buf : List Byte) : Keeps R WSt.dev (ChainWriter.write buf) :=
  bind (keep_modW _) fun _ => bind (keep_writeLoop _ _) fun _ => pure _

theorem keep_flush : Keeps R WSt.dev ChainWriter.flush :=
  bind get fun _ => ite
    (bind keep_writeCurrentBlock fun _ => bind (keep_onSt keep_flushBam) fun _ =>
      bind (read _) fun _ => keep_modW _) (pure _)

/-! ## Files -/

abbrev FSt.dev (x : FSt) : Device := x.st.dev

theorem keep_freeBlocks (f : File) : Keeps R St.dev f.freeBlocks := by
  have geos : ∀ f : GEOSFile, Keeps R St.dev (do
      removeChain f.entry.firstSector
      match ← M.lift f.entry.infoLocation with
      | some l => St.updBam fun b => b.free l
      | none => Pure.pure ()
      match f.vlir with
      | some records => M.forEach (records.filterMap id) removeChain
      | none => Pure.pure () : M St Unit) := by
    intro f
    refine bind (keep_removeChain _) fun _ => bind (lift _) fun a => ?_
    cases a <;> cases f.vlir <;> simp only []
    · exact pure _
    · exact forEach (fun _ => keep_removeChain _) _
    · exact bind (keep_updBam _) fun _ => pure _
    · exact bind (keep_updBam _) fun _ => forEach (fun _ => keep_removeChain _) _
  cases f with
  | linear e => exact keep_removeChain _
  | relative f => exact bind (keep_removeChain _) fun _ => forEach (fun _ => keep_updBam _) _
  | geosSequential f => exact geos f
  | geosVLIR f => exact geos f

theorem keep_delete : Keeps R FSt.dev File.delete :=
  bind get fun _ => bind (zoom (keep_freeBlocks _) (fun _ => rfl) (fun _ _ => rfl)) fun _ =>
    bind (modify fun _ => rfl) fun _ =>
      zoom (keep_updDev_writeEntry _) (fun _ => rfl) (fun _ _ => rfl)

/-! ## Disks -/

theorem keep_withBam {m : M St α} (h : Keeps R St.dev m) (ref : Nat) :
    Keeps R Disk.dev (Disk.withBam ref m) := by
  intro disk
  unfold Disk.withBam
  split
  · exact Pre.refl _
  · rename_i b _
    exact h ⟨disk.dev, b⟩

omit [DevRel R] in
theorem keep_diskOnDev {m : M Device α} (h : Keeps R id m) : Keeps R Disk.dev (Disk.onDev m) :=
  zoom h (fun _ => rfl) (fun _ _ => rfl)

theorem setBam_dev (disk : Disk) (b : Option Bam) : (disk.setBam b).dev = disk.dev := by
  unfold Disk.setBam
  split <;> rfl

theorem initialize_dev {disk disk' : Disk} (h : disk.initialize = .ok disk') :
    disk'.dev = disk.dev := by
  unfold Disk.initialize at h
  rw [res_bind_eq_ok] at h
  obtain ⟨hd, _, h⟩ := h
  split at h
  · cases h; exact setBam_dev _ _
  · rw [res_bind_eq_ok] at h
    obtain ⟨b, _, h⟩ := h
    cases h; exact setBam_dev _ _

theorem keep_initialize : Keeps R Disk.dev (M.update Disk.initialize) :=
  update fun _ _ h => by rw [initialize_dev h]; exact Pre.refl _

theorem keep_writeFormat (name : Petscii) (id : Byte × Byte) :
    Keeps R Disk.dev (Disk.writeFormat name id) :=
  bind get fun _ => bind (lift _) fun _ =>
    bind (keep_diskOnDev (forEach (fun _ => keep_M_sectorMut _ .zero) _)) fun _ =>
    bind (keep_diskOnDev (keep_M_sectorMut _ (.splice (by simp [BLOCK_SIZE])))) fun _ =>
    bind (keep_diskOnDev (keep_headerWrite _ _)) fun _ => bind (modify fun _ => rfl) fun _ =>
    bind (lift _) fun _ => bind (keep_diskOnDev (keep_bamFlush _)) fun _ =>
    bind (modify fun _ => setBam_dev _ _) fun _ => bind (read _) fun _ => keep_initialize

theorem keep_nextFreeDirectoryEntry : Keeps R Disk.dev Disk.nextFreeDirectoryEntry := by
  unfold Disk.nextFreeDirectoryEntry
  refine bind get fun _ => bind (lift _) fun _ => bind (lift _) fun a => ?_
  split
  · exact pure _
  · exact bind (lift _) fun _ => keep_withBam (keep_extendDirectory _) _

theorem keep_writeDirectoryEntry (e : DirectoryEntry) : Keeps R Disk.dev (Disk.writeDirectoryEntry e) :=
  keep_diskOnDev (update fun _ _ e => keep_writeEntry e)

theorem keep_rename (a b : Petscii) : Keeps R Disk.dev (Disk.rename a b) :=
  bind (read _) fun _ => bind (lift _) fun _ => bind (read _) fun _ => keep_writeDirectoryEntry _

theorem keep_createFile (name : Petscii) (type : FileType) (scheme : Scheme) :
    Keeps R Disk.dev (Disk.createFile name type scheme) :=
  ite (throw _) (bind (lift _) fun _ => bind (read _) fun _ => bind keep_nextFreeDirectoryEntry fun _ =>
    bind (read _) fun _ => bind (keep_withBam (keep_createIn _ _ _) _) fun _ => bind (read _) fun _ =>
    pure _)

theorem keep_diskWriteSector (l : Location) (data : List Byte) :
    Keeps R Disk.dev (Disk.writeSector l data) :=
  keep_diskOnDev (update fun d d' e => by
    unfold Device.writeSector at e
    split at e
    · cases e
    · exact DevRel.sectorMut (.copy _) e)

theorem keep_flushHeader : Keeps R Disk.dev Disk.flushHeader :=
  bind (read _) fun _ => bind get fun _ => keep_diskOnDev (keep_headerWrite _ _)

/-! ## Sessions -/

abbrev Session.dev (s : Session) : Device := s.disk.dev

omit [DevRel R] in
theorem keep_onDisk {m : M Disk α} (h : Keeps R Disk.dev m) : Keeps R Session.dev (Session.onDisk m) :=
  zoom h (fun _ => rfl) (fun _ _ => rfl)

theorem keep_onWriter {m : M WSt α} (h : Keeps R WSt.dev m) (i : Nat) :
    Keeps R Session.dev (Session.onWriter i m) := by
  intro s
  unfold Session.onWriter
  split
  · exact Pre.refl _
  · rename_i w ref _
    split
    · exact Pre.refl _
    · rename_i b _
      exact h ⟨w, s.disk.dev, b⟩

theorem keep_onFile {m : M FSt α} (h : Keeps R FSt.dev m) (i : Nat) :
    Keeps R Session.dev (Session.onFile i m) := by
  intro s
  unfold Session.onFile
  split
  · exact Pre.refl _
  · rename_i w ref _
    split
    · exact Pre.refl _
    · rename_i b _
      exact h ⟨w, s.disk.dev, b⟩

theorem keep_step (c : Call) : Keeps R Session.dev (Session.step c) := by
  cases c with
  | init => exact keep_onDisk keep_initialize
  | format => exact keep_onDisk (keep_writeFormat _ _)
  | setHeader => exact keep_onDisk (modify fun _ => rfl)
  | setFormat => exact keep_onDisk (modify fun _ => rfl)
  | setBam => exact keep_onDisk (modify fun _ => setBam_dev _ _)
  | flushHeader => exact keep_onDisk keep_flushHeader
  | create => exact bind (keep_onDisk (keep_createFile _ _ _)) fun _ => modify fun _ => rfl
  | openFile => exact bind (read _) fun _ => modify fun _ => rfl
  | openEntry => exact bind (read _) fun _ => modify fun _ => rfl
  | openWriter => exact bind (read _) fun _ => bind (read _) fun _ => modify fun _ => rfl
  | write => exact bind (keep_onWriter (keep_write _) _) fun _ => pure _
  | flush => exact keep_onWriter keep_flush _
  | drop i => exact fun s => keep_onWriter keep_flush i s
  | delete => exact keep_onFile keep_delete _
  | rename => exact keep_onDisk (keep_rename _ _)
  | nextFreeDirectoryEntry => exact bind (keep_onDisk keep_nextFreeDirectoryEntry) fun _ => pure _
  | writeDirectoryEntry => exact keep_onDisk (keep_writeDirectoryEntry _)
  | writeSector => exact keep_onDisk (keep_diskWriteSector _ _)
  | sectorMut => exact keep_onDisk (keep_diskOnDev (keep_M_sectorMut _ (.copy _)))
  | bamAllocate => exact keep_onDisk (keep_withBam (keep_updBam _) _)
  | bamFree => exact keep_onDisk (keep_withBam (keep_updBam _) _)
  | bamFlush => exact keep_onDisk (keep_withBam keep_flushBam _)

/-- A history of calls. -/
theorem keep_run : ∀ (calls : List Call) (s : Session), R s.disk.dev (Session.run calls s).disk.dev
  | [], _ => Pre.refl _
  | c :: cs, s => Pre.trans (keep_step c s) (keep_run cs _)

/-! ## Read-only devices -/

/-- A read-only device stays exactly as it is. -/
def ReadOnlySame (d d' : Device) : Prop := d.image.kind = .readOnlyMap → d' = d

instance : DevRel ReadOnlySame where
  refl _ _ := rfl
  trans {a b c} h1 h2 hk := by rw [h2 (by rw [h1 hk]; exact hk), h1 hk]
  sectorMut := by
    intro d d' l f _ hd hk
    rw [sectorMut_readOnly hk] at hd
    cases hd

/-! ## The shape of the device -/

/-- Kind, geometry and image size stay, and every write is recorded. -/
structure SameShape (d d' : Device) : Prop where
  kind : d'.image.kind = d.image.kind
  geometry : d'.geometry = d.geometry
  size : d'.image.bytes.length = d.image.bytes.length
  hist : ∃ writes, d'.hist = writes ++ d.hist

instance : DevRel SameShape where
  refl d := ⟨rfl, rfl, rfl, [], rfl⟩
  trans h1 h2 := ⟨h2.kind.trans h1.kind, h2.geometry.trans h1.geometry, h2.size.trans h1.size, by
    obtain ⟨w1, e1⟩ := h1.hist
    obtain ⟨w2, e2⟩ := h2.hist
    exact ⟨w2 ++ w1, by rw [e2, e1, List.append_assoc]⟩⟩
  sectorMut := by
    intro d d' l f hf hd
    unfold Device.sectorMut at hd
    rw [res_bind_eq_ok] at hd
    obtain ⟨_, _, hd⟩ := hd
    rw [res_bind_eq_ok] at hd
    obtain ⟨o, _, hd⟩ := hd
    rw [res_bind_eq_ok] at hd
    obtain ⟨i, hi, hd⟩ := hd
    cases hd
    unfold Image.sliceMut at hi
    rw [res_bind_eq_ok] at hi
    obtain ⟨_, hb, hi⟩ := hi
    have hle : o + BLOCK_SIZE ≤ d.image.bytes.length := by
      unfold Image.checkBounds at hb
      split at hb
      · cases hb
      · simp only [Image.len] at *; omega
    have key : ∀ (n : List Byte), f (slice d.image.bytes o BLOCK_SIZE) = .ok n →
        (splice d.image.bytes o n).length = d.image.bytes.length := by
      intro n hn
      rw [length_splice]
      rw [hf _ _ (length_slice _ _ _ hle) hn]
      exact hle
    split at hi
    · cases hi
    · rw [res_bind_eq_ok] at hi
      obtain ⟨n, hn, hi⟩ := hi
      cases hi
      exact ⟨rfl, rfl, key n hn, [_], rfl⟩

/-! ## The type of the disk, and its BAM cell -/

/-- The native format stays, and the disk refers to a BAM cell that exists. -/
structure SameKind (disk disk' : Disk) : Prop where
  native : disk'.native = disk.native
  cell : (∀ r, disk.bam = some r → r < disk.cells.length) →
    ∀ r, disk'.bam = some r → r < disk'.cells.length

instance : Pre SameKind where
  refl _ := ⟨rfl, id⟩
  trans h1 h2 := ⟨h2.native.trans h1.native, fun h => h2.cell (h1.cell h)⟩

theorem kind_onDev (m : M Device α) : Keeps SameKind id (Disk.onDev m) := fun _ => ⟨rfl, id⟩

theorem kind_withBam (ref : Nat) (m : M St α) : Keeps SameKind id (Disk.withBam ref m) := by
  intro disk
  unfold Disk.withBam
  split
  · exact Pre.refl _
  · exact ⟨rfl, fun h r hr => Nat.lt_of_lt_of_eq (h r hr) List.length_set.symm⟩

theorem kind_setBam (disk : Disk) (b : Option Bam) : SameKind disk (disk.setBam b) := by
  unfold Disk.setBam
  split
  · exact ⟨rfl, fun h r hr => by rw [List.length_set]; exact h r hr⟩
  · exact ⟨rfl, fun _ r hr => by cases hr; simp⟩
  · exact ⟨rfl, fun _ r hr => by cases hr⟩
  · exact Pre.refl _

theorem kind_initialize {disk disk' : Disk} (h : disk.initialize = .ok disk') :
    SameKind disk disk' := by
  unfold Disk.initialize at h
  rw [res_bind_eq_ok] at h
  obtain ⟨hd, _, h⟩ := h
  split at h
  · cases h; exact ⟨(kind_setBam disk none).native, (kind_setBam disk none).cell⟩
  · rw [res_bind_eq_ok] at h
    obtain ⟨b, _, h⟩ := h
    cases h
    exact ⟨(kind_setBam disk _).native, (kind_setBam disk _).cell⟩

theorem kind_writeFormat (name : Petscii) (id : Byte × Byte) :
    Keeps SameKind (fun d => d) (Disk.writeFormat name id) :=
  bind get fun _ => bind (lift _) fun _ => bind (kind_onDev _) fun _ => bind (kind_onDev _) fun _ =>
    bind (kind_onDev _) fun _ => bind (modify' fun _ => ⟨rfl, fun h => h⟩) fun _ => bind (lift _) fun _ =>
    bind (kind_onDev _) fun _ => bind (modify' fun _ => kind_setBam _ _) fun _ => bind (read _) fun _ =>
    update fun _ _ h => kind_initialize h

theorem kind_nextFree : Keeps SameKind (fun d => d) Disk.nextFreeDirectoryEntry := by
  unfold Disk.nextFreeDirectoryEntry
  refine bind get fun _ => bind (lift _) fun _ => bind (lift _) fun a => ?_
  split
  · exact pure _
  · exact bind (lift _) fun _ => kind_withBam _ _

theorem kind_createFile (name : Petscii) (type : FileType) (scheme : Scheme) :
    Keeps SameKind (fun d => d) (Disk.createFile name type scheme) :=
  ite (throw _) (bind (lift _) fun _ => bind (read _) fun _ => bind kind_nextFree fun _ =>
    bind (read _) fun _ => bind (kind_withBam _ _) fun _ => bind (read _) fun _ => pure _)

theorem kind_onDisk {m : M Disk α} (h : Keeps SameKind (fun d => d) m) :
    Keeps SameKind Session.disk (Session.onDisk m) :=
  zoom h (fun _ => rfl) (fun _ _ => rfl)

theorem kind_onWriter (i : Nat) (m : M WSt α) : Keeps SameKind Session.disk (Session.onWriter i m) := by
  intro s
  unfold Session.onWriter
  split
  · exact Pre.refl _
  · split
    · exact Pre.refl _
    · exact ⟨rfl, fun h r hr => by rw [List.length_set]; exact h r hr⟩

theorem kind_onFile (i : Nat) (m : M FSt α) : Keeps SameKind Session.disk (Session.onFile i m) := by
  intro s
  unfold Session.onFile
  split
  · exact Pre.refl _
  · split
    · exact Pre.refl _
    · exact ⟨rfl, fun h r hr => by rw [List.length_set]; exact h r hr⟩

theorem kind_step (c : Call) : Keeps SameKind Session.disk (Session.step c) := by
  cases c with
  | init => exact kind_onDisk (update fun _ _ h => kind_initialize h)
  | format => exact kind_onDisk (kind_writeFormat _ _)
  | setHeader => exact kind_onDisk (modify' fun _ => ⟨rfl, id⟩)
  | setFormat => exact kind_onDisk (modify' fun _ => ⟨rfl, id⟩)
  | setBam => exact kind_onDisk (modify' fun _ => kind_setBam _ _)
  | flushHeader => exact kind_onDisk (bind (read _) fun _ => bind get fun _ => kind_onDev _)
  | create => exact bind (kind_onDisk (kind_createFile _ _ _)) fun _ => modify fun _ => rfl
  | openFile => exact bind (read _) fun _ => modify fun _ => rfl
  | openEntry => exact bind (read _) fun _ => modify fun _ => rfl
  | openWriter => exact bind (read _) fun _ => bind (read _) fun _ => modify fun _ => rfl
  | write => exact bind (kind_onWriter _ _) fun _ => pure _
  | flush => exact kind_onWriter _ _
  | drop i => exact fun s => kind_onWriter i _ s
  | delete => exact kind_onFile _ _
  | rename => exact kind_onDisk (bind (read _) fun _ => bind (lift _) fun _ => bind (read _) fun _ =>
      kind_onDev _)
  | nextFreeDirectoryEntry => exact bind (kind_onDisk kind_nextFree) fun _ => pure _
  | writeDirectoryEntry => exact kind_onDisk (kind_onDev _)
  | writeSector => exact kind_onDisk (kind_onDev _)
  | sectorMut => exact kind_onDisk (kind_onDev _)
  | bamAllocate => exact kind_onDisk (kind_withBam _ _)
  | bamFree => exact kind_onDisk (kind_withBam _ _)
  | bamFlush => exact kind_onDisk (kind_withBam _ _)

theorem kind_run : ∀ (calls : List Call) (s : Session), SameKind s.disk (Session.run calls s).disk
  | [], _ => Pre.refl _
  | c :: cs, s => Pre.trans (kind_step c s) (kind_run cs _)

/-! ## The error table -/

/-- The device keeps its shape, and the bytes after the sectors stay. -/
def SameTail (d d' : Device) : Prop := ∀ s : Spec.Shape, Spec.Wf d s → Spec.Wf d' s ∧
  ∀ i, 256 * s.sectors ≤ i → d'.image.bytes[i]? = d.image.bytes[i]?

instance : DevRel SameTail where
  refl _ s h := ⟨h, fun _ _ => rfl⟩
  trans h1 h2 s h := by
    obtain ⟨h3, h4⟩ := h1 s h
    obtain ⟨h5, h6⟩ := h2 s h3
    exact ⟨h5, fun i hi => (h6 i hi).trans (h4 i hi)⟩
  sectorMut := by
    intro d d' l f hf hd s h
    by_cases hw : Spec.Writable d
    · by_cases hl : s.Valid l
      · rw [h.sectorMut_eq hw hl] at hd
        cases hb : f (d.blk s l) with
        | error e => rw [hb] at hd; cases hd
        | ok new =>
          rw [hb] at hd
          cases hd
          have hn : new.length = 256 := hf _ _ (h.blk_length hl) hb
          refine ⟨h.put hl hn, fun i hi => ?_⟩
          have := sectorNumber_lt hl
          have hbd := h.bound hl
          simp only [Spec.Shape.sectors] at hi
          simp only [Device.put]
          rw [getElem?_splice _ _ _ _ (by omega)]
          split
          · rfl
          · rw [if_neg (by omega)]
      · rw [h.sectorMut_invalid hw hl] at hd
        cases hd
    · rw [sectorMut_readOnly (Decidable.not_not.1 hw)] at hd
      cases hd

end Cbm
