import Verif.Lemmas.VolOps
import Verif.Spec.Ready
/-!
# Operations of a disk on its volume
-/

namespace Cbm
open Spec

variable {d d' d'' : Device} {s : Shape} {v v' v₁ : Volume} {i j r : Nat} {f f' : FileRec}
  {l next new last p first : Location} {b b' : Bam} {ty : DiskType} {st : St}
  {e : DirectoryEntry} {name : Petscii} {type : FileType} {disk disk' : Disk}

/-- The disk with the device and the BAM cell `r` replaced. -/
def Disk.withSt (disk : Disk) (r : Nat) (st : St) : Disk :=
  { disk with dev := st.dev, cells := disk.cells.set r st.bam }

theorem withBam_run {α : Type} {m : M St α} {res : Res α} (hc : disk.cells[r]? = some b)
    (hm : m ⟨disk.dev, b⟩ = (res, st)) : Disk.withBam r m disk = (res, disk.withSt r st) := by
  unfold Disk.withBam
  rw [hc]
  simp only []
  rw [hm]
  rfl

theorem withSt_self (hc : disk.cells[r]? = some b) : disk.withSt r ⟨disk.dev, b⟩ = disk := by
  unfold Disk.withSt
  have : disk.cells.set r b = disk.cells := by
    apply List.ext_getElem?
    intro k
    rw [List.getElem?_set]
    split
    · rename_i h
      subst h
      rw [hc]
      simp [(List.getElem?_eq_some_iff.1 hc).1]
    · rfl
  simp only [this]

theorem withSt_withSt (st st' : St) : (disk.withSt r st).withSt r st' = disk.withSt r st' := by
  unfold Disk.withSt
  simp [List.set_set]

theorem Spec.ReadyAt.update (h : ReadyAt disk s v r b) (hm : Mounted st s v')
    (hf : st.bam.format = b.format) (hh : v'.header = v.header) (hx : Exact v') :
    ReadyAt (disk.withSt r st) s v' r st.bam where
  native := h.native
  format := h.format
  header := by rw [hh]; exact h.header
  noGeos := by rw [hh]; exact h.noGeos
  bam := h.bam
  cell := by
    show (disk.cells.set r st.bam)[r]? = _
    rw [List.getElem?_set_self]
    exact (List.getElem?_eq_some_iff.1 h.cell).1
  bamFormat := hf.trans h.bamFormat
  mounted := hm
  exact := hx

theorem Spec.ReadyAt.onDisk (h : ReadyAt disk s v r b) : OnDisk disk.dev s v := h.mounted.onDisk

theorem items_ready (h : ReadyAt disk s v r b) : disk.items = v.listing.map .ok := by
  unfold Disk.items Disk.diskFormat Disk.getHeader
  rw [h.format, h.header]
  simp only [h.noGeos]
  exact directoryItems_volume h.onDisk

theorem directory_ready (h : ReadyAt disk s v r b) : disk.directory = .ok v.listing := by
  unfold Disk.directory
  rw [items_ready h, collectRes_ok]

theorem find_ready (h : ReadyAt disk s v r b) (name : Petscii) :
    (∃ (i : Nat) (f : FileRec), v.slots[i]? = some (some f) ∧ f.name = name ∧
      (∀ (j : Nat) (g : FileRec), j < i → v.slots[j]? = some (some g) → g.name ≠ name) ∧
      disk.findDirectoryEntry name = .ok (f.entry (slotPos v.dir i))) ∨
    ((∀ g ∈ v.files, g.name ≠ name) ∧ disk.findDirectoryEntry name = fail .notFound) := by
  unfold Disk.findDirectoryEntry
  rw [items_ready h]
  exact find_volume name

theorem available_ready (h : ReadyAt disk s v r b) (name : Petscii) :
    ((∃ g ∈ v.files, g.name = name) ∧ disk.checkFilenameAvailability name = fail .fileExists) ∨
    ((∀ g ∈ v.files, g.name ≠ name) ∧ disk.checkFilenameAvailability name = .ok ()) := by
  unfold Disk.checkFilenameAvailability
  rcases find_ready h name with ⟨i, f, hi, hn, _, hf⟩ | ⟨hno, hf⟩
  · left
    rw [hf]
    exact ⟨⟨f, mem_files.2 ⟨i, hi⟩, hn⟩, rfl⟩
  · right
    rw [hf]
    exact ⟨hno, rfl⟩

/-- `v₁` is `v` with a directory slot `i` for a new entry: the first free slot, or the
first slot of a new directory sector. -/
inductive Reserve (s : Shape) (v : Volume) : Volume → Nat → Prop
  | free {i : Nat} : v.slots[i]? = some none → (∀ k : Nat, k < i → v.slots[k]? ≠ some none) →
      Reserve s v v i
  | fresh {new : Location} : (∀ k : Nat, v.slots[k]? ≠ some none) →
      v.slots.length < maxSlots s.type → ValidLoc s.type (bamTracks s.type) new →
      Reserve s v (v.extend new) v.slots.length

theorem Reserve.slot (h : Reserve s v v₁ i) : v₁.slots[i]? = some none := by
  cases h with
  | free h _ => exact h
  | fresh _ _ _ =>
    show (v.slots ++ List.replicate 8 none)[v.slots.length]? = _
    rw [List.getElem?_append_right (Nat.le_refl _), Nat.sub_self]
    rfl

theorem Reserve.files (h : Reserve s v v₁ i) : v₁.files = v.files := by
  cases h with
  | free _ _ => rfl
  | fresh _ _ _ => exact extend_files

theorem Reserve.room (h : Reserve s v v₁ i) : v₁.room ty = v.room ty := by
  cases h with
  | free _ _ => rfl
  | fresh _ _ _ => exact extend_room

theorem Reserve.header (h : Reserve s v v₁ i) : v₁.header = v.header := by
  cases h <;> rfl

theorem Reserve.used (h : Reserve s v v₁ i) : v₁.used = v.used := by
  cases h with
  | free _ _ => rfl
  | fresh _ _ _ => exact extend_used

theorem Reserve.old (h : Reserve s v v₁ i) {j : Nat} {x : Option FileRec}
    (hj : v.slots[j]? = some x) : v₁.slots[j]? = some x := by
  cases h with
  | free _ _ => exact hj
  | fresh _ _ _ => rw [extend_slot (slot_lt hj)]; exact hj

theorem Reserve.exact (h : Reserve s v v₁ i) (hx : Exact v) : Exact v₁ := by
  intro f hf
  rw [h.files] at hf
  exact hx f hf

theorem nextFreeDirectoryEntry_ready (h : ReadyAt disk s v r b) :
    (∃ v₁ i st, Reserve s v v₁ i ∧
      Disk.nextFreeDirectoryEntry disk = (.ok (DirectoryEntry.parse32 (slotAt st.dev s v₁.dir i)
        (some (slotPos v₁.dir i))), disk.withSt r st) ∧
      Mounted st s v₁ ∧ st.bam.format = b.format ∧
      (v₁ = v → st = ⟨disk.dev, b⟩) ∧
      Steps s (fun d => OnDisk d s v ∨ OnDisk d s v₁) disk.dev st.dev ∧
      SysSame s disk.dev st.dev) ∨
    ((∀ k : Nat, v.slots[k]? ≠ some none) ∧ maxSlots s.type = v.slots.length ∧
      Disk.nextFreeDirectoryEntry disk = (fail .diskFull, disk)) := by
  have hfmt : disk.diskFormat = .ok s.type.format := by
    unfold Disk.diskFormat; rw [h.format]
  have hfd := firstDirectory_format s.type
  have start : ∀ x, scanFree (chainItems disk.dev s.type.format.firstDirectoryLocation)
      s.type.format.firstDirectoryLocation = .ok x →
      Disk.nextFreeDirectoryEntry disk = (match x with
        | .inl e => (pure e : M Disk DirectoryEntry)
        | .inr last => do
          let ref ← M.lift disk.bamRef
          Disk.withBam ref (extendDirectory last)) disk := by
    intro x hx
    unfold Disk.nextFreeDirectoryEntry
    rw [M.bind_of_ok (m := M.get) (s := disk) (s' := disk) (a := disk) rfl]
    rw [M.bind_of_ok (s := disk) (s' := disk) (a := s.type.format) (by rw [M.run_lift, hfmt])]
    rw [M.bind_of_ok (s := disk) (s' := disk) (a := x) (by rw [M.run_lift, hx])]
    cases x <;> rfl
  rcases scanFree_volume h.onDisk s.type.format.firstDirectoryLocation with
    ⟨j, hj, hfirst, hs⟩ | ⟨hno, t, ht, hs⟩
  · left
    refine ⟨v, j, ⟨disk.dev, b⟩, .free hj hfirst, ?_, h.mounted, rfl, fun _ => rfl,
      Steps.refl (.inl h.onDisk), SysSame.refl _ _⟩
    rw [← hfd] at hs
    rw [start _ hs, withSt_self h.cell]
    rfl
  · rw [← hfd] at hs
    have hrun : Disk.nextFreeDirectoryEntry disk = Disk.withBam r (extendDirectory t) disk := by
      rw [start _ hs]
      simp only []
      rw [M.bind_of_ok (s := disk) (s' := disk) (a := r)
        (by rw [M.run_lift]; unfold Disk.bamRef; rw [h.bam])]
    rcases extendDirectory_spec h.mounted ht with ⟨hlt, new, st', hr, hm', hf', hv, hst, hsys⟩ | ⟨hmax, hr⟩
    · left
      refine ⟨v.extend new, v.slots.length, st', .fresh hno hlt hv, ?_, hm', hf', ?_, hst, hsys⟩
      · rw [hrun, withBam_run h.cell hr]
      · intro he
        have := congrArg (fun v => v.slots.length) he
        simp [Volume.extend] at this
    · right
      refine ⟨hno, hmax, ?_⟩
      rw [hrun, withBam_run h.cell hr, withSt_self h.cell]


/-- The outcomes of `create_file`. -/
inductive CreateOutcome (s : Shape) (v : Volume) (disk : Disk) (r : Nat) (b : Bam)
    (name : Petscii) (type : FileType) : Res (DirectoryEntry × Nat) × Disk → Prop
  | tooLong : 16 < name.length →
      CreateOutcome s v disk r b name type (fail .filenameTooLong, disk)
  | exists : name.length ≤ 16 → (∃ g ∈ v.files, g.name = name) →
      CreateOutcome s v disk r b name type (fail .fileExists, disk)
  | dirFull : name.length ≤ 16 → (∀ g ∈ v.files, g.name ≠ name) →
      (∀ k : Nat, v.slots[k]? ≠ some none) → maxSlots s.type = v.slots.length →
      CreateOutcome s v disk r b name type (fail .diskFull, disk)
  | full {v₁ : Volume} {i : Nat} {st : St} : name.length ≤ 16 → (∀ g ∈ v.files, g.name ≠ name) →
      Reserve s v v₁ i → v.room s.type = 0 →
      ReadyAt (disk.withSt r st) s v₁ r st.bam → (v₁ = v → disk.withSt r st = disk) →
      Steps s (fun d => OnDisk d s v ∨ OnDisk d s v₁) disk.dev st.dev →
      SysSame s disk.dev st.dev →
      CreateOutcome s v disk r b name type (fail .diskFull, disk.withSt r st)
  | created {v₁ : Volume} {i : Nat} {st₁ st : St} {slot : DirectoryEntry} {first : Location} :
      name.length ≤ 16 → (∀ g ∈ v.files, g.name ≠ name) →
      Reserve s v v₁ i →
      ReadyAt (disk.withSt r st₁) s v₁ r st₁.bam → (v₁ = v → disk.withSt r st₁ = disk) →
      0 < v.room s.type → DataLoc s.type first → first ∉ v.used →
      slot.position = some (slotPos v₁.dir i) →
      ReadyAt (disk.withSt r st) s (v₁.set i (some (newFile name type first))) r st.bam →
      Steps s (fun d => OnDisk d s v ∨ OnDisk d s v₁ ∨
        OnDisk d s (v₁.set i (some (newFile name type first)))) disk.dev st.dev →
      SysSame s disk.dev st.dev →
      CreateOutcome s v disk r b name type
        (.ok (newFileEntry slot name type first, r), disk.withSt r st)

theorem exact_set (hx : Exact v) (h : ∀ f, x = some f → f.blocks = f.locs.length) :
    Exact (v.set i x) := by
  intro f hf
  obtain ⟨j, hj⟩ := mem_files.1 hf
  by_cases hji : j = i
  · subst hji
    have hlt : j < v.slots.length := by
      have := slot_lt hj
      simpa [Volume.set] using this
    rw [set_slot hlt] at hj
    exact h f (Option.some.inj hj)
  · rw [set_slot_ne hji] at hj
    exact hx f (mem_files.2 ⟨j, hj⟩)

theorem createFile_ready (h : ReadyAt disk s v r b) (name : Petscii) (type : FileType)
    (ht : type.toByte &&& 0x0F ≠ 4) :
    CreateOutcome s v disk r b name type (Disk.createFile name type .linear disk) := by
  have hrun : ∀ (res : Res (DirectoryEntry × Nat)) (out : Disk),
      (do
        M.lift (checkFilenameValidity name)
        M.read fun disk => disk.checkFilenameAvailability name
        let slot ← Disk.nextFreeDirectoryEntry
        let ref ← M.read Disk.bamRef
        let entry ← Disk.withBam ref (createIn slot name type)
        let ref ← M.read Disk.bamRef
        pure (entry, ref) : M Disk (DirectoryEntry × Nat)) disk = (res, out) →
      Disk.createFile name type .linear disk = (res, out) := by
    intro res out hh
    unfold Disk.createFile
    rw [if_neg (by simp)]
    exact hh
  by_cases hlen : 16 < name.length
  · have hv : checkFilenameValidity name = fail .filenameTooLong := by
      unfold checkFilenameValidity
      rw [if_pos hlen]
    rw [hrun _ _ (by rw [M.bind_of_error (s := disk) (s' := disk) (by rw [M.run_lift, hv])])]
    exact .tooLong hlen
  · have hv : checkFilenameValidity name = .ok () := by
      unfold checkFilenameValidity
      rw [if_neg hlen]
    have hlen' : name.length ≤ 16 := by omega
    rcases available_ready h name with ⟨hex, ha⟩ | ⟨hno, ha⟩
    · rw [hrun _ _ (by
        rw [M.bind_of_ok (s := disk) (s' := disk) (a := ()) (by rw [M.run_lift, hv]),
          M.bind_of_error (s := disk) (s' := disk) (by rw [M.run_read, ha])])]
      exact .exists hlen' hex
    · rcases nextFreeDirectoryEntry_ready h with ⟨v₁, i, st, hres, hn, hm, hf, hsame, hst, hsys⟩ |
        ⟨hnone, hmax, hn⟩
      · have h1 : ReadyAt (disk.withSt r st) s v₁ r st.bam :=
          h.update hm hf hres.header (hres.exact h.exact)
        rcases createIn_spec (slot := DirectoryEntry.parse32 (slotAt st.dev s v₁.dir i)
            (some (slotPos v₁.dir i))) (name := name) (type := type) hm hres.slot rfl hlen' ht with
          ⟨hroom, st', first, hc, hdl, hnu, hm', hf', hst', hsys'⟩ | ⟨hroom, hc⟩
        · rw [hres.room] at hroom
          rw [hres.used] at hnu
          have hcell := h1.cell
          have hdone : Disk.createFile name type .linear disk =
              (.ok (newFileEntry _ name type first, r), disk.withSt r st') := hrun _ _ (by
            rw [M.bind_of_ok (s := disk) (s' := disk) (a := ()) (by rw [M.run_lift, hv]),
              M.bind_of_ok (s := disk) (s' := disk) (a := ()) (by rw [M.run_read, ha]),
              M.bind_of_ok hn,
              M.bind_of_ok (s := disk.withSt r st) (s' := disk.withSt r st) (a := r)
                (by rw [M.run_read]; unfold Disk.bamRef; rw [h1.bam]),
              M.bind_of_ok (withBam_run hcell hc), withSt_withSt,
              M.bind_of_ok (s := disk.withSt r st') (s' := disk.withSt r st') (a := r)
                (by rw [M.run_read]; unfold Disk.bamRef Disk.withSt; rw [h.bam])]
            rfl)
          rw [hdone]
          refine .created hlen' hno hres h1
            (fun e => by rw [hsame e, withSt_self h.cell]) hroom hdl hnu rfl ?_ ?_ (hsys.trans hsys')
          · refine h.update hm' (hf'.trans hf) hres.header ?_
            exact exact_set (hres.exact h.exact) fun f hf => by cases hf; rfl
          · refine (hst.mono ?_).trans (hst'.mono ?_)
            · rintro d (hd | hd)
              · exact .inl hd
              · exact .inr (.inl hd)
            · rintro d (hd | hd)
              · exact .inr (.inl hd)
              · exact .inr (.inr hd)
        · rw [hres.room] at hroom
          have hdone : Disk.createFile name type .linear disk =
              (fail .diskFull, disk.withSt r st) := hrun _ _ (by
            rw [M.bind_of_ok (s := disk) (s' := disk) (a := ()) (by rw [M.run_lift, hv]),
              M.bind_of_ok (s := disk) (s' := disk) (a := ()) (by rw [M.run_read, ha]),
              M.bind_of_ok hn,
              M.bind_of_ok (s := disk.withSt r st) (s' := disk.withSt r st) (a := r)
                (by rw [M.run_read]; unfold Disk.bamRef; rw [h1.bam]),
              M.bind_of_error (withBam_run h1.cell hc), withSt_withSt])
          rw [hdone]
          refine .full hlen' hno hres hroom h1 ?_ hst hsys
          intro e
          rw [hsame e, withSt_self h.cell]
      · rw [hrun _ _ (by
          rw [M.bind_of_ok (s := disk) (s' := disk) (a := ()) (by rw [M.run_lift, hv]),
            M.bind_of_ok (s := disk) (s' := disk) (a := ()) (by rw [M.run_read, ha]),
            M.bind_of_error hn])]
        exact .dirFull hlen' hno hnone hmax

end Cbm
