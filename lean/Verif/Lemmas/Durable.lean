import Verif.Lemmas.Start
import Verif.Lemmas.ValidateReady
import Verif.Lemmas.DirFacts
import Verif.Lemmas.FileFacts
import Verif.Spec.Durable
/-!
# Opening the image of a disk in use
-/

namespace Cbm
open Spec

variable {s : Shape} {v : Volume} {i j k r r' : Nat} {b b' : Bam} {a a' : Store} {x x' : Session}
  {disk disk' : Disk} {f : FileRec} {name : Petscii} {content : List Byte}

/-- The disk that opening the image gives, but with the BAM in memory `b`. -/
def reopened (disk : Disk) (s : Shape) (v : Volume) (b : Bam) : Disk :=
  ⟨s.type.format, ⟨disk.dev.image, disk.dev.geometry, []⟩, some v.header, some s.type.format, some 0, [b]⟩

/-- Whether or not the BAM is saved: the opened disk holds the same volume, and its BAM is
the one in the image. -/
theorem reopen_any (h : ReadyAt disk s v r b) :
    ReadyAt (reopened disk s v b) s v 0 b ∧
      Disk.new s.type disk.dev.image =
        .ok (reopened disk s v ⟨s.type.format, storedEntries disk.dev s, false⟩) := by
  have hw := h.mounted.onDisk.wf
  have hw' : Wf ⟨disk.dev.image, disk.dev.geometry, []⟩ s :=
    ⟨hw.shape, hw.geometry, hw.tracks, hw.errorTable, hw.size⟩
  have hr : Header.read ⟨disk.dev.image, disk.dev.geometry, []⟩ s.type.format.header =
      Header.read disk.dev s.type.format.header := by
    rw [hw.headerRead, hw'.headerRead]; rfl
  have hod : OnDisk ⟨disk.dev.image, disk.dev.geometry, []⟩ s v :=
    h.mounted.onDisk.frame hw' hr (fun _ _ => rfl) (fun _ _ => rfl)
  constructor
  · exact ⟨rfl, rfl, rfl, h.noGeos, rfl, rfl, h.bamFormat, ⟨hod, h.mounted.recorded,
      h.mounted.writable⟩, h.exact⟩
  · unfold Disk.new Disk.fromImage
    rw [find_geometry hw]
    simp only
    have hp := hod.head
    rw [hw'.headerRead] at hp
    rw [initialize_of_header (disk := ⟨s.type.format, ⟨disk.dev.image, disk.dev.geometry, []⟩, none,
      none, none, []⟩) (s := s) hw' rfl hp]
    unfold initialized
    have hfmt : formatFor s.type.format v.header = s.type.format := by
      unfold formatFor
      rw [h.noGeos]; rfl
    simp only [hfmt]
    rfl

/-- What can be read by name. -/
theorem readsName_ready (h : ReadyAt disk s v r b) : ReadsName disk name content ↔
    ∃ (i : Nat) (f : FileRec), v.slots[i]? = some (some f) ∧ f.name = name ∧
      (∀ (j : Nat) (g : FileRec), j < i → v.slots[j]? = some (some g) → g.name ≠ name) ∧
      f.data = content := by
  have hod := h.mounted.onDisk
  rcases find_ready h name with ⟨i, f, hi, hn, hb, hf⟩ | ⟨hno, hf⟩
  · have hreads : Reads disk.dev (.linear (f.entry (slotPos v.dir i))) f.data :=
      reads_chain hod.wf rfl rfl (hod.chains f (mem_files.2 ⟨_, hi⟩))
    have hopen := openFile_ready h hf
    constructor
    · rintro ⟨g, r', ho, hr⟩
      rw [hopen] at ho
      cases ho
      exact ⟨i, f, hi, hn, hb, reads_unique hreads hr⟩
    · rintro ⟨i', f', hi', hn', hb', rfl⟩
      have : i' = i := by
        rcases Nat.lt_trichotomy i' i with hlt | heq | hgt
        · exact absurd hn' (hb i' f' hlt hi')
        · exact heq
        · exact absurd hn (hb' i f hgt hi)
      subst this
      rw [hi] at hi'
      cases hi'
      exact ⟨_, r, hopen, hreads⟩
  · constructor
    · rintro ⟨g, r', ho, hr⟩
      unfold Disk.openFile at ho
      rw [hf] at ho
      cases ho
    · rintro ⟨i, f, hi, hn, -⟩
      exact absurd hn (hno f (mem_files.2 ⟨i, hi⟩))

theorem missing_ready (h : ReadyAt disk s v r b) : disk.openFile name = fail .notFound ↔
    ∀ g ∈ v.files, g.name ≠ name := by
  rcases find_ready h name with ⟨i, f, hi, hn, hb, hf⟩ | ⟨hno, hf⟩
  · rw [openFile_ready h hf]
    constructor
    · intro he; cases he
    · intro hno; exact absurd hn (hno f (mem_files.2 ⟨i, hi⟩))
  · unfold Disk.openFile
    rw [hf]
    exact ⟨fun _ => hno, fun _ => rfl⟩

theorem sameFiles_ready (h : ReadyAt disk s v r b) (h' : ReadyAt disk' s v r' b')
    (hi : disk'.dev.image = disk.dev.image) : SameFiles disk disk' where
  image := hi
  header := by rw [h.header, h'.header]
  format := by rw [h.format, h'.format]
  directory := by rw [directory_ready h, directory_ready h']
  reads name content := by rw [readsName_ready h, readsName_ready h']
  missing name := by rw [missing_ready h, missing_ready h']

/-- The BAM in memory does not matter. -/
theorem sameFiles_reopened (h : ReadyAt disk s v r b) (b' : Bam) :
    SameFiles disk (reopened disk s v b') := by
  have hs := sameFiles_ready h (reopen_any h).1 rfl
  exact ⟨hs.image, hs.header, hs.format, hs.directory, hs.reads, hs.missing⟩

theorem not_own {ty : DiskType} {l : Location} (h : DataLoc ty l) : ownSector ty l = false := by
  cases ho : ownSector ty l with
  | false => rfl
  | true =>
    have := ownSector_track ho
    rw [h.2] at this
    cases this

end Cbm
