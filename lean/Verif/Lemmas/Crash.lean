import Verif.Lemmas.Durable
import Verif.Spec.Crash
/-!
# What a crash leaves
-/

namespace Cbm
open Spec

variable {s : Shape} {v v' v₁ : Volume} {i j k r r' : Nat} {b b' : Bam} {a a' : Store} {x x' : Session}
  {disk disk' : Disk} {f f' : FileRec} {g : StoredFile} {name : Petscii} {content : List Byte}
  {d d' : Device} {image : Image}
  {P : Device → Prop}

/-- The disk was opened and holds the volume; nothing is said about its BAM and the
block counts. -/
structure Opened (disk : Disk) (s : Shape) (v : Volume) : Prop where
  format : disk.format = some s.type.format
  header : disk.header = some v.header
  noGeos : v.header.geos = none
  bam : disk.bam.isSome
  onDisk : OnDisk disk.dev s v

theorem Spec.ReadyAt.opened (h : ReadyAt disk s v r b) : Opened disk s v :=
  ⟨h.format, h.header, h.noGeos, by rw [h.bam]; rfl, h.onDisk⟩

theorem Opened.items (h : Opened disk s v) : disk.items = v.listing.map .ok := by
  unfold Disk.items Disk.diskFormat Disk.getHeader
  rw [h.format, h.header]
  simp only [h.noGeos]
  exact directoryItems_volume h.onDisk

theorem Opened.directory (h : Opened disk s v) : disk.directory = .ok v.listing := by
  unfold Disk.directory
  rw [h.items, collectRes_ok]

theorem Opened.find (h : Opened disk s v) (name : Petscii) :
    (∃ (i : Nat) (f : FileRec), v.slots[i]? = some (some f) ∧ f.name = name ∧
      (∀ (j : Nat) (g : FileRec), j < i → v.slots[j]? = some (some g) → g.name ≠ name) ∧
      ∃ r, disk.openFile name = .ok (.linear (f.entry (slotPos v.dir i)), r)) ∨
    ((∀ g ∈ v.files, g.name ≠ name) ∧ disk.openFile name = fail .notFound) := by
  have hf : (∃ (i : Nat) (f : FileRec), v.slots[i]? = some (some f) ∧ f.name = name ∧
      (∀ (j : Nat) (g : FileRec), j < i → v.slots[j]? = some (some g) → g.name ≠ name) ∧
      disk.findDirectoryEntry name = .ok (f.entry (slotPos v.dir i))) ∨
    ((∀ g ∈ v.files, g.name ≠ name) ∧ disk.findDirectoryEntry name = fail .notFound) := by
    unfold Disk.findDirectoryEntry
    rw [h.items]
    exact find_volume name
  rcases hf with ⟨i, f, hi, hn, hb, hf⟩ | ⟨hno, hf⟩
  · obtain ⟨r, hr⟩ := Option.isSome_iff_exists.1 h.bam
    refine .inl ⟨i, f, hi, hn, hb, r, ?_⟩
    unfold Disk.openFile
    rw [hf]
    simp only [res_bind_ok]
    unfold Disk.openFileFromEntry Disk.bamRef
    rw [hr]
    rfl
  · refine .inr ⟨hno, ?_⟩
    unfold Disk.openFile
    rw [hf]
    rfl

theorem Opened.readsName (h : Opened disk s v) : ReadsName disk name content ↔
    ∃ (i : Nat) (f : FileRec), v.slots[i]? = some (some f) ∧ f.name = name ∧
      (∀ (j : Nat) (g : FileRec), j < i → v.slots[j]? = some (some g) → g.name ≠ name) ∧
      f.data = content := by
  have hod := h.onDisk
  rcases h.find name with ⟨i, f, hi, hn, hb, r, hopen⟩ | ⟨hno, hopen⟩
  · have hreads : Reads disk.dev (.linear (f.entry (slotPos v.dir i))) f.data :=
      reads_chain hod.wf rfl rfl (hod.chains f (mem_files.2 ⟨_, hi⟩))
    constructor
    · rintro ⟨g, r', ho, hr⟩
      rw [hopen] at ho
      cases ho
      exact ⟨i, f, hi, hn, hb, reads_unique hreads hr⟩
    · rintro ⟨i', f', hi', hn', hb', rfl⟩
      have : i' = i := by
        rcases Nat.lt_trichotomy i' i with hlt | heq | hgt
        · exact absurd hn' (hb i' f' hlt hi')
        · exact heq
        · exact absurd hn (hb' i f hgt hi)
      subst this
      rw [hi] at hi'
      cases hi'
      exact ⟨_, r, hopen, hreads⟩
  · constructor
    · rintro ⟨g, r', ho, hr⟩
      rw [hopen] at ho
      cases ho
    · rintro ⟨i, f, hi, hn, -⟩
      exact absurd hn (hno f (mem_files.2 ⟨i, hi⟩))

theorem Opened.missing (h : Opened disk s v) : disk.openFile name = fail .notFound ↔
    ∀ g ∈ v.files, g.name ≠ name := by
  rcases h.find name with ⟨i, f, hi, hn, hb, r, hopen⟩ | ⟨hno, hopen⟩
  · rw [hopen]
    constructor
    · intro he; cases he
    · intro hno; exact absurd hn (hno f (mem_files.2 ⟨i, hi⟩))
  · rw [hopen]
    exact ⟨fun _ => hno, fun _ => rfl⟩

/-- Opening the image of a device that holds a volume. -/
theorem opens (h : OnDisk d s v) (hg : v.header.geos = none) :
    ∃ disk, Disk.new s.type d.image = .ok disk ∧ Opened disk s v := by
  have hw := h.wf
  have hw' : Wf ⟨d.image, d.geometry, []⟩ s :=
    ⟨hw.shape, hw.geometry, hw.tracks, hw.errorTable, hw.size⟩
  have hr : Header.read ⟨d.image, d.geometry, []⟩ s.type.format.header =
      Header.read d s.type.format.header := by
    rw [hw.headerRead, hw'.headerRead]; rfl
  have hod : OnDisk ⟨d.image, d.geometry, []⟩ s v :=
    h.frame hw' hr (fun _ _ => rfl) (fun _ _ => rfl)
  refine ⟨⟨s.type.format, ⟨d.image, d.geometry, []⟩, some v.header, some s.type.format, some 0,
    [⟨s.type.format, storedEntries d s, false⟩]⟩, ?_, ?_⟩
  · unfold Disk.new Disk.fromImage
    rw [find_geometry hw]
    simp only
    have hp := hod.head
    rw [hw'.headerRead] at hp
    rw [initialize_of_header (disk := ⟨s.type.format, ⟨d.image, d.geometry, []⟩, none,
      none, none, []⟩) (s := s) hw' rfl hp]
    unfold initialized
    have hfmt : formatFor s.type.format v.header = s.type.format := by
      unfold formatFor
      rw [hg]; rfl
    simp only [hfmt]
    rfl
  · exact ⟨rfl, rfl, hg, rfl, hod⟩

/-- Volumes that look alike. -/
structure Alike (v v' : Volume) : Prop where
  header : v'.header = v.header
  listing : v'.listing = v.listing
  slots : ∀ (i : Nat) (f : FileRec), v'.slots[i]? = some (some f) ↔ v.slots[i]? = some (some f)

theorem Alike.refl (v : Volume) : Alike v v := ⟨rfl, rfl, fun _ _ => Iff.rfl⟩

theorem Reserve.alike (h : Reserve s v v₁ i) (hc : v.slots.length = 8 * v.dir.length) :
    Alike v v₁ := by
  refine ⟨h.header, h.listing hc, ?_⟩
  intro j f
  cases h with
  | free _ _ => exact Iff.rfl
  | @fresh new _ _ _ =>
    constructor
    · intro hj
      by_cases hlt : j < v.slots.length
      · rw [extend_slot hlt] at hj
        exact hj
      · have := (extend_slot_new (by omega) hj).1
        cases this
    · exact extend_slot_some

theorem view_alike (h : Opened disk s v) (h' : Opened disk' s v') (hv : Alike v v') :
    SameView disk disk' where
  header := by rw [h.header, h'.header, hv.header]
  format := by rw [h.format, h'.format]
  directory := by rw [h.directory, h'.directory, hv.listing]
  reads name content := by
    rw [h.readsName, h'.readsName]
    constructor
    · rintro ⟨i, f, hi, hn, hb, hd⟩
      exact ⟨i, f, (hv.slots i f).1 hi, hn, fun j g hj hg => hb j g hj ((hv.slots j g).2 hg), hd⟩
    · rintro ⟨i, f, hi, hn, hb, hd⟩
      exact ⟨i, f, (hv.slots i f).2 hi, hn, fun j g hj hg => hb j g hj ((hv.slots j g).1 hg), hd⟩
  missing name := by
    rw [h.missing, h'.missing]
    constructor
    · intro hno g hg
      obtain ⟨i, hi⟩ := mem_files.1 hg
      exact hno g (mem_files.2 ⟨i, (hv.slots i g).2 hi⟩)
    · intro hno g hg
      obtain ⟨i, hi⟩ := mem_files.1 hg
      exact hno g (mem_files.2 ⟨i, (hv.slots i g).1 hi⟩)

/-- Every crash point of a sequence of writes satisfies what holds between them. -/
theorem crash_steps (h : Steps s P d d') (hi : image ∈ crashPoints d d') :
    ∃ d₁, P d₁ ∧ d₁.image = image := by
  obtain ⟨ws, rfl, o, p⟩ := h
  unfold crashPoints at hi
  obtain ⟨bytes, hb, rfl⟩ := List.mem_map.1 hi
  rw [hist_puts, List.length_append, Nat.add_sub_cancel, List.take_left] at hb
  rcases List.mem_append.1 hb with hb | hb
  · obtain ⟨k, h1, h2, rfl⟩ := mem_crashImages.1 hb
    refine ⟨_, p k, ?_⟩
    have := puts_kind (d := d) (s := s) (ws := ws.take k)
    cases hq : (d.puts s (ws.take k)).image
    rw [hq] at this
    simp only at this
    rw [this]
  · have hb := List.mem_singleton.1 hb
    subst hb
    exact ⟨d, by simpa using p 0, rfl⟩

/-- The image at the end is one of the crash points. -/
theorem crash_last (h : Steps s P d d') : d'.image ∈ crashPoints d d' := by
  obtain ⟨ws, rfl, o, p⟩ := h
  unfold crashPoints
  have hk := puts_kind (d := d) (s := s) (ws := ws)
  refine List.mem_map.2 ⟨(d.puts s ws).image.bytes, ?_, ?_⟩
  · rw [hist_puts, List.length_append, Nat.add_sub_cancel, List.take_left]
    cases hw : ws with
    | nil => simp
    | cons w t =>
      refine List.mem_append_left _ (mem_crashImages.2 ⟨(w :: t).length, by simp, Nat.le_refl _, ?_⟩)
      rw [List.take_length]
  · show (⟨d.image.kind, _⟩ : Image) = _
    rw [← hk]

end Cbm
