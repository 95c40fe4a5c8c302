import Verif.Lemmas.Alloc
import Verif.Props.Bam
/-!
# Block allocation: C08, C09, C10
-/

namespace Cbm
open Spec

variable {b : Bam} {ty : DiskType}

/-- **C08** Whatever the BAM says and whatever the previous location, a location
returned by `next_free_block` exists, is marked free, and is on the directory
track only if the previous block was; with a previous block it is on the same
track or on a data track.  (That the BAM is unaltered is the type of
`next_free_block`: it returns a location and nothing else.) -/
theorem C08_result_valid (hb : BamOf b ty) (prev : Option Location) {l : Location}
    (h : b.nextFreeBlock prev = .ok l) :
    ValidLoc ty (bamTracks ty) l ∧ isFree b l = true ∧
    (l.track.toNat = directoryTrack ty →
      ∃ p, prev = some p ∧ p.track.toNat = directoryTrack ty) ∧
    (∀ p, prev = some p → l.track = p.track ∨ systemTrack ty l.track.toNat = false) := by
  have hsys : systemTrack ty (directoryTrack ty) = true := by cases ty <;> decide
  have hone : (1 : UInt8).toNat ≠ directoryTrack ty := by cases ty <;> decide
  have some_case : ∀ p, b.nextFreeBlock (some p) = .ok l →
      ValidLoc ty (bamTracks ty) l ∧ isFree b l = true ∧
      (l.track = p.track ∨ systemTrack ty l.track.toNat = false) := by
    intro p h
    rw [nextFreeBlock_some hb] at h
    by_cases hp : 1 ≤ p.track.toNat ∧ p.track.toNat ≤ bamTracks ty
    · rcases fromPrevious_spec' hb b.format.geos hp.1 hp.2 with
        ⟨l', h1, h2, h3, h4⟩ | ⟨h1, _⟩ | ⟨h1, _⟩ | ⟨_, e, h1⟩
      · rw [h1] at h; cases h; exact ⟨h2, h3, h4⟩
      · rw [h1] at h; cases h
      · rw [h1] at h; cases h
      · rw [h1] at h; cases h
    · obtain ⟨e, he⟩ := fromPrevious_bad_track hb b.format.geos hp
      rw [he] at h; cases h
  cases prev with
  | some p =>
    obtain ⟨h1, h2, h3⟩ := some_case p h
    refine ⟨h1, h2, ?_, ?_⟩
    · intro hd
      refine ⟨p, rfl, ?_⟩
      rcases h3 with h3 | h3
      · rw [← h3]; exact hd
      · rw [hd, hsys] at h3; cases h3
    · intro p' e
      cases e; exact h3
  | none =>
    by_cases hg : b.format.geos = true
    · rw [nextFreeBlock_none_geos hb hg] at h
      obtain ⟨h1, h2, h3⟩ := some_case _ h
      refine ⟨h1, h2, ?_, by simp⟩
      intro hd
      rcases h3 with h3 | h3
      · rw [h3] at hd; exact absurd hd hone
      · rw [hd, hsys] at h3; cases h3
    · rw [nextFreeBlock_none_cbm hb (by simpa using hg)] at h
      rcases firstFreeBlock_spec hb with ⟨l', h1, h2, h3, h4⟩ | ⟨h1, _⟩
      · rw [h1] at h; cases h
        exact ⟨h2, h3, fun hd => absurd hd h4, by simp⟩
      · rw [h1] at h; cases h

example : ∃ l, (freshBam .d64).nextFreeBlock none = .ok l := ⟨⟨17, 0⟩, by decide +kernel⟩
example : ∃ l, (freshBam .d64).nextFreeBlock (some ⟨18, 1⟩) = .ok l :=
  ⟨⟨18, 4⟩, by decide +kernel⟩

theorem Spec.Consistent.some_free (h : Consistent b ty) {t n : Nat} (h1 : 1 ≤ t)
    (h2 : t ≤ bamTracks ty) (hn : recorded b t = some n) (hpos : 0 < n) :
    ∃ s, s < sectorsPerTrack ty t ∧ freeAt b t s = true := by
  rw [h.counts t h1 h2] at hn
  cases hn
  unfold freeOn at hpos
  obtain ⟨s, hs⟩ := List.exists_mem_of_length_pos hpos
  rw [List.mem_filter, List.mem_range] at hs
  exact ⟨s, hs.1, hs.2⟩

theorem Spec.Consistent.none_free (h : Consistent b ty) {l : Location}
    (hl : ValidLoc ty (bamTracks ty) l) (hn : recorded b l.track.toNat = some 0) :
    isFree b l = false := by
  rw [h.counts _ hl.1 hl.2.1] at hn
  have h0 := Option.some.inj hn
  unfold freeOn at h0
  cases hf : isFree b l with
  | false => rfl
  | true =>
    have : l.sector.toNat ∈ (List.range (sectorsPerTrack ty l.track.toNat)).filter
        fun s => freeAt b l.track.toNat s :=
      List.mem_filter.2 ⟨List.mem_range.2 hl.2.2, hf⟩
    have := List.length_pos_of_mem this
    omega

/-- **C09** With a previous data block and a BAM whose counts agree with its
bitmaps, `next_free_block` succeeds exactly when some sector outside the
directory and reserved tracks is free; otherwise it returns `DiskFull`.  Both
policies. -/
theorem C09_disk_full_exact (h : Consistent b ty) {p : Location}
    (hp : ValidLoc ty (bamTracks ty) p) (hd : systemTrack ty p.track.toNat = false) :
    ((∃ l, b.nextFreeBlock (some p) = .ok l) ↔
      ∃ l, ValidLoc ty (bamTracks ty) l ∧ systemTrack ty l.track.toNat = false ∧
        isFree b l = true) ∧
    ((¬ ∃ l, b.nextFreeBlock (some p) = .ok l) → b.nextFreeBlock (some p) = fail .diskFull) := by
  have hf := nextSeq_facts ty b.format.geos hp.1 hp.2.1
  rw [nextFreeBlock_some h.toBamOf]
  rcases fromPrevious_spec h.toBamOf b.format.geos hp with
    ⟨l, h1, h2, h3, h4⟩ | ⟨h1, h2⟩ | ⟨h1, t, n, h2, h3, h4, h5, h6⟩
  · refine ⟨⟨fun _ => ⟨l, h2, ?_, h3⟩, fun _ => ⟨l, h1⟩⟩, fun hn => absurd ⟨l, h1⟩ hn⟩
    rcases h4 with h4 | h4
    · rw [h4]; exact hd
    · exact h4
  · refine ⟨⟨fun ⟨l, hl⟩ => (by rw [h1] at hl; cases hl), ?_⟩, fun _ => h1⟩
    rintro ⟨l, hv, hs, hfree⟩
    obtain ⟨x, hx, he⟩ := hf.covers hd l.track.toNat hv.1 hv.2.1 hs
    have := h.none_free hv (he ▸ h2 x hx)
    rw [this] at hfree; cases hfree
  · obtain ⟨s, hs1, hs2⟩ := h.some_free h2 h3 h4 h5
    rw [h6 s hs1] at hs2; cases hs2

/-- **C09** The search for the first block of a file (no previous block), CBM
policy: success exactly when some sector outside the directory track is free.
This search does not skip the reserved track of the 1571, see
`C09_first_block_reserved`. -/
theorem C09_first_block_cbm (h : Consistent b ty) (hg : b.format.geos = false) :
    ((∃ l, b.nextFreeBlock none = .ok l) ↔
      ∃ l, ValidLoc ty (bamTracks ty) l ∧ l.track.toNat ≠ directoryTrack ty ∧
        isFree b l = true) ∧
    ((¬ ∃ l, b.nextFreeBlock none = .ok l) → b.nextFreeBlock none = fail .diskFull) := by
  rw [nextFreeBlock_none_cbm h.toBamOf hg]
  rcases firstFreeBlock_spec h.toBamOf with ⟨l, h1, h2, h3, h4⟩ | ⟨h1, h2⟩
  · exact ⟨⟨fun _ => ⟨l, h2, h4, h3⟩, fun _ => ⟨l, h1⟩⟩, fun hn => absurd ⟨l, h1⟩ hn⟩
  · refine ⟨⟨fun ⟨l, hl⟩ => (by rw [h1] at hl; cases hl), ?_⟩, fun _ => h1⟩
    rintro ⟨l, hv, hs, hfree⟩
    rcases h2 with h2 | ⟨t, n, a1, a2, a3, a4, a5⟩
    · have := h.none_free hv (h2 _ hv.1 hv.2.1 hs)
      rw [this] at hfree; cases hfree
    · obtain ⟨s, hs1, hs2⟩ := h.some_free a1 a2 a3 a4
      rw [a5 s hs1] at hs2; cases hs2

/-- **C09** The search for the first block of a file, either policy, on a disk
whose reserved track is allocated, as formatting leaves it: success exactly when
some data sector is free, otherwise `DiskFull`. -/
theorem C09_first_block (h : Consistent b ty)
    (hr : ∀ l, ValidLoc ty (bamTracks ty) l → systemTrack ty l.track.toNat = true →
      l.track.toNat ≠ directoryTrack ty → isFree b l = false) :
    ((∃ l, b.nextFreeBlock none = .ok l) ↔
      ∃ l, ValidLoc ty (bamTracks ty) l ∧ systemTrack ty l.track.toNat = false ∧
        isFree b l = true) ∧
    ((¬ ∃ l, b.nextFreeBlock none = .ok l) → b.nextFreeBlock none = fail .diskFull) := by
  by_cases hg : b.format.geos = true
  · rw [nextFreeBlock_none_geos h.toBamOf hg]
    exact C09_disk_full_exact h (valid_first ty) (by cases ty <;> decide)
  · have := C09_first_block_cbm h (by simpa using hg)
    refine ⟨this.1.trans ⟨?_, ?_⟩, this.2⟩
    · rintro ⟨l, h1, h2, h3⟩
      refine ⟨l, h1, ?_, h3⟩
      cases hs : systemTrack ty l.track.toNat with
      | false => rfl
      | true => rw [hr l h1 hs h2] at h3; cases h3
    · rintro ⟨l, h1, h2, h3⟩
      refine ⟨l, h1, ?_, h3⟩
      intro e
      rw [e] at h2
      have hsys : systemTrack ty (directoryTrack ty) = true := by cases ty <;> decide
      rw [hsys] at h2; cases h2

/-- A 1571 BAM whose only free sector is on the reserved track 53. -/
def onlyReserved : Bam :=
  ⟨D71.DISK_FORMAT, (List.range 70).map fun t => if t = 52 then ⟨1, 1#64⟩ else ⟨0, 0#64⟩, false⟩

/-- **C09** Why the hypothesis of `C09_first_block` is needed: on a 1571 disk
with a free sector on track 53, which formatting never leaves free, the search
hands it out. -/
theorem C09_first_block_reserved : onlyReserved.nextFreeBlock none = .ok ⟨53, 0⟩ := by
  decide +kernel

example : ∃ l, (freshBam .d81).nextFreeBlock (some ⟨39, 5⟩) = .ok l := by
  refine (C09_disk_full_exact (freshBam_consistent .d81) (by decide) (by decide)).1.2 ?_
  refine ⟨⟨1, 1⟩, by decide, by decide, ?_⟩
  rw [isFree, freeAt_freshBam _ _ _ (by decide) (by decide)]; decide

/-- **C10** For every BAM content, consistent or not, and every existing previous
location (or none), the search ends with a location, `DiskFull` or `InvalidBAM`:
no panic, no endless loop. -/
theorem C10_total (hb : BamOf b ty) (prev : Option Location)
    (hp : ∀ p, prev = some p → ValidLoc ty (bamTracks ty) p) :
    (∃ l, b.nextFreeBlock prev = .ok l) ∨ b.nextFreeBlock prev = fail .diskFull ∨
      b.nextFreeBlock prev = fail .invalidBAM := by
  have some_case : ∀ p, ValidLoc ty (bamTracks ty) p →
      (∃ l, b.nextFreeBlock (some p) = .ok l) ∨ b.nextFreeBlock (some p) = fail .diskFull ∨
      b.nextFreeBlock (some p) = fail .invalidBAM := by
    intro p hp
    rw [nextFreeBlock_some hb]
    rcases fromPrevious_spec hb b.format.geos hp with ⟨l, h, _⟩ | ⟨h, _⟩ | ⟨h, _⟩
    · exact Or.inl ⟨l, h⟩
    · exact Or.inr (Or.inl h)
    · exact Or.inr (Or.inr h)
  cases prev with
  | some p => exact some_case p (hp p rfl)
  | none =>
    by_cases hg : b.format.geos = true
    · rw [nextFreeBlock_none_geos hb hg]
      exact some_case _ (valid_first ty)
    · rw [nextFreeBlock_none_cbm hb (by simpa using hg)]
      rcases firstFreeBlock_spec hb with ⟨l, h, _⟩ | ⟨h, _⟩
      · exact Or.inl ⟨l, h⟩
      · exact Or.inr (Or.inl h)

/-- Counts that promise sectors the bitmaps do not have: `InvalidBAM`. -/
def lyingBam : Bam :=
  ⟨{ D64.DISK_FORMAT with geos := true }, List.replicate 35 ⟨255, 0#64⟩, false⟩

example : BamOf lyingBam .d64 ∧ lyingBam.nextFreeBlock none = fail .invalidBAM :=
  ⟨⟨rfl, rfl, rfl⟩, by decide +kernel⟩

end Cbm
