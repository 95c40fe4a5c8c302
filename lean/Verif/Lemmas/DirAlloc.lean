import Verif.Lemmas.Listing
/-!
# Allocation of directory sectors
-/

namespace Cbm
open Spec

variable {d d' d'' : Device} {s : Shape} {v v' : Volume} {i j : Nat} {f f' : FileRec}
  {l next p : Location} {b b' : Bam} {ty : DiskType} {st : St}

/-- From the directory track only the directory track is searched. -/
theorem nextSeq_directory (ty : DiskType) (geos : Bool) :
    nextSeq ty geos (directoryTrack ty) = ([(directoryTrack ty, false)], .err .diskFull) := by
  cases ty <;> cases geos <;> decide +kernel

theorem fromPrevious_track (hb : BamOf b ty) (geos : Bool)
    (hp1 : 1 ≤ p.track.toNat) (hp2 : p.track.toNat ≤ bamTracks ty)
    (h : (fmt ty geos).nextFreeBlockFromPrevious b p = .ok l) :
    ∃ x ∈ (nextSeq ty geos p.track.toNat).1, l.track.toNat = x.1 := by
  unfold DiskFormat.nextFreeBlockFromPrevious at h
  rw [nextFreeTrack_seq] at h
  have hf := nextSeq_facts ty geos hp1 hp2
  rcases firstAvail_spec hb (nextSeq ty geos p.track.toNat).2 _ hf.range with
    ⟨h1, _⟩ | ⟨t, e, r, h1, h2, _, _⟩
  · rw [h1] at h; cases h
  · rw [h1, res_bind_ok] at h
    simp only [] at h
    obtain ⟨n, _, h⟩ := res_bind_eq_ok.1 h
    obtain ⟨s1, _, h⟩ := res_bind_eq_ok.1 h
    obtain ⟨s2, _, h⟩ := res_bind_eq_ok.1 h
    obtain ⟨s3, _, h⟩ := res_bind_eq_ok.1 h
    have h := Except.ok.inj h
    subst h
    refine ⟨(t, r), h2, ?_⟩
    have := (hf.range _ h2).2
    have hle := bamTracks_le ty
    show (UInt8.ofNat t).toNat = t
    rw [UInt8.toNat_ofNat']
    exact Nat.mod_eq_of_lt (by simp at this; omega)

/-- Directory sectors that are neither system sectors nor in the directory yet. -/
theorem nextFreeBlock_directory (hr : Recorded b s.type v) (h : OnDisk d s v)
    (ht : v.dir.getLast? = some p) :
    ((∃ m, ValidLoc s.type (bamTracks s.type) m ∧ m.track.toNat = directoryTrack s.type ∧
        systemSector s.type m = false ∧ m ∉ v.dir) ∧
      ∃ l, b.nextFreeBlock (some p) = .ok l ∧ ValidLoc s.type (bamTracks s.type) l ∧
      l.track.toNat = directoryTrack s.type ∧ systemSector s.type l = false ∧ l ∉ v.dir) ∨
    ((∀ m, ValidLoc s.type (bamTracks s.type) m → m.track.toNat = directoryTrack s.type →
        systemSector s.type m = false → m ∈ v.dir) ∧
      b.nextFreeBlock (some p) = fail .diskFull) := by
  have hb := hr.consistent.toBamOf
  have hpm : p ∈ v.dir := List.mem_of_getLast? ht
  have hpt := (h.dirTrack p hpm).1
  have hpv : s.Valid p := h.dir_valid hpm
  have hrange : 1 ≤ directoryTrack s.type ∧ directoryTrack s.type ≤ bamTracks s.type := by
    cases s.type <;> decide
  have hval : ValidLoc s.type (bamTracks s.type) p := by
    refine ⟨hpv.1, by rw [hpt]; exact hrange.2, hpv.2.2⟩
  rw [nextFreeBlock_some hb]
  have notUsed : ∀ m, m.track.toNat = directoryTrack s.type → m ∉ v.used :=
    fun m hm hu => (h.dataLocs m hu).not_directory hm
  rcases fromPrevious_spec hb b.format.geos hval with ⟨l, h1, h2, h3, _⟩ | ⟨h1, h2⟩ |
    ⟨_, t, n, h2, h3, h4, h5, h6⟩
  · left
    obtain ⟨x, hx, hxl⟩ := fromPrevious_track hb _ hval.1 hval.2.1 h1
    rw [hpt, nextSeq_directory] at hx
    simp only [List.mem_singleton] at hx
    subst hx
    have hocc : ¬ v.Occupies s.type l := by
      intro ho
      rw [(hr.exact l h2).2 ho] at h3
      cases h3
    have hns : systemSector s.type l = false := by
      cases hs : systemSector s.type l with
      | false => rfl
      | true => exact absurd (.inl hs) hocc
    have hnd : l ∉ v.dir := fun hd => hocc (.inr (.inl hd))
    exact ⟨⟨l, h2, hxl, hns, hnd⟩, l, h1, h2, hxl, hns, hnd⟩
  · right
    refine ⟨?_, h1⟩
    intro m hm hmt hms
    rw [hpt, nextSeq_directory] at h2
    have h0 : recorded b m.track.toNat = some 0 := by
      rw [hmt]; exact h2 (directoryTrack s.type, false) (by simp)
    have hc := hr.consistent.counts _ hm.1 hm.2.1
    rw [h0] at hc
    have hfz : isFree b m = false := by
      cases hf : isFree b m with
      | false => rfl
      | true =>
        have hmem : m.sector.toNat ∈ (List.range (sectorsPerTrack s.type m.track.toNat)).filter
            fun s => freeAt b m.track.toNat s :=
          List.mem_filter.2 ⟨List.mem_range.2 hm.2.2, hf⟩
        have := List.length_pos_of_mem hmem
        have := Option.some.inj hc
        unfold freeOn at this
        omega
    rcases (hr.exact m hm).1 hfz with ho | ho | ho
    · rw [hms] at ho; cases ho
    · exact ho
    · exact absurd ho (notUsed m hmt)
  · exfalso
    rw [hr.consistent.counts t h2 h3] at h4
    cases h4
    unfold freeOn at h5
    obtain ⟨x, hx⟩ := List.exists_mem_of_length_pos h5
    rw [List.mem_filter, List.mem_range] at hx
    rw [h6 x hx.1] at hx
    cases hx.2

/-- How many sectors the directory can have. -/
def dirSectors (ty : DiskType) : List Location :=
  ((List.range (sectorsPerTrack ty (directoryTrack ty))).map fun x =>
    (⟨UInt8.ofNat (directoryTrack ty), UInt8.ofNat x⟩ : Location)).filter
      fun l => !systemSector ty l

theorem length_dirSectors (ty : DiskType) : 8 * (dirSectors ty).length = maxSlots ty := by
  cases ty <;> decide +kernel

theorem dirSectors_nodup (ty : DiskType) : (dirSectors ty).Nodup := by
  cases ty <;> decide +kernel

theorem mem_dirSectors : l ∈ dirSectors ty ↔ l.track.toNat = directoryTrack ty ∧
    l.sector.toNat < sectorsPerTrack ty (directoryTrack ty) ∧ systemSector ty l = false := by
  unfold dirSectors
  rw [List.mem_filter, List.mem_map]
  have hlt : directoryTrack ty < 256 := by cases ty <;> decide
  have hlt' : sectorsPerTrack ty (directoryTrack ty) ≤ 40 := by cases ty <;> decide
  constructor
  · rintro ⟨⟨x, hx, rfl⟩, h⟩
    rw [List.mem_range] at hx
    refine ⟨?_, ?_, by simpa using h⟩
    · show (UInt8.ofNat _).toNat = _
      rw [UInt8.toNat_ofNat']; exact Nat.mod_eq_of_lt hlt
    · show (UInt8.ofNat _).toNat < _
      rw [UInt8.toNat_ofNat', Nat.mod_eq_of_lt (by omega)]; exact hx
  · rintro ⟨h1, h2, h3⟩
    refine ⟨⟨l.sector.toNat, by rw [List.mem_range]; exact h2, ?_⟩, by simp [h3]⟩
    cases l with
    | mk t x =>
      simp only at h1 h2 ⊢
      rw [← h1]
      simp

theorem Spec.OnDisk.dir_nodup (h : OnDisk d s v) : v.dir.Nodup := h.dirChain.choose_spec.nodup

theorem Spec.OnDisk.dir_sub (h : OnDisk d s v) (hl : l ∈ v.dir) : l ∈ dirSectors s.type := by
  have h1 := h.dirTrack l hl
  have h2 := h.dir_valid hl
  rw [mem_dirSectors]
  refine ⟨h1.1, ?_, h1.2⟩
  rw [← h1.1]; exact h2.2.2

theorem Spec.OnDisk.slots_le (h : OnDisk d s v) : v.slots.length ≤ maxSlots s.type := by
  rw [h.slotCount, ← length_dirSectors]
  have := nodup_length_le_of_subset v.dir (dirSectors s.type) h.dir_nodup fun l hl => h.dir_sub hl
  omega

/-- The directory can grow exactly while it is smaller than the maximum. -/
theorem Spec.OnDisk.dir_room (h : OnDisk d s v) :
    v.slots.length < maxSlots s.type ↔
      ∃ m, ValidLoc s.type (bamTracks s.type) m ∧ m.track.toNat = directoryTrack s.type ∧
        systemSector s.type m = false ∧ m ∉ v.dir := by
  have hrange : 1 ≤ directoryTrack s.type ∧ directoryTrack s.type ≤ bamTracks s.type := by
    cases s.type <;> decide
  rw [h.slotCount, ← length_dirSectors]
  constructor
  · intro hlt
    apply Classical.byContradiction
    intro hno
    have : (dirSectors s.type).length ≤ v.dir.length := by
      apply nodup_length_le_of_subset _ _ (dirSectors_nodup _)
      intro m hm
      rw [mem_dirSectors] at hm
      apply Classical.byContradiction
      intro hnd
      refine hno ⟨m, ⟨?_, ?_, ?_⟩, hm.1, hm.2.2, hnd⟩
      · rw [hm.1]; exact hrange.1
      · rw [hm.1]; exact hrange.2
      · rw [hm.1]; exact hm.2.1
    omega
  · rintro ⟨m, hv, ht, hs, hnd⟩
    have hm : m ∈ dirSectors s.type := mem_dirSectors.2 ⟨ht, by rw [← ht]; exact hv.2.2, hs⟩
    have := nodup_length_le_of_subset (m :: v.dir) (dirSectors s.type)
      (List.nodup_cons.2 ⟨hnd, h.dir_nodup⟩) (by
        intro x hx
        rcases List.mem_cons.1 hx with rfl | hx
        · exact hm
        · exact h.dir_sub hx)
    rw [List.length_cons] at this
    omega

end Cbm
