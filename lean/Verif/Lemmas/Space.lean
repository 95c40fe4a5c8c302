import Verif.Lemmas.Volume
import Verif.Props.Device
/-!
# Free space of a volume
-/

namespace Cbm
open Spec

variable {d d' : Device} {s : Shape} {v v' : Volume} {i j : Nat} {f f' : FileRec}
  {l : Location} {ty : DiskType} {b b' : Bam} {x : Option FileRec}

theorem mem_allSectors {n : Nat} {p : Nat × Nat} :
    p ∈ allSectors ty n ↔ 1 ≤ p.1 ∧ p.1 ≤ n ∧ p.2 < sectorsPerTrack ty p.1 := by
  unfold allSectors
  simp only [List.mem_flatMap, List.mem_range, List.mem_map]
  constructor
  · rintro ⟨t, ht, a, ha, rfl⟩
    exact ⟨by simp, by simp only []; omega, ha⟩
  · rintro ⟨h1, h2, h3⟩
    refine ⟨p.1 - 1, by omega, p.2, ?_, ?_⟩
    · rw [Nat.sub_add_cancel h1]; exact h3
    · rw [Nat.sub_add_cancel h1]

theorem mem_dataSectors : l ∈ dataSectors ty ↔ DataLoc ty l := by
  unfold dataSectors DataLoc ValidLoc
  simp only [List.mem_map, List.mem_filter, mem_allSectors, Bool.not_eq_true']
  constructor
  · rintro ⟨p, ⟨⟨h1, h2, h3⟩, h4⟩, rfl⟩
    have hb := bamTracks_le ty
    have hs := sectorsPerTrack_le ty p.1
    have e1 : (UInt8.ofNat p.1).toNat = p.1 := by rw [UInt8.toNat_ofNat']; omega
    have e2 : (UInt8.ofNat p.2).toNat = p.2 := by rw [UInt8.toNat_ofNat']; omega
    simp only [e1, e2]
    exact ⟨⟨h1, h2, h3⟩, h4⟩
  · rintro ⟨h, h4⟩
    refine ⟨(l.track.toNat, l.sector.toNat), ⟨h, h4⟩, ?_⟩
    simp

theorem dataSectors_nodup (ty : DiskType) : (dataSectors ty).Nodup := by
  have hnd : (allSectors ty (bamTracks ty)).Nodup := by
    refine (C39_enumeration_exact ty (bamTracks ty)).1.imp ?_
    rintro a c hac rfl
    omega
  unfold dataSectors
  refine nodup_map_of_injOn _ (hnd.sublist List.filter_sublist) ?_
  intro p hp q hq e
  have hp' := mem_allSectors.1 (List.mem_filter.1 hp).1
  have hq' := mem_allSectors.1 (List.mem_filter.1 hq).1
  have hb := bamTracks_le ty
  have := sectorsPerTrack_le ty p.1
  have := sectorsPerTrack_le ty q.1
  simp only [Location.mk.injEq, byte_eq_iff, UInt8.toNat_ofNat'] at e
  refine Prod.ext ?_ ?_ <;> omega

theorem length_dataSectors (ty : DiskType) : (dataSectors ty).length = dataBlocks ty := by
  cases ty <;> decide +kernel

theorem Spec.OnDisk.used_le (h : OnDisk d s v) : v.used.length ≤ dataBlocks s.type := by
  rw [← length_dataSectors]
  exact nodup_length_le_of_subset _ _ h.apart fun l hl => mem_dataSectors.2 (h.dataLocs l hl)

theorem Spec.OnDisk.room_pos (h : OnDisk d s v) :
    0 < v.room s.type ↔ ∃ l, DataLoc s.type l ∧ l ∉ v.used := by
  unfold Volume.room
  constructor
  · intro hr
    apply Classical.byContradiction
    intro hn
    have : (dataSectors s.type).length ≤ v.used.length := by
      apply nodup_length_le_of_subset
      · exact dataSectors_nodup s.type
      · intro l hl
        apply Classical.byContradiction
        intro hu
        exact hn ⟨l, mem_dataSectors.1 hl, hu⟩
    rw [length_dataSectors] at this
    omega
  · rintro ⟨l, hl, hu⟩
    have : (l :: v.used).length ≤ (dataSectors s.type).length := by
      apply nodup_length_le_of_subset
      · exact List.nodup_cons.2 ⟨hu, h.apart⟩
      · intro m hm
        rcases List.mem_cons.1 hm with rfl | hm
        · exact mem_dataSectors.2 hl
        · exact mem_dataSectors.2 (h.dataLocs m hm)
    rw [length_dataSectors, List.length_cons] at this
    omega

/-- A data sector is marked free exactly when no file uses it. -/
theorem Spec.Recorded.data_free (hr : Recorded b s.type v) (h : OnDisk d s v)
    (hl : DataLoc s.type l) : isFree b l = true ↔ l ∉ v.used := by
  have hx := hr.exact l hl.1
  have : v.Occupies s.type l ↔ l ∈ v.used := by
    unfold Volume.Occupies
    rw [hl.not_system]
    constructor
    · rintro (h1 | h1 | h1)
      · cases h1
      · exact absurd (h.dirTrack l h1).1 hl.not_directory
      · exact h1
    · exact fun h1 => Or.inr (Or.inr h1)
  rw [this] at hx
  rw [← hx]
  cases isFree b l <;> simp

/-- The search for a block on a recorded volume. -/
theorem nextFreeBlock_volume (hr : Recorded b s.type v) (h : OnDisk d s v) :
    (0 < v.room s.type ∧ ∃ l, b.nextFreeBlock none = .ok l ∧ DataLoc s.type l ∧ l ∉ v.used) ∨
    (v.room s.type = 0 ∧ b.nextFreeBlock none = fail .diskFull) := by
  have hc := C09_first_block hr.consistent (fun l hv hs hd => by
    rw [hr.exact l hv]
    exact Or.inl (systemTrack_cases hs hd))
  by_cases hex : ∃ l, b.nextFreeBlock none = .ok l
  · left
    obtain ⟨l, hl⟩ := hex
    obtain ⟨hv, hfree, hnd, _⟩ := C08_result_valid hr.consistent.toBamOf none hl
    have hdl : DataLoc s.type l := by
      refine ⟨hv, ?_⟩
      cases hs : systemTrack s.type l.track.toNat with
      | false => rfl
      | true =>
        have hd : l.track.toNat ≠ directoryTrack s.type := fun e => by
          obtain ⟨p, hp, _⟩ := hnd e
          cases hp
        have := (hr.exact l hv).2 (Or.inl (systemTrack_cases hs hd))
        rw [hfree] at this
        cases this
    have hu := (hr.data_free h hdl).1 hfree
    exact ⟨h.room_pos.2 ⟨l, hdl, hu⟩, l, hl, hdl, hu⟩
  · right
    refine ⟨?_, hc.2 hex⟩
    rcases Nat.eq_zero_or_pos (v.room s.type) with h0 | h0
    · exact h0
    · exfalso
      obtain ⟨l, hl, hu⟩ := h.room_pos.1 h0
      exact hex (hc.1.2 ⟨l, hl.1, hl.2, (hr.data_free h hl).2 hu⟩)

theorem filter_length_not {α : Type} (p : α → Bool) (l : List α) :
    (l.filter p).length + (l.filter fun a => !p a).length = l.length := by
  induction l with
  | nil => rfl
  | cons a l ih =>
    rw [List.filter_cons, List.filter_cons, List.length_cons]
    cases p a <;> simp <;> omega

/-- `blocks_free` is the number of data sectors no file uses. -/
theorem blocksFree_volume (hr : Recorded b s.type v) (h : OnDisk d s v) :
    b.blocksFree = .ok (v.room s.type) := by
  rw [C12_blocks_free hr.consistent]
  congr 1
  have h1 : ((dataSectors s.type).filter fun l => decide (l ∈ v.used)).length = v.used.length := by
    apply Nat.le_antisymm
    · apply nodup_length_le_of_subset
      · exact (dataSectors_nodup _).sublist List.filter_sublist
      · intro l hl; simpa using (List.mem_filter.1 hl).2
    · apply nodup_length_le_of_subset
      · exact h.apart
      · intro l hl
        exact List.mem_filter.2 ⟨mem_dataSectors.2 (h.dataLocs l hl), by simpa using hl⟩
  have h2 := filter_length_not (fun l => decide (l ∈ v.used)) (dataSectors s.type)
  rw [length_dataSectors] at h2
  have h3 : ((allSectors s.type (bamTracks s.type)).filter fun p =>
      p.1 ≠ directoryTrack s.type && freeAt b p.1 p.2).length =
      ((dataSectors s.type).filter fun l => !decide (l ∈ v.used)).length := by
    unfold dataSectors
    rw [List.filter_map, List.length_map, List.filter_filter]
    congr 1
    apply List.filter_congr
    intro p hp
    have hp' := mem_allSectors.1 hp
    have hb := bamTracks_le s.type
    have hs := sectorsPerTrack_le s.type p.1
    have e1 : (UInt8.ofNat p.1).toNat = p.1 := by rw [UInt8.toNat_ofNat']; omega
    have e2 : (UInt8.ofNat p.2).toNat = p.2 := by rw [UInt8.toNat_ofNat']; omega
    have hv : ValidLoc s.type (bamTracks s.type) ⟨UInt8.ofNat p.1, UInt8.ofNat p.2⟩ := by
      unfold ValidLoc; simp only [e1, e2]; exact hp'
    by_cases hd : DataLoc s.type ⟨UInt8.ofNat p.1, UInt8.ofNat p.2⟩
    · have hf := hr.data_free h hd
      have hnd := hd.not_directory
      have hsys := hd.2
      unfold isFree at hf
      simp only [e1, e2] at hf hnd hsys
      simp only [Function.comp, hsys, hnd, ne_eq, not_false_eq_true, decide_true, Bool.true_and,
        Bool.not_false, Bool.and_true]
      cases hfree : freeAt b p.1 p.2 with
      | true => rw [hfree] at hf; simpa using hf
      | false => rw [hfree] at hf; simpa using hf
    · have hsys : systemTrack s.type p.1 = true := by
        cases hs : systemTrack s.type p.1 with
        | true => rfl
        | false => exact absurd ⟨hv, by simp only [e1]; exact hs⟩ hd
      simp only [hsys, Bool.not_true, Bool.and_false]
      by_cases hdir : p.1 = directoryTrack s.type
      · simp [hdir]
      · have := (hr.exact _ hv).2 (Or.inl (systemTrack_cases (by simp only [e1]; exact hsys)
          (by simp only [e1]; exact hdir)))
        unfold isFree at this
        simp only [e1, e2] at this
        simp [this]
  rw [h3]
  unfold Volume.room
  omega

/-- The BAM after taking one more sector for the file in slot `i`. -/
theorem Spec.Recorded.allocate (hr : Recorded b s.type v) (hi : v.slots[i]? = some x)
    (hl : ValidLoc s.type (bamTracks s.type) l) (hp : ∀ m, m ∈ slotLocs (some f) ↔ m = l ∨ m ∈ slotLocs x) :
    ∃ b', b.allocate l = .ok b' ∧ Recorded b' s.type (v.set i (some f)) ∧ b'.format = b.format := by
  obtain ⟨b', hb', hf⟩ := allocate_ok hr.consistent.toBamOf hl.inBam
  refine ⟨b', hb', ⟨hf.consistent hr.consistent hl, ?_⟩, hf.format⟩
  intro m hm
  rw [isFree_flip hf]
  have ho := hr.exact m hm
  unfold Volume.Occupies at ho ⊢
  rw [(used_perm hi).mem_iff, List.mem_append] at ho
  rw [(used_set_perm (slot_lt hi) _).mem_iff, List.mem_append, hp m]
  by_cases hml : m = l
  · rw [if_pos hml]
    constructor
    · intro _; right; right; left; exact Or.inl hml
    · intro _; rfl
  · rw [if_neg hml]
    simp only [hml, false_or]
    exact ho

/-- `Recorded` sees only the directory and the set of used sectors. -/
theorem Spec.Recorded.congr (hr : Recorded b ty v) (hd : v'.dir = v.dir)
    (hu : ∀ l, l ∈ v'.used ↔ l ∈ v.used) : Recorded b ty v' := by
  refine ⟨hr.consistent, fun l hl => ?_⟩
  rw [hr.exact l hl]
  unfold Volume.Occupies
  rw [hd, hu l]

theorem Spec.Recorded.setSame (hr : Recorded b ty v) (hi : v.slots[i]? = some x)
    {y : Option FileRec} (hxy : slotLocs y = slotLocs x) : Recorded b ty (v.set i y) := by
  refine hr.congr rfl fun l => ?_
  rw [(used_set_perm (slot_lt hi) _).mem_iff, (used_perm hi).mem_iff, hxy]

theorem room_set (hi : v.slots[i]? = some (some f)) (hl : f'.locs.length = f.locs.length + 1) :
    (v.set i (some f')).room ty = v.room ty - 1 := by
  unfold Volume.room
  rw [(used_set_perm (slot_lt hi) _).length_eq, (used_perm hi).length_eq]
  simp only [List.length_append, slotLocs, Option.map_some, Option.getD_some, hl]
  omega

theorem room_set_same {y : Option FileRec} (hi : v.slots[i]? = some x)
    (hl : (slotLocs y).length = (slotLocs x).length) :
    (v.set i y).room ty = v.room ty := by
  unfold Volume.room
  rw [(used_set_perm (slot_lt hi) _).length_eq, (used_perm hi).length_eq]
  simp only [List.length_append, hl]

end Cbm
