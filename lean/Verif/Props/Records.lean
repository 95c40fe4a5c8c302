import Verif.Props.BystanderRelative
import Verif.Spec.Records
/-!
# C88: A file has as many records as it says
-/

namespace Cbm
open Spec

variable {d : Device} {s : Shape} {e : DirectoryEntry} {es : List DirectoryEntry}

theorem chainContent_noSuch (hw : Wf d s) (start : Location) : ¬ NoSuchRecord (chainContent d start) := by
  rintro (h | h) <;> rcases C16_outcomes hw start with ⟨c, h'⟩ | h' | h' | h' <;> rw [h] at h' <;> cases h'

theorem sector_noSuch (hw : Wf d s) (l : Location) :
    d.sector l ≠ fail .invalidRecord ∧ d.sector l ≠ fail .invalidRecordIndex := by
  by_cases hv : s.Valid l
  · rw [hw.sector hv]; exact ⟨nofun, nofun⟩
  · rw [hw.sector_invalid hv]; exact ⟨nofun, nofun⟩

theorem readPosition_noSuch (hw : Wf d s) (p : Position) : ¬ NoSuchRecord (d.readPosition p) := by
  unfold Device.readPosition
  obtain ⟨h1, h2⟩ := sector_noSuch hw p.location
  cases hs : d.sector p.location with
  | error err =>
    rw [hs] at h1 h2
    simp only [res_bind_error]
    rintro (h | h)
    · exact h1 (by rw [Except.error.inj h])
    · exact h2 (by rw [Except.error.inj h])
  | ok block =>
    simp only [res_bind_ok]
    unfold subSlice
    split
    · rintro (h | h) <;> cases h
    · rintro (h | h) <;> cases h

theorem relative_noSuch (hw : Wf d s) (f : RelativeFile) (i : Nat) :
    NoSuchRecord (f.record d i) ↔ f.records ≤ i := by
  unfold RelativeFile.record
  constructor
  · intro h
    refine Decidable.byContradiction fun hi => ?_
    cases hp : f.recordPosition i with
    | error err =>
      rw [hp] at h
      simp only [res_bind_error] at h
      unfold RelativeFile.recordPosition at hp
      rw [if_neg (by omega)] at hp
      unfold indexRes at hp
      simp only [] at hp
      have : err = .panic := by
        cases h1 : f.dataSectors[f.recordSize * i / (BLOCK_SIZE - 2)]? with
        | none => rw [h1] at hp; simp only [rpanic, res_bind_error] at hp; exact (Except.error.inj hp).symm
        | some l =>
          rw [h1] at hp
          simp only [res_bind_ok] at hp
          split at hp
          · cases hp
          · cases h2 : f.dataSectors[f.recordSize * i / (BLOCK_SIZE - 2) + 1]? with
            | none => rw [h2] at hp; simp only [rpanic, res_bind_error] at hp; exact (Except.error.inj hp).symm
            | some l => rw [h2] at hp; cases hp
      subst this
      rcases h with h | h <;> cases h
    | ok pq =>
      obtain ⟨p, q⟩ := pq
      rw [hp] at h
      simp only [res_bind_ok] at h
      have ha := readPosition_noSuch hw p
      cases h1 : d.readPosition p with
      | error err => rw [h1] at h ha; exact ha h
      | ok a =>
        rw [h1] at h
        simp only [res_bind_ok] at h
        cases q with
        | none =>
          simp only [res_bind_ok] at h
          split at h <;> rcases h with h | h <;> cases h
        | some q =>
          have hb := readPosition_noSuch hw q
          simp only [] at h
          cases h2 : d.readPosition q with
          | error err => rw [h2] at h hb; exact hb h
          | ok b =>
            rw [h2] at h
            simp only [res_bind_ok] at h
            split at h <;> rcases h with h | h <;> cases h
  · intro hi
    unfold RelativeFile.recordPosition
    rw [if_pos hi]
    exact .inr rfl

/-- **C88** A linear, relative or VLIR file of a listing answers a request for a record with "no such record"
exactly if the index is not below the number of records.  (Missing: GEOS sequential files, see
`C88_sequential_refuted`.) -/
theorem C88_records_partial {disk : Disk} {f : File} {r : Nat} (hw : Wf disk.dev s)
    (hes : disk.directory = .ok es) (he : e ∈ es) (hs : e.scheme ≠ .geosSequential)
    (hf : disk.openFileFromEntry e = .ok (f, r)) (i : Nat) :
    NoSuchRecord (f.record disk.dev i) ↔ f.recordCount ≤ i := by
  have hf := (openFile_parts hf).2
  cases hsc : e.scheme with
  | linear =>
    unfold File.fromEntry at hf
    rw [hsc] at hf
    cases hf
    show NoSuchRecord (if i = 0 then _ else _) ↔ 1 ≤ i
    by_cases hi : i = 0
    · rw [if_pos hi]
      exact ⟨fun h => absurd h (chainContent_noSuch hw _), fun h => by omega⟩
    · rw [if_neg hi]
      exact ⟨fun _ => by omega, fun _ => .inl rfl⟩
  | relative =>
    unfold File.fromEntry at hf
    rw [hsc] at hf
    obtain ⟨rf, -, hf⟩ := res_bind_eq_ok.1 hf
    cases hf
    exact relative_noSuch hw rf i
  | geosSequential => exact absurd hsc hs
  | geosVLIR =>
    obtain ⟨p, -, hslot⟩ := listed_slot hw hes he
    rcases geos_opened hslot (.inr hsc) hf with ⟨h1, -⟩ | ⟨-, block, -, rfl⟩
    · rw [hsc] at h1; cases h1
    · show NoSuchRecord (GEOSFile.record ⟨e, some (vlirRecords block)⟩ disk.dev i) ↔ (vlirRecords block).length ≤ i
      unfold GEOSFile.record GEOSFile.recordStart
      simp only []
      cases hr : (vlirRecords block)[i]? with
      | none => exact ⟨fun _ => List.getElem?_eq_none_iff.1 hr, fun _ => .inr rfl⟩
      | some o =>
        have hlt : i < (vlirRecords block).length := (List.getElem?_eq_some_iff.1 hr).1
        refine ⟨fun h => ?_, fun h => by omega⟩
        cases o with
        | none => rcases h with h | h <;> cases h
        | some l => exact absurd h (chainContent_noSuch hw l)

/-- **C88** The one record of a linear file is its content. -/
theorem C88_linear {disk : Disk} {f : File} {r : Nat} (hw : Wf disk.dev s) (hs : e.scheme = .linear)
    (hf : disk.openFileFromEntry e = .ok (f, r)) : f.recordCount = 1 ∧ ∀ i content,
      f.record disk.dev i = .ok content ↔
        i = 0 ∧ ∃ locs, locs.head? = some e.firstSector ∧ IsChain disk.dev s locs content := by
  have hf := (openFile_parts hf).2
  unfold File.fromEntry at hf
  rw [hs] at hf
  cases hf
  refine ⟨rfl, fun i content => ?_⟩
  show (if i = 0 then _ else _) = _ ↔ _
  by_cases hi : i = 0
  · rw [if_pos hi, C16_read_ok_iff hw]
    exact ⟨fun h => ⟨hi, h⟩, fun h => h.2⟩
  · rw [if_neg hi]
    exact ⟨nofun, fun h => absurd h.1 hi⟩

/-- **C88** is false of GEOS sequential files: each of them says that it has one record, and gives its content as
the record of every index. -/
theorem C88_sequential_refuted {disk : Disk} {f : File} {r : Nat} {locs : List Location} {content : List Byte}
    (hw : Wf disk.dev s) (hes : disk.directory = .ok es) (he : e ∈ es) (hs : e.scheme = .geosSequential)
    (hf : disk.openFileFromEntry e = .ok (f, r)) (hh : locs.head? = some e.firstSector)
    (hc : IsChain disk.dev s locs content) : f.recordCount = 1 ∧ ∀ i, f.record disk.dev i = .ok content := by
  obtain ⟨p, -, hslot⟩ := listed_slot hw hes he
  rcases geos_opened hslot (.inl hs) (openFile_parts hf).2 with ⟨-, rfl⟩ | ⟨h1, -⟩
  · exact ⟨rfl, fun i => (C16_read_ok_iff hw _ _).2 ⟨locs, hh, hc⟩⟩
  · rw [hs] at h1; cases h1

/-- There is such a file: on a disk with one file of three bytes, the record 5 of 1 can be read. -/
example : ∃ (disk : Disk) (e : DirectoryEntry) (f : File) (r : Nat), disk.directory = .ok [e] ∧
    disk.openFileFromEntry e = .ok (f, r) ∧ f.recordCount = 1 ∧ f.record disk.dev 5 = .ok [1, 2, 3] := by
  obtain ⟨b, hb, -⟩ := exists_sampleBam
  obtain ⟨hw, hblk, hoth⟩ := sampleDev_facts (front := sampleVlirFront) (slot := sampleSequentialSlot)
    (by decide +kernel) (by decide)
  have c1 : IsChain sampleVlir ⟨.d64, 35, false⟩ [⟨1, 1⟩] [1, 2, 3] :=
    ⟨by decide +kernel, by decide, trivial, [], ⟨1, 1⟩, rfl, by decide +kernel, by decide +kernel,
      by decide +kernel⟩
  have c1' := c1.frame (d' := sampleDev sampleVlirFront sampleSequentialSlot) fun l hl => by
    rw [List.mem_singleton] at hl
    subst hl
    exact hoth _ (by decide) (by decide)
  have ho := sampleSession_opened (front := sampleVlirFront) (slot := sampleSequentialSlot)
    (e := DirectoryEntry.parse32 sampleSequentialSlot (some ⟨⟨18, 1⟩, 0, 32⟩))
    (by decide +kernel) (by decide) hb (by decide +kernel) (f := .geosSequential ⟨_, none⟩) rfl
  obtain ⟨f, r, hf, -⟩ := ho.handle
  obtain ⟨h1, h2⟩ := C88_sequential_refuted ho.wf ho.listed ho.entry (by decide +kernel) hf
    (locs := [⟨1, 1⟩]) (by decide +kernel) c1'
  exact ⟨_, _, f, r, ho.listed, hf, h1, h2 5⟩

/-- The hypotheses of `C88_records_partial` hold of a relative file and of a linear one. -/
example : ∃ (disk : Disk) (s : Shape) (e o : DirectoryEntry) (f g : File) (r : Nat), Wf disk.dev s ∧
    disk.directory = .ok [e, o] ∧ e.scheme = .relative ∧ o.scheme = .linear ∧
    disk.openFileFromEntry e = .ok (f, r) ∧ disk.openFileFromEntry o = .ok (g, r) := by
  obtain ⟨b, hb, -⟩ := crossed_bam
  obtain ⟨ho, -⟩ := crossed_opened hb
  obtain ⟨f, r, hf, -⟩ := ho.handle
  refine ⟨_, _, _, _, f, .linear crossedOther, r, ho.wf, ho.listed, by decide +kernel, by decide +kernel, hf, ?_⟩
  have hg : File.fromEntry crossedDev crossedOther = .ok (.linear crossedOther) := by
    unfold File.fromEntry
    rw [show crossedOther.scheme = .linear by decide +kernel]
  have hr : 0 = r := Option.some.inj (openFile_parts hf).1
  show (do let r ← Except.ok 0; let f ← File.fromEntry crossedDev crossedOther; pure (f, r) : Res _) = _
  simp only [res_bind_ok, hg, hr]
  rfl

end Cbm
