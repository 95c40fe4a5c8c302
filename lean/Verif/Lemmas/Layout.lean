import Verif.Spec.Layout
/-!
# Facts about the track tables
-/

namespace Cbm
open Spec

theorem sectorsUpTo_mono (ty : DiskType) {a b : Nat} (h : a ≤ b) :
    sectorsUpTo ty a ≤ sectorsUpTo ty b := by
  induction b with
  | zero => have : a = 0 := by omega
            subst this; exact Nat.le_refl _
  | succ n ih =>
    by_cases hab : a = n + 1
    · subst hab; exact Nat.le_refl _
    · have := ih (by omega); simp only [sectorsUpTo]; omega

/-- Decidable table check: the row of every existing track. -/
def rowOK (ty : DiskType) (g : Geometry) (i : Nat) : Bool :=
  match g.trackLayouts[i]? with
  | some row => row.sectors == sectorsPerTrack ty i && row.byteOffset == 256 * sectorsUpTo ty (i - 1)
  | none => false

theorem rows_checked : ∀ ty ∈ [DiskType.d64, .d71, .d81], ∀ g ∈ ty.geometries,
    ∀ i ∈ List.range g.tracks, rowOK ty g (i + 1) = true := by decide +kernel

theorem mem_diskTypes (ty : DiskType) : ty ∈ [DiskType.d64, .d71, .d81] := by cases ty <;> simp

theorem row_of_geometry {ty : DiskType} {g : Geometry} (hg : g ∈ ty.geometries) {i : Nat}
    (h1 : 1 ≤ i) (h2 : i ≤ g.tracks) :
    ∃ row, g.trackLayouts[i]? = some row ∧ row.sectors = sectorsPerTrack ty i ∧
      row.byteOffset = 256 * sectorsUpTo ty (i - 1) := by
  have h := rows_checked ty (mem_diskTypes ty) g hg (i - 1) (by simp; omega)
  rw [show i - 1 + 1 = i by omega] at h
  unfold rowOK at h
  split at h
  · rename_i row hrow
    simp only [Bool.and_eq_true, beq_iff_eq] at h
    exact ⟨row, hrow, h.1, h.2⟩
  · cases h

/-- Decidable table check: the sizes of the geometries. -/
theorem sizes_checked : ∀ ty ∈ [DiskType.d64, .d71, .d81], ∀ g ∈ ty.geometries,
    (⟨ty, g.tracks, g.withErrorTable⟩ : Shape) ∈ shapes ∧
    g.sizeWithoutErrorTable = 256 * sectorsUpTo ty g.tracks ∧
    g.errorTableSize = sectorsUpTo ty g.tracks := by decide +kernel

theorem geometry_size {ty : DiskType} {g : Geometry} (hg : g ∈ ty.geometries) :
    g.size = (⟨ty, g.tracks, g.withErrorTable⟩ : Shape).size := by
  obtain ⟨_, h1, h2⟩ := sizes_checked ty (mem_diskTypes ty) g hg
  unfold Geometry.size Shape.size Shape.sectors
  simp only [h1, h2]
  cases g.withErrorTable <;> simp

theorem shape_of_geometry {ty : DiskType} {g : Geometry} (hg : g ∈ ty.geometries) :
    (⟨ty, g.tracks, g.withErrorTable⟩ : Shape) ∈ shapes :=
  (sizes_checked ty (mem_diskTypes ty) g hg).1

/-- Every shape has exactly one geometry. -/
theorem geometry_of_shape : ∀ s ∈ shapes, ∃ g ∈ s.type.geometries,
    g.tracks = s.tracks ∧ g.withErrorTable = s.errorTable := by decide +kernel

theorem shape_tracks_le : ∀ s ∈ shapes, s.tracks ≤ 80 := by decide

theorem sectorsPerTrack_le (ty : DiskType) (t : Nat) : sectorsPerTrack ty t ≤ 40 := by
  cases ty <;> simp only [sectorsPerTrack, zone] <;> repeat' split
  all_goals omega

theorem sectorsPerTrack_ge (ty : DiskType) (t : Nat) : 17 ≤ sectorsPerTrack ty t := by
  cases ty <;> simp only [sectorsPerTrack, zone] <;> repeat' split
  all_goals omega

theorem loc_ext {a b : Location} (h1 : a.track.toNat = b.track.toNat)
    (h2 : a.sector.toNat = b.sector.toNat) : a = b := by
  cases a; cases b; simp only [UInt8.toNat_inj] at h1 h2; rw [h1, h2]

theorem sectorNumber_lt {ty : DiskType} {n : Nat} {l : Location} (h : ValidLoc ty n l) :
    sectorNumber ty l < sectorsUpTo ty n := by
  obtain ⟨h1, h2, h3⟩ := h
  have := sectorsUpTo_mono ty h2
  obtain ⟨t, ht⟩ : ∃ t, l.track.toNat = t + 1 := ⟨l.track.toNat - 1, by omega⟩
  simp only [sectorNumber, ht, Nat.add_sub_cancel] at *
  simp only [sectorsUpTo] at this; omega

theorem sectorNumber_lt_of_track_lt {ty : DiskType} {n : Nat} {l m : Location}
    (hl : ValidLoc ty n l) (_ : ValidLoc ty n m) (h : l.track.toNat < m.track.toNat) :
    sectorNumber ty l < sectorNumber ty m := by
  obtain ⟨h1, h2, h3⟩ := hl
  obtain ⟨t, ht⟩ : ∃ t, l.track.toNat = t + 1 := ⟨l.track.toNat - 1, by omega⟩
  have := sectorsUpTo_mono ty (a := t + 1) (b := m.track.toNat - 1) (by omega)
  simp only [sectorNumber, ht, Nat.add_sub_cancel] at *
  simp only [sectorsUpTo] at this; omega

theorem sectorNumber_inj {ty : DiskType} {n : Nat} {l m : Location}
    (hl : ValidLoc ty n l) (hm : ValidLoc ty n m) (h : sectorNumber ty l = sectorNumber ty m) :
    l = m := by
  rcases Nat.lt_trichotomy l.track.toNat m.track.toNat with ht | ht | ht
  · have := sectorNumber_lt_of_track_lt hl hm ht; omega
  · refine loc_ext ht ?_
    simp only [sectorNumber, ht] at h; omega
  · have := sectorNumber_lt_of_track_lt hm hl ht; omega

/-- Every index below the sector count is the number of a location. -/
theorem sectorNumber_surj (ty : DiskType) (n : Nat) (hn : n < 256) (i : Nat)
    (hi : i < sectorsUpTo ty n) : ∃ l, ValidLoc ty n l ∧ sectorNumber ty l = i := by
  induction n with
  | zero => simp [sectorsUpTo] at hi
  | succ k ih =>
    by_cases h : i < sectorsUpTo ty k
    · obtain ⟨l, ⟨a, b, c⟩, hl⟩ := ih (by omega) h
      exact ⟨l, ⟨a, by omega, c⟩, hl⟩
    · simp only [sectorsUpTo] at hi
      have hle := sectorsPerTrack_le ty (k + 1)
      refine ⟨⟨UInt8.ofNat (k + 1), UInt8.ofNat (i - sectorsUpTo ty k)⟩, ?_, ?_⟩
      · refine ⟨?_, ?_, ?_⟩ <;>
          simp only [UInt8.toNat_ofNat', Nat.mod_eq_of_lt hn,
            Nat.mod_eq_of_lt (show i - sectorsUpTo ty k < 2 ^ 8 by omega)] <;> omega
      · simp only [sectorNumber, UInt8.toNat_ofNat', Nat.mod_eq_of_lt hn,
            Nat.mod_eq_of_lt (show i - sectorsUpTo ty k < 2 ^ 8 by omega)]
        simp; omega

end Cbm
