import Verif.Lemmas.BamEdit
import Verif.Lemmas.Start
/-!
# C56, C57: the BAM editor and the fill reader of `cdisk`
-/

namespace Cbm
open Spec

/-! ## C57 -/

/-- The bytes delivered by successive reads of any sizes: as many of the fill byte as
were asked for, up to the size; no read gives more than was asked, and a read that
gives nothing was asked for nothing or came after the end. -/
theorem C57_delivers (byte : Byte) (size : Nat) (sizes : List Nat) :
    ((FillReader.mk byte size).reads sizes).1.flatten =
        List.replicate (min size sizes.sum) byte ∧
    ((FillReader.mk byte size).reads sizes).2 = ⟨byte, size - sizes.sum⟩ ∧
    ((FillReader.mk byte size).reads sizes).1.length = sizes.length ∧
    ∀ i n piece, sizes[i]? = some n → ((FillReader.mk byte size).reads sizes).1[i]? = some piece →
      piece.length = min n (size - (sizes.take i).sum) := by
  induction sizes generalizing size with
  | nil => simp [FillReader.reads]
  | cons n ns ih =>
    obtain ⟨h1, h2, h3, h4⟩ := ih (size - min n size)
    simp only [FillReader.reads, FillReader.read]
    refine ⟨?_, ?_, by simp [h3], ?_⟩
    · simp only [List.flatten_cons, h1, List.replicate_append_replicate, List.sum_cons]
      congr 1; omega
    · rw [h2]; simp only [List.sum_cons]; congr 1; omega
    · intro i m piece hm hp
      cases i with
      | zero => simp at hm hp; subst hm hp; simp
      | succ i =>
        simp only [List.getElem?_cons_succ] at hm hp
        rw [h4 i m piece hm hp]
        simp only [List.take_succ_cons, List.sum_cons]
        omega

/-- Copying the reader to its end writes exactly `size` fill bytes, whatever buffer
sizes are used. -/
theorem C57_copy (byte : Byte) (size : Nat) (sizes : List Nat) (hpos : ∀ n ∈ sizes, 0 < n)
    (hlen : size < sizes.length) :
    (FillReader.mk byte size).copy sizes = some (List.replicate size byte) := by
  induction sizes generalizing size with
  | nil => simp at hlen
  | cons n ns ih =>
    have hn := hpos n (by simp)
    simp only [List.length_cons] at hlen
    simp only [FillReader.copy, FillReader.read]
    cases size with
    | zero => simp
    | succ size =>
      obtain ⟨k, hk⟩ : ∃ k, min n (size + 1) = k + 1 := ⟨min n (size + 1) - 1, by omega⟩
      have := ih (size + 1 - (k + 1)) (fun m hm => hpos m (by simp [hm])) (by omega)
      simp only [hk, List.replicate_succ, this, Option.map_some]
      rw [← List.replicate_succ, ← List.replicate_succ, List.replicate_append_replicate]
      congr 2; omega

example : ((FillReader.mk 7 5).reads [2, 0, 4, 1]).1 = [[7, 7], [], [7, 7, 7], []] := by decide
example : (FillReader.mk 7 5).copy [2, 1, 4, 8, 8, 8] = some [7, 7, 7, 7, 7] := by decide

/-! ## C56 -/

variable {b : Bam} {s : Shape} {disk : Disk} {r : Nat} {track sector : Option Nat}

/-- **C56** (partial: for sectors that exist on tracks that have an entry in the BAM)
Allocating or freeing the selected sectors succeeds; exactly the selected sectors are
then marked as asked for, all others as before; the counts are right; and the stored
BAM is the one in memory. -/
theorem C56_edit_partial (h : OpenAt disk s r b) (hb : Consistent b s.type) (allocate : Bool)
    (ht : ∀ t, track = some t → 1 ≤ t ∧ t ≤ bamTracks s.type)
    (hs : ∀ t n, trackSelected track t = true → sector = some n → n < sectorsPerTrack s.type t) :
    ∃ disk' b', bamEdit track sector allocate disk = (.ok (), disk') ∧
      disk'.bam = some r ∧ disk'.cells[r]? = some b' ∧ Consistent b' s.type ∧
      (∀ t n, freeAt b' t n =
        if trackSelected track t ∧ sectorSelected s.type sector t n then !allocate
        else freeAt b t n) ∧
      Bam.read disk'.dev s.type.format = .ok ⟨s.type.format, b'.entries, false⟩ := by
  obtain ⟨geos, hf⟩ := h.format
  have hts : ∀ t ∈ editTracks track, 1 ≤ t ∧ t ≤ bamTracks s.type ∧
      ∀ n, sector = some n → n < sectorsPerTrack s.type t := by
    cases track with
    | some t =>
      intro u hu
      simp only [editTracks, List.mem_singleton] at hu
      subst hu
      exact ⟨(ht u rfl).1, (ht u rfl).2, fun n => hs u n (by simp [trackSelected])⟩
    | none =>
      intro u hu
      obtain ⟨k, hk, rfl⟩ := List.mem_map.1 hu
      have hk := List.mem_range.1 hk
      have : 35 ≤ bamTracks s.type := by cases s.type <;> decide
      exact ⟨by omega, by omega, fun n => hs (k + 1) n (by simp [trackSelected]; omega)⟩
  obtain ⟨b', e, c, -, f⟩ := edit_tracks (d := disk.dev) (geos := geos) allocate _ hts hb
  obtain ⟨disk', k1, k2, k3, k4⟩ := edit_run h allocate hf e c.toBamOf c.fits
  refine ⟨disk', b', k1, k2, k3, c, ?_, k4⟩
  intro t n
  rw [f]
  have hm : (t ∈ editTracks track) ↔ trackSelected track t = true := by
    cases track with
    | some u => simp [trackSelected, editTracks]
    | none =>
      simp only [trackSelected, editTracks, List.mem_map, List.mem_range, Bool.and_eq_true, decide_eq_true_eq]
      constructor
      · rintro ⟨k, hk, rfl⟩; omega
      · rintro ⟨h1, h2⟩; exact ⟨t - 1, by omega, by omega⟩
  by_cases hc : trackSelected track t = true
  · rw [hc]
    have := hm.2 hc
    simp [this]
  · have : t ∉ editTracks track := fun hx => hc (hm.1 hx)
    simp [this, hc]

/-- The claim of C56 without the restriction is false: a sector number beyond the end of
the track can be freed, and the map is then inconsistent: it offers a sector that does
not exist. -/
theorem C56_stray_sector_refuted (h : OpenAt disk s r b) (hb : Consistent b s.type)
    {t n : Nat} (h1 : 1 ≤ t) (h2 : t ≤ bamTracks s.type) (hn : sectorsPerTrack s.type t ≤ n)
    (hbits : n < bitmapBits s.type) :
    ∃ disk' b', bamEdit (some t) (some n) false disk = (.ok (), disk') ∧
      disk'.cells[r]? = some b' ∧ freeAt b' t n = true ∧ ¬ Consistent b' s.type ∧
      Bam.read disk'.dev s.type.format = .ok ⟨s.type.format, b'.entries, false⟩ := by
  obtain ⟨geos, hf⟩ := h.format
  have hb40 : bitmapBits s.type ≤ 40 := by cases s.type <;> decide
  have ht : t < 256 := by have := bamTracks_le s.type; omega
  have et : (UInt8.ofNat t).toNat = t := by rw [UInt8.toNat_ofNat', Nat.mod_eq_of_lt ht]
  have en : (UInt8.ofNat n).toNat = n := by rw [UInt8.toNat_ofNat', Nat.mod_eq_of_lt (by omega)]
  obtain ⟨b', e1, f1⟩ := free_ok hb.toBamOf (l := ⟨UInt8.ofNat t, UInt8.ofNat n⟩)
    (by unfold InBam; simp only [et, en]; omega)
  have hfree : freeAt b' t n = true := by rw [f1.free]; simp [et, en]
  have hfit : Fits b' s.type := by
    have := hb.fits
    intro t' n' hn'
    rw [f1.free]
    rw [if_neg (by simp only [et, en]; omega)]
    exact this t' n' hn'
  have he : M.forEach [t] (fun t => St.updBam (editTrack (fmt s.type geos) (some n) false t))
      ⟨disk.dev, b⟩ = (.ok (), ⟨disk.dev, b'⟩) := by
    rw [M.run_forEach_cons]
    have hu : St.updBam (editTrack (fmt s.type geos) (some n) false t) ⟨disk.dev, b⟩ =
        (.ok (), ⟨disk.dev, b'⟩) := by
      unfold St.updBam
      refine M.update_ok ?_
      have : editTrack (fmt s.type geos) (some n) false t b = .ok b' := by
        rw [← e1]
        have := editOp_loc false ht (show n < 64 by omega) b
        rw [if_neg (by decide)] at this
        rw [← this]
        unfold editTrack
        congr 1
        funext e
        simp only [res_pure, res_bind_ok, foldRes, editOp]
        cases e.free n <;> simp
      simp only [this]
      rfl
    rw [hu]
    rfl
  obtain ⟨disk', k1, k2, k3, k4⟩ := edit_run (track := some t) (sector := some n) h false hf he
    f1.of hfit
  refine ⟨disk', b', k1, k3, hfree, ?_, k4⟩
  intro hc
  rw [hc.noStray t n hn] at hfree
  cases hfree

/-- And on the tracks 36 to 40, which the argument parser accepts, the editor panics on a
1541 disk, for every sector argument. -/
theorem C56_track_refuted (h : OpenAt disk s r b) (hb : BamOf b s.type) (hty : s.type = .d64)
    (allocate : Bool) {t : Nat} (h1 : 36 ≤ t) (h2 : t ≤ 40) (sector : Option Nat) :
    (bamEdit (some t) sector allocate disk).1 = .error .panic := by
  obtain ⟨geos, hf⟩ := h.format
  unfold bamEdit
  have e1 : (M.read Disk.diskFormat : M Disk DiskFormat) disk = (.ok (fmt s.type geos), disk) := by
    simp [Disk.diskFormat, hf, fmt]
  have e2 : (M.read Disk.bamRef : M Disk Nat) disk = (.ok r, disk) := by
    simp [Disk.bamRef, h.bam]
  rw [M.bind_of_ok e1, M.bind_of_ok e2]
  have hp : editTrack (fmt s.type geos) sector allocate t b = .error .panic := by
    unfold editTrack Bam.modifyEntry
    rw [checkValidity_ok hb, res_bind_ok, subU_ok (by omega), res_bind_ok]
    have : indexRes b.entries (t - 1) = .error .panic := by
      unfold indexRes
      rw [List.getElem?_eq_none (by rw [hb.length, hty]; simp [bamTracks]; omega)]
    rw [this]
    rfl
  have he : M.forEach (editTracks (some t))
      (fun t => St.updBam (editTrack (fmt s.type geos) sector allocate t))
      ⟨disk.dev, b⟩ = (.error .panic, ⟨disk.dev, b⟩) := by
    unfold editTracks
    rw [M.run_forEach_cons]
    have hu : St.updBam (editTrack (fmt s.type geos) sector allocate t) ⟨disk.dev, b⟩ =
        (.error .panic, ⟨disk.dev, b⟩) := by
      unfold St.updBam
      refine M.update_error ?_
      simp only [hp]
      rfl
    rw [hu]
  rw [withBam_run h.cell (M.bind_of_error he)]

example : ∃ disk s r b, OpenAt disk s r b ∧ Consistent b s.type ∧ s.type = .d64 ∧
    (∃ disk', bamEdit (some 35) (some 16) true disk = (.ok (), disk')) ∧
    (∃ disk', bamEdit none none false disk = (.ok (), disk')) ∧
    (∃ disk' b', bamEdit (some 35) (some 20) false disk = (.ok (), disk') ∧
      disk'.cells[r]? = some b' ∧ freeAt b' 35 20 = true) ∧
    (bamEdit (some 40) none false disk).1 = .error .panic := by
  obtain ⟨x, hx⟩ := exists_formatted .d64 [0x41] (by decide) (0x30, 0x31)
  obtain ⟨s, v, r, b, hrep⟩ := hx.rep
  have hty : s.type = .d64 := hrep.type.symm
  obtain ⟨h, hb⟩ := hrep.ready.openAt
  refine ⟨_, s, r, b, h, hb, hty, ?_, ?_, ?_, ?_⟩
  · obtain ⟨disk', b', k, -⟩ := C56_edit_partial (track := some 35) (sector := some 16) h hb true
      (by rintro t ⟨⟩; rw [hty]; decide)
      (by
        rintro t n ht ⟨⟩
        have : t = 35 := by simpa [trackSelected] using ht
        subst this
        rw [hty]; decide)
    exact ⟨disk', k⟩
  · obtain ⟨disk', b', k, -⟩ := C56_edit_partial (track := none) (sector := none) h hb false
      (by rintro t ⟨⟩) (by rintro t n ht ⟨⟩)
    exact ⟨disk', k⟩
  · obtain ⟨disk', b', k1, k2, k3, -⟩ := C56_stray_sector_refuted h hb (t := 35) (n := 20)
      (by decide) (by rw [hty]; decide) (by rw [hty]; decide) (by rw [hty]; decide)
    exact ⟨disk', b', k1, k2, k3⟩
  · exact C56_track_refuted h hb.toBamOf hty false (by decide) (by decide) none

/-! ### The arguments -/

theorem numeral_iff (text : List Char) (n : Nat) : Numeral text n ↔
    (withoutPlus text ≠ [] ∧ (withoutPlus text).all Char.isDigit) ∧
      Nat.ofDigitChars 10 (withoutPlus text) 0 = n := by
  constructor
  · rintro ⟨ds, h1, h2, h3, h4⟩
    have hds : withoutPlus text = ds := by
      rcases h1 with rfl | rfl
      · unfold withoutPlus
        split
        · exact absurd (h3 '+' (List.mem_cons_self ..)) (by decide)
        · rfl
      · rfl
    rw [hds]
    exact ⟨⟨h2, List.all_eq_true.2 h3⟩, h4⟩
  · rintro ⟨⟨h1, h2⟩, h3⟩
    refine ⟨_, ?_, h1, List.all_eq_true.1 h2, h3⟩
    unfold withoutPlus
    split
    · exact .inr rfl
    · exact .inl rfl

theorem parser_number (lo hi n : Nat) (text : List Char) (hhi : hi ≤ 255) :
    optionalU8Parser text lo hi = some (some n) ↔ Numeral text n ∧ lo ≤ n ∧ n ≤ hi := by
  unfold optionalU8Parser
  split
  next h =>
    subst h
    refine ⟨fun h => (nomatch h), fun h => ?_⟩
    exact absurd ((numeral_iff _ _).mp h.1).1.2 (by decide)
  next hne =>
    rw [numeral_iff]
    simp only []
    split
    next h =>
      generalize hm : List.foldl _ 0 (withoutPlus text) = m
      rw [show Nat.ofDigitChars 10 (withoutPlus text) 0 = m from hm]
      constructor
      · intro h2
        split at h2
        next h3 =>
          injection h2 with h2
          injection h2 with h2
          exact ⟨⟨h, h2⟩, h2 ▸ h3.2.1, h2 ▸ h3.2.2⟩
        · cases h2
      · rintro ⟨⟨-, rfl⟩, h3, h4⟩
        rw [if_pos (by omega)]
    next h =>
      exact ⟨fun h => (nomatch h), fun h2 => absurd h2.1.1 h⟩

theorem parser_all (lo hi : Nat) (text : List Char) :
    optionalU8Parser text lo hi = some none ↔ text = "all".toList := by
  unfold optionalU8Parser
  split
  next h => exact ⟨fun _ => h, fun _ => rfl⟩
  next h =>
    refine ⟨fun h2 => ?_, fun h2 => absurd h2 h⟩
    simp only [] at h2
    split at h2
    · split at h2 <;> cases h2
    · cases h2

/-- **C56** Which arguments are taken: `all`, and numerals for a track from 1 to 40 and a
sector from 0 to 20. -/
theorem C56_arguments (text : List Char) (n : Nat) :
    (optionalTrackParser text = some none ↔ text = "all".toList) ∧
    (optionalSectorParser text = some none ↔ text = "all".toList) ∧
    (optionalTrackParser text = some (some n) ↔ Numeral text n ∧ 1 ≤ n ∧ n ≤ 40) ∧
    (optionalSectorParser text = some (some n) ↔ Numeral text n ∧ n ≤ 20) :=
  ⟨parser_all _ _ _, parser_all _ _ _, parser_number _ _ _ _ (by decide),
    (parser_number _ _ _ _ (by decide)).trans (by simp)⟩

/-- Numbers are read as they are usually written. -/
theorem numeral_toDigits (n : Nat) : Numeral (Nat.toDigits 10 n) n :=
  ⟨_, .inl rfl, Nat.toDigits_ne_nil, fun _ hc => Nat.isDigit_of_mem_toDigits (by decide) (by decide) hc,
    Nat.ofDigitChars_ten_toDigits⟩

/-- The claim of C56 that every entry can be edited is false: no argument selects a track
above 40, where the 1571 and the 1581 have half of their tracks. -/
theorem C56_tracks_refuted (text : List Char) (track : Option Nat)
    (h : optionalTrackParser text = some track) (t : Nat) (ht : 40 < t) :
    trackSelected track t = false := by
  cases track with
  | none => simp [trackSelected]; omega
  | some n =>
    have := ((C56_arguments text n).2.2.1.mp h).2.2
    simp [trackSelected]; omega

example : optionalTrackParser "17".toList = some (some 17) ∧ optionalTrackParser "+040".toList = some (some 40) ∧
    optionalTrackParser "41".toList = none ∧ optionalTrackParser "0".toList = none ∧
    optionalSectorParser "0".toList = some (some 0) ∧ optionalSectorParser "21".toList = none ∧
    optionalSectorParser "all".toList = some none ∧ optionalSectorParser "+".toList = none := by
  decide +kernel

end Cbm
