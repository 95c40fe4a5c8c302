import Verif.Props.Bystander
import Verif.Props.Special
/-!
# C87: what the condition on relative files is for

`validate` takes the sectors of a relative file from its side sectors; `delete` follows the chain from the
first sector that the entry names.  On a disk where they differ, `validate` can find nothing, and yet
deleting the file gives away the sectors of another one.
-/

namespace Cbm
open Spec

/-- Deleting a relative file frees the chain that its entry starts, whatever its side sectors list. -/
theorem relative_delete_frees {x : Session} {s : Shape} {b : Bam} {k : Nat} {e : DirectoryEntry}
    {es : List DirectoryEntry} {chain side data : List Location} {content : List Byte} {ex : RelativeExtra}
    (h : OpenedEntry x s b k e es) (hs : e.scheme = .relative) (hst : chain.head? = some e.firstSector)
    (hc : IsChain x.disk.dev s chain content) (hex : e.extra = .relative ex)
    (hsd : SideSectors x.disk.dev s ex.firstSideSector side data)
    (hu : ∀ l ∈ chain ++ side, Usable s.type l) :
    ∃ x', Session.step (.delete k) x = (.ok (), x') ∧ Gone x x' s b e es (chain ++ side) chain := by
  obtain ⟨f, r, hopen, hk⟩ := h.handle
  obtain ⟨hr, hf⟩ := openFile_parts hopen
  unfold File.fromEntry at hf
  rw [hs] at hf
  obtain ⟨rf, hnew, hf⟩ := res_bind_eq_ok.1 hf
  cases hf
  obtain ⟨side', data', size, hsd', -, -, -, rfl⟩ := (C42_open_iff h.wf hex rf).1 hnew
  have hside : side' = side := by
    obtain ⟨c1, h1⟩ := hsd.chain
    obtain ⟨c2, h2⟩ := hsd'.chain
    have a1 := chainLocations_chain h.wf h1 hsd.start
    have a2 := chainLocations_chain h.wf h2 hsd'.start
    rw [a1] at a2
    exact (Except.ok.inj a2).symm
  subst hside
  obtain ⟨st₁, r1, f1⟩ := removeChain_frees (st := ⟨x.disk.dev, b⟩) h.wf h.writable h.consistent hst hc
    fun l hl => (hu l (List.mem_append_left _ hl)).1.2.1
  obtain ⟨st₂, r2, f2⟩ := f1.list (ls := side') fun l hl => (hu l (List.mem_append_right _ hl)).1
  refine deleted h hk hr rfl ?_ f2 hu
  show (M.bind (removeChain _) fun _ => _) _ = _
  exact (M.bind_of_ok r1).trans r2

/-! ## The disk -/

/-- A side sector (1, 0) that lists the data sector (1, 2), and the only sector (1, 3) of another file. -/
def crossedFront : List Byte :=
  [0x00, 17, 0, 6, 1, 0, 0, 0, 0, 0, 0, 0, 0, 0, 0, 0, 1, 2] ++ List.replicate 238 0 ++ List.replicate 256 0 ++
    ([0x00, 7, 1, 2, 3, 4, 5, 6] ++ List.replicate 248 0) ++ ([0x00, 4, 9, 8, 7] ++ List.replicate 251 0)

/-- The entry of the relative file, whose first sector is that of the other file. -/
def crossedRelative : List Byte :=
  [0, 0, 0x84, 1, 3] ++ List.replicate 16 0x41 ++ [1, 0, 6, 0, 0, 0, 0, 0, 0, 2, 0]

def crossedLinear : List Byte :=
  [0, 0, 0x82, 1, 3] ++ List.replicate 16 0x42 ++ [0, 0, 0, 0, 0, 0, 0, 0, 0, 1, 0]

def crossedDirectory : List Byte :=
  [0x00, 0xFF] ++ crossedRelative.drop 2 ++ crossedLinear ++ List.replicate 192 0

def crossedDev : Device := (imageOf crossedFront).put ⟨.d64, 35, false⟩ ⟨18, 1⟩ crossedDirectory

def crossedEntry : DirectoryEntry := DirectoryEntry.parse32 crossedRelative (some ⟨⟨18, 1⟩, 0, 32⟩)
def crossedOther : DirectoryEntry := DirectoryEntry.parse32 crossedLinear (some ⟨⟨18, 1⟩, 32, 32⟩)

def crossedHeader : Header := ⟨⟨18, 1⟩, 0x41, [], (0x30, 0x31), 0x32, 0x41, none⟩

def crossedDisk (b : Bam) : Disk :=
  ⟨DiskType.d64.format, crossedDev, some crossedHeader, some DiskType.d64.format, some 0, [b]⟩

def crossedFile : RelativeFile := ⟨crossedEntry, 6, [⟨1, 2⟩], [⟨1, 0⟩], 1⟩

theorem crossed_facts : Wf crossedDev ⟨.d64, 35, false⟩ ∧
    crossedDev.blk ⟨.d64, 35, false⟩ ⟨18, 1⟩ = crossedDirectory ∧
    ∀ l ∈ [⟨1, 0⟩, ⟨1, 2⟩, (⟨1, 3⟩ : Location)],
      crossedDev.blk ⟨.d64, 35, false⟩ l = (imageOf crossedFront).blk ⟨.d64, 35, false⟩ l := by
  have hl : crossedDirectory.length = 256 := by decide +kernel
  have hw := imageOf_wf crossedFront (by decide +kernel)
  refine ⟨hw.put (by decide) hl, hw.blk_put_same (by decide) hl, fun l hm => hw.blk_put_other (by decide) ?_ ?_ hl⟩
  · exact (by decide : ∀ l ∈ [⟨1, 0⟩, ⟨1, 2⟩, (⟨1, 3⟩ : Location)], (⟨.d64, 35, false⟩ : Shape).Valid l) l hm
  · exact (by decide : ∀ l ∈ [⟨1, 0⟩, ⟨1, 2⟩, (⟨1, 3⟩ : Location)], l ≠ ⟨18, 1⟩) l hm

theorem crossed_sides : SideSectors crossedDev ⟨.d64, 35, false⟩ ⟨1, 0⟩ [⟨1, 0⟩] [⟨1, 2⟩] := by
  have h0 := crossed_facts.2.2 ⟨1, 0⟩ (by simp)
  refine ⟨rfl, ⟨_, by decide, by decide, trivial, [], ⟨1, 0⟩, rfl, ?_, ?_, rfl⟩, by decide, ?_, ?_, ?_⟩
  · rw [h0]; decide +kernel
  · rw [h0]; decide +kernel
  · intro l hl
    rw [List.mem_singleton.1 hl, h0]
    decide +kernel
  · intro l hl
    rw [List.mem_singleton.1 hl, h0]
    decide +kernel
  · simp only [List.flatMap_cons, List.flatMap_nil]
    rw [h0]
    decide +kernel

theorem crossed_chain : ∃ content, IsChain crossedDev ⟨.d64, 35, false⟩ [⟨1, 3⟩] content := by
  have h3 := crossed_facts.2.2 ⟨1, 3⟩ (by simp)
  refine ⟨_, by decide, by decide, trivial, [], ⟨1, 3⟩, rfl, ?_, ?_, rfl⟩
  · rw [h3]; decide +kernel
  · rw [h3]; decide +kernel

theorem crossed_new : RelativeFile.new crossedDev crossedEntry = .ok crossedFile := by
  have h2 := crossed_facts.2.2 ⟨1, 2⟩ (by simp)
  refine (C42_open_iff (ex := ⟨⟨1, 0⟩, 6, List.replicate 6 0⟩) crossed_facts.1 (by decide +kernel) _).2
    ⟨_, _, 6, crossed_sides, .inr ⟨[], ⟨1, 2⟩, rfl, by decide, ?_, ?_, ?_⟩, by decide, by decide, rfl⟩
  · rw [h2]; decide +kernel
  · rw [h2]; decide +kernel
  · rw [h2]; decide +kernel

theorem crossed_bam : ∃ b, Consistent b .d64 ∧ ∀ l, ValidLoc .d64 (bamTracks .d64) l →
    (isFree b l = false ↔ l ∈ ownSectors .d64 ++ [⟨1, 0⟩, ⟨1, 2⟩, ⟨1, 3⟩]) := by
  obtain ⟨b, -, h1, -, h2⟩ := allocateAll_ok (ty := .d64)
    (ownSectors .d64 ++ [⟨1, 0⟩, ⟨1, 2⟩, (⟨1, 3⟩ : Location)]) (freshBam_consistent .d64) (by decide +kernel)
  refine ⟨b, h1, fun l hl => ?_⟩
  rw [h2 l, show isFree (freshBam .d64) l = true from by
    rw [isFree, freeAt_freshBam _ _ _ hl.1 hl.2.1]
    exact decide_eq_true hl.2.2]
  generalize ownSectors .d64 ++ [⟨1, 0⟩, ⟨1, 2⟩, (⟨1, 3⟩ : Location)] = own
  by_cases h : l ∈ own <;> simp [h]

def crossedSession (b : Bam) : Session := ⟨crossedDisk b, [(.relative crossedFile, 0)], []⟩

theorem crossed_opened {b : Bam} (hb : Consistent b .d64) :
    OpenedEntry (crossedSession b) ⟨.d64, 35, false⟩ b 0 crossedEntry [crossedEntry, crossedOther] ∧
    ∃ content, IsChain crossedDev ⟨.d64, 35, false⟩ [⟨18, 1⟩] content := by
  obtain ⟨hw, hblk, -⟩ := crossed_facts
  have hc : IsChain crossedDev ⟨.d64, 35, false⟩ [⟨18, 1⟩] _ :=
    ⟨by decide, by decide, trivial, [], ⟨18, 1⟩, rfl, by rw [hblk]; decide +kernel,
      by rw [hblk]; decide +kernel, rfl⟩
  refine ⟨⟨hw, nofun, rfl, hb, ?_, by simp, ⟨_, _, [⟨18, 1⟩], _, rfl, rfl, rfl, hc, ?_⟩,
    .relative crossedFile, 0, ?_, rfl⟩, _, hc⟩
  · rw [directory_picked (disk := (crossedSession b).disk) hw rfl rfl rfl hc (by nofun)]
    refine congrArg Except.ok ?_
    show picked crossedDev _ (usedBytes (crossedDev.blk _ ⟨18, 1⟩) / 32) _ _ ++ [] ++ [] = _
    rw [hblk, List.append_nil, List.append_nil, show usedBytes crossedDirectory = 256 by decide +kernel]
    exact picked_bytes.trans (by rw [hblk]; decide +kernel)
  · intro l hl
    rw [show l = ⟨18, 1⟩ from List.mem_singleton.1 hl]
    rintro ⟨j, hj, -⟩
    exact absurd hj (by decide)
  · show (do let r ← Except.ok 0; let f ← File.fromEntry crossedDev crossedEntry; pure (f, r) : Res _) = _
    unfold File.fromEntry
    rw [show crossedEntry.scheme = .relative by decide +kernel]
    simp only [crossed_new, res_bind_ok]
    rfl

theorem scanFile_of {disk : Disk} {e : DirectoryEntry} {f : File} {ls : List Location} (hr : disk.bam = some r)
    (hf : File.fromEntry disk.dev e = .ok f) (ho : f.occupiedSectors disk.dev = .ok ls) :
    scanFile disk e = .ok ls := by
  unfold scanFile Disk.openFileFromEntry Disk.bamRef
  rw [hr, hf]
  exact ho

theorem crossed_scans {b : Bam} :
    scanFile (crossedDisk b) crossedEntry = .ok [⟨1, 0⟩, ⟨1, 2⟩] ∧
    scanFile (crossedDisk b) crossedOther = .ok [⟨1, 3⟩] := by
  constructor
  · refine scanFile_of (r := 0) (f := .relative crossedFile) rfl ?_ ?_
    · show File.fromEntry crossedDev crossedEntry = _
      unfold File.fromEntry
      rw [show crossedEntry.scheme = .relative by decide +kernel]
      simp only [crossed_new, res_bind_ok, res_pure]
    · show Except.ok (dedupLocs (sortLocs [⟨1, 2⟩, ⟨1, 0⟩])) = _
      exact congrArg Except.ok (by decide +kernel)
  · obtain ⟨_, hc⟩ := crossed_chain
    have hl := chainLocations_chain crossed_facts.1 hc rfl
    have hfirst : crossedOther.firstSector = ⟨1, 3⟩ := by decide +kernel
    refine scanFile_of (r := 0) (f := .linear crossedOther) rfl ?_ ?_
    · show File.fromEntry crossedDev crossedOther = _
      unfold File.fromEntry
      rw [show crossedOther.scheme = .linear by decide +kernel]
    · show File.occupiedSectors (.linear crossedOther) crossedDev = _
      unfold File.occupiedSectors
      simp only [hfirst, hl, res_bind_ok, res_pure]
      exact congrArg Except.ok (by decide +kernel)

theorem crossed_can {b : Bam} (hb : Consistent b .d64) :
    CanValidate (crossedDisk b) .d64 b crossedHeader [⟨18, 1⟩] [crossedEntry, crossedOther] := by
  obtain ⟨ho, _, hc⟩ := crossed_opened hb
  refine ⟨⟨_, rfl⟩, rfl, rfl, hb.toBamOf, chainLocations_chain crossed_facts.1 hc rfl, ho.listed, ?_⟩
  intro e he
  simp only [List.mem_cons, List.not_mem_nil, or_false] at he
  rcases he with rfl | rfl
  · rw [crossed_scans.1]; exact ⟨nofun, nofun⟩
  · rw [crossed_scans.2]; exact ⟨nofun, nofun⟩

theorem two_clean {disk : Disk} {b : Bam} {header : Header} {e o : DirectoryEntry} {own ls ls' : List Location}
    (hcan : CanValidate disk .d64 b header [⟨18, 1⟩] [e, o]) (hg : header.geos = none) (ho : own = ownSectors .d64)
    (h1 : scanFile disk e = .ok ls) (h2 : scanFile disk o = .ok ls') (h18 : (⟨18, 1⟩ : Location) ∈ own)
    (hp : ∀ l ∈ ls ++ ls', l ∉ own) (hp' : ∀ l ∈ ls, l ∉ ls')
    (hf : ∀ l, ValidLoc .d64 (bamTracks .d64) l → (isFree b l = false ↔ l ∈ own ++ (ls ++ ls'))) :
    disk.validate = .ok [] := by
  have hcl : claims disk .d64 [⟨18, 1⟩] (header.geos.map GEOSDiskHeader.border) [e, o] =
      [(systemName, own ++ [⟨18, 1⟩] ++ []), (e.filename, ls), (o.filename, ls')] := by
    unfold claims
    simp only [List.filterMap_cons, List.filterMap_nil, h1, h2, hg, Option.map_none, Option.toList_none, ho]
  refine (C32_empty_iff hcan).2 ⟨?_, ?_, ?_⟩
  · intro e' he
    simp only [List.mem_cons, List.not_mem_nil, or_false] at he
    rcases he with rfl | rfl
    · exact ⟨_, h1⟩
    · exact ⟨_, h2⟩
  · rw [hcl]
    refine List.pairwise_cons.2 ⟨fun c hc l hl hl' => ?_, List.pairwise_cons.2 ⟨fun c hc l hl => ?_, List.pairwise_singleton _ _⟩⟩
    · have : l ∈ own := by
        simp only [List.mem_append, List.mem_singleton, List.not_mem_nil, or_false] at hl
        rcases hl with h | rfl
        · exact h
        · exact h18
      refine hp l ?_ this
      simp only [List.mem_cons, List.not_mem_nil, or_false] at hc
      rcases hc with rfl | rfl
      · exact List.mem_append_left _ hl'
      · exact List.mem_append_right _ hl'
    · rw [List.mem_singleton.1 hc]
      exact hp' l hl
  · intro l hl
    rw [hf l hl, hcl]
    simp only [List.mem_cons, List.mem_append, List.not_mem_nil, or_false, exists_eq_or_imp, exists_eq_left]
    constructor
    · rintro (h | h)
      · exact .inl (.inl h)
      · exact .inr h
    · rintro ((h | rfl) | h)
      · exact .inl h
      · exact .inl h18
      · exact .inr h

theorem crossed_clean {b : Bam} (hb : Consistent b .d64) (hf : ∀ l, ValidLoc .d64 (bamTracks .d64) l →
    (isFree b l = false ↔ l ∈ ownSectors .d64 ++ [⟨1, 0⟩, ⟨1, 2⟩, ⟨1, 3⟩])) :
    (crossedDisk b).validate = .ok [] :=
  two_clean (crossed_can hb) rfl rfl crossed_scans.1 crossed_scans.2 (by decide +kernel) (by decide +kernel)
    (by decide) hf

/-- C87, what the condition `ScanCovers` is for: there is a disk with a relative file and another file that
`validate` finds nothing wrong with, and on which deleting the relative file succeeds and marks every sector of the
other file, which is still listed, as free. -/
theorem C87_condition_is_needed : ∃ x s b e o ls x' b',
    OpenedEntry x s b 0 e [e, o] ∧ x.disk.validate = .ok [] ∧ e.position ≠ o.position ∧
    scanFile x.disk o = .ok ls ∧ ls ≠ [] ∧ ¬ ScanCovers x.disk e ∧
    Session.step (.delete 0) x = (.ok (), x') ∧ x'.disk.directory = .ok [o] ∧
    bamOf x'.disk = some b' ∧ ∀ l ∈ ls, isFree b' l = true := by
  obtain ⟨b, hb, hf⟩ := crossed_bam
  obtain ⟨content, hc⟩ := crossed_chain
  obtain ⟨ho, -⟩ := crossed_opened hb
  obtain ⟨x', hstep, hgone⟩ := relative_delete_frees (ex := ⟨⟨1, 0⟩, 6, List.replicate 6 0⟩) ho
    (by decide +kernel) (by decide +kernel) hc (by decide +kernel) crossed_sides (sample_usable (by decide))
  obtain ⟨b', hb', hfree⟩ := hgone.bam
  refine ⟨_, _, b, _, _, [⟨1, 3⟩], x', b', ho, crossed_clean hb hf, by decide +kernel, crossed_scans.2, nofun, ?_,
    hstep, ?_, hb', fun l hl => (hfree l).2 (.inl (List.mem_append_left _ hl))⟩
  · intro h
    obtain ⟨locs, h1, h2⟩ := h (by decide +kernel)
    have h3 := chainLocations_chain crossed_facts.1 hc rfl
    rw [show crossedEntry.firstSector = ⟨1, 3⟩ by decide +kernel] at h1
    have h4 : [⟨1, 3⟩] = locs := Except.ok.inj (h3.symm.trans h1)
    exact absurd (h2 _ crossed_scans.1 ⟨1, 3⟩ (by rw [← h4]; simp)) (by decide)
  · rw [hgone.listing]
    exact congrArg Except.ok (by decide +kernel)

end Cbm
