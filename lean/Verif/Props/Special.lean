import Verif.Spec.Special
import Verif.Lemmas.Special
import Verif.Props.Relative
import Verif.Props.Geos
import Verif.Props.Hazards
import Verif.Props.Validate
/-!
# Deleting relative and GEOS files (C65); streams over files of every kind (C66)
-/

namespace Cbm
open Spec

section
variable {x : Session} {s : Shape} {b b' : Bam} {ty : DiskType} {k : Nat} {e : DirectoryEntry}
  {es : List DirectoryEntry} {st st' : St} {d : Device}

theorem length_filter_or {α : Type} (p q : α → Bool) (h : ∀ a, p a = true → q a = false) :
    ∀ xs : List α, (xs.filter fun a => q a || p a).length = (xs.filter p).length + (xs.filter q).length
  | [] => rfl
  | a :: xs => by
    have ih := length_filter_or p q h xs
    have ha := h a
    simp only [List.filter_cons]
    cases hp : p a <;> cases hq : q a <;> simp_all <;> omega

/-- Giving back `locs` adds those off the directory track to `blocks_free`. -/
theorem blocksFree_given (hc : Consistent b ty) (hc' : Consistent b' ty) {locs : List Location}
    (hm : ∀ m, isFree b' m = (decide (m ∈ locs) || isFree b m)) (hnd : locs.Nodup)
    (hal : ∀ l ∈ locs, isFree b l = false) (hv : ∀ l ∈ locs, ValidLoc ty (bamTracks ty) l) :
    ∃ n, b.blocksFree = .ok n ∧ b'.blocksFree =
      .ok (n + (locs.filter fun l => l.track.toNat ≠ directoryTrack ty).length) := by
  refine ⟨_, C12_blocks_free hc, ?_⟩
  rw [C12_blocks_free hc']
  refine congrArg Except.ok ?_
  let pair : Location → Nat × Nat := fun l => (l.track.toNat, l.sector.toNat)
  let A := (locs.filter fun l => l.track.toNat ≠ directoryTrack ty).map pair
  have hinj : ∀ l m : Location, pair l = pair m → l = m := by
    rintro ⟨a, c⟩ ⟨a', c'⟩ h
    simp only [pair, Prod.mk.injEq] at h
    rw [UInt8.toNat.inj h.1, UInt8.toNat.inj h.2]
  have hA : A.Nodup :=
    nodup_map_of_injOn _ (hnd.sublist List.filter_sublist) fun l _ m _ h => hinj l m h
  have hS : (allSectors ty (bamTracks ty)).Nodup := by
    refine (C39_enumeration_exact ty (bamTracks ty)).1.imp ?_
    rintro a c hac rfl
    omega
  have hmA : ∀ q, q ∈ A ↔ ∃ l ∈ locs, l.track.toNat ≠ directoryTrack ty ∧ pair l = q := by
    intro q
    simp only [A, List.mem_map, List.mem_filter, decide_eq_true_eq]
    constructor
    · rintro ⟨l, ⟨h1, h2⟩, h3⟩; exact ⟨l, h1, h2, h3⟩
    · rintro ⟨l, h1, h2, h3⟩; exact ⟨l, ⟨h1, h2⟩, h3⟩
  have hperm : ((allSectors ty (bamTracks ty)).filter fun q => decide (q ∈ A)).length = A.length := by
    refine List.Perm.length_eq ?_
    rw [List.perm_ext_iff_of_nodup (hS.sublist List.filter_sublist) hA]
    intro q
    rw [List.mem_filter, decide_eq_true_eq, and_iff_right_iff_imp]
    intro h
    obtain ⟨l, hl, -, rfl⟩ := (hmA q).1 h
    exact mem_allSectors.2 (hv l hl)
  have hlen : A.length = (locs.filter fun l => l.track.toNat ≠ directoryTrack ty).length :=
    List.length_map _
  rw [← hlen, ← hperm, ← length_filter_or _ _ (by
    intro q hq
    rw [Bool.and_eq_true] at hq
    rw [decide_eq_false_iff_not]
    intro h
    obtain ⟨l, hl, -, rfl⟩ := (hmA q).1 h
    have := hal l hl
    exact absurd hq.2 (by rw [show freeAt b (pair l).1 (pair l).2 = isFree b l from rfl, this]; nofun))]
  refine congrArg List.length (List.filter_congr fun q hq => ?_)
  have hq' := mem_allSectors.1 hq
  have hb := bamTracks_le ty
  have hsp := sectorsPerTrack_le ty q.1
  have e1 : (UInt8.ofNat q.1).toNat = q.1 := by rw [UInt8.toNat_ofNat']; omega
  have e2 : (UInt8.ofNat q.2).toNat = q.2 := by rw [UInt8.toNat_ofNat']; omega
  have key := hm ⟨UInt8.ofNat q.1, UInt8.ofNat q.2⟩
  unfold isFree at key
  simp only [e1, e2] at key
  rw [key]
  have hmem : q ∈ A ↔ (⟨UInt8.ofNat q.1, UInt8.ofNat q.2⟩ : Location) ∈ locs ∧ q.1 ≠ directoryTrack ty := by
    rw [hmA]
    constructor
    · rintro ⟨l, h1, h2, h3⟩
      have : l = ⟨UInt8.ofNat q.1, UInt8.ofNat q.2⟩ := hinj _ _ (by
        rw [h3]
        show q = ((UInt8.ofNat q.1).toNat, (UInt8.ofNat q.2).toNat)
        rw [e1, e2])
      rw [← this]
      refine ⟨h1, ?_⟩
      rw [← h3]
      exact h2
    · rintro ⟨h1, h2⟩
      refine ⟨_, h1, by rw [e1]; exact h2, ?_⟩
      show ((UInt8.ofNat q.1).toNat, (UInt8.ofNat q.2).toNat) = q
      rw [e1, e2]
  by_cases h1 : q.1 = directoryTrack ty
  · have : q ∉ A := fun h => (hmem.1 h).2 h1
    simp [h1, this]
  · by_cases h2 : (⟨UInt8.ofNat q.1, UInt8.ofNat q.2⟩ : Location) ∈ locs
    · have : q ∈ A := hmem.2 ⟨h2, h1⟩
      simp [h1, h2, this]
    · have : q ∉ A := fun h => h2 (hmem.1 h).1
      simp [h1, h2, this]

/-- Deleting through a handle, given what freeing the blocks does. -/
theorem deleted {f : File} {r : Nat} {mem stored : List Location} (h : OpenedEntry x s b k e es)
    (hk : x.files[k]? = some (f, r)) (hr : x.disk.bam = some r) (he : f.entry = e)
    (hrun : f.freeBlocks ⟨x.disk.dev, b⟩ = (.ok (), st')) (hf : Freed s ⟨x.disk.dev, b⟩ st' mem stored)
    (hu : ∀ l ∈ mem, Usable s.type l) :
    ∃ x', Session.step (.delete k) x = (.ok (), x') ∧ Gone x x' s b e es mem stored := by
  obtain ⟨fm, hd, dir, content, hfm, hhd, hdir, hc, hnb⟩ := h.directory
  obtain ⟨p, hpos, hp⟩ := listed_slot h.wf h.listed h.entry
  have hploc := listed_sector h.wf hfm hhd hdir hc h.listed h.entry hpos
  have hcell : x.disk.cells[r]? = some b := by
    have := h.bam
    unfold bamOf at this
    rw [hr] at this
    exact this
  subst he
  obtain ⟨y, hdel, hyb, hyw, -, hfree, hfr, b'', hsync, hcons, hst⟩ :=
    delete_freed (st := ⟨x.disk.dev, b⟩) h.wf hp (hnb _ hploc) hrun hf
  refine ⟨{ x with disk := x.disk.withSt r y.st, files := x.files.set k (y.file, r) },
    onFile_run hk hcell hdel, ?_⟩
  have hcell' : (x.disk.withSt r y.st).cells[r]? = some y.st.bam := by
    show (x.disk.cells.set r y.st.bam)[r]? = _
    rw [List.getElem?_set_self (List.getElem?_eq_some_iff.1 hcell).1]
  have hbam : bamOf (x.disk.withSt r y.st) = some st'.bam := by
    unfold bamOf
    show (x.disk.bam.bind fun r' => (x.disk.withSt r y.st).cells[r']?) = _
    rw [hr, ← hyb]
    exact hcell'
  refine ⟨?_, ⟨st'.bam, hbam, ?_⟩, ?_, ?_, ?_, hyw, fun b' hb' => ?_, rfl, rfl, rfl⟩
  · rw [hpos]
    exact directory_scratched (disk := x.disk) (disk' := x.disk.withSt r y.st) h.wf hyw hfm hhd hfm hhd hdir hc
      hnb h.listed hp.aligned hp.size hfree hfr
  · intro l
    rw [hf.mem l]
    simp
  · intro hnd hal
    obtain ⟨n, h1, h2⟩ := blocksFree_given h.consistent hf.consistent hf.mem hnd hal fun l hl => (hu l hl).1
    have hget : ∀ {disk : Disk} {c : Bam}, disk.bam = some r → disk.cells[r]? = some c →
        disk.blocksFree = c.blocksFree := by
      intro disk c h1 h2
      unfold Disk.blocksFree Disk.bamRef indexRes
      rw [h1]
      simp only [res_bind_ok]
      rw [h2]
      rfl
    refine ⟨n, ?_, ?_⟩
    · rw [hget hr hcell, h1]
    · rw [hget (disk := x.disk.withSt r y.st) hr hcell', hyb, h2]
  · refine ⟨_, hsync, fun l => ?_⟩
    show isFree b'' l = true ↔ _
    rw [hst l]
    simp
  · intro l j hv hj hslot
    refine hfr l j hv ?_
    rintro (ht | ⟨h1, h2, h3⟩)
    · exact hj ht
    · rcases hslot p hpos h1 with h4 | h4 <;> omega
  · cases hbam.symm.trans hb'
    exact hf.consistent

theorem openFile_parts {f : File} {r : Nat} {disk : Disk} (h : disk.openFileFromEntry e = .ok (f, r)) :
    disk.bam = some r ∧ File.fromEntry disk.dev e = .ok f := by
  unfold Disk.openFileFromEntry at h
  obtain ⟨r', h1, h⟩ := res_bind_eq_ok.1 h
  obtain ⟨f', h2, h⟩ := res_bind_eq_ok.1 h
  cases h
  unfold Disk.bamRef at h1
  split at h1
  · cases h1; exact ⟨by assumption, h2⟩
  · cases h1

/-! ## C65 -/

/-- **C65** (partial: the blocks are given back in memory, but the BAM on the image is written
before the side sectors are) Deleting a relative file found in a listing removes its entry and
gives back its data sectors and its side sectors, and nothing else; the BAM on the image then has
the data sectors free, and the side sectors as they were. -/
theorem C65_relative_partial {data side : List Location} (h : OpenedEntry x s b k e es)
    (hs : e.scheme = .relative) (hp : RelativeBlocks x.disk.dev s e data side)
    (hu : ∀ l ∈ data ++ side, Usable s.type l) :
    ∃ x', Session.step (.delete k) x = (.ok (), x') ∧
      Gone x x' s b e es (data ++ side) data := by
  obtain ⟨f, r, hopen, hk⟩ := h.handle
  obtain ⟨hr, hf⟩ := openFile_parts hopen
  obtain ⟨ex, hex, hsd⟩ := hp.sides
  obtain ⟨content, hc⟩ := hp.chain
  unfold File.fromEntry at hf
  rw [hs] at hf
  obtain ⟨rf, hnew, hf⟩ := res_bind_eq_ok.1 hf
  cases hf
  obtain ⟨side', data', size, hsd', -, -, -, rfl⟩ := (C42_open_iff h.wf hex rf).1 hnew
  have hside : side' = side := by
    obtain ⟨c1, h1⟩ := hsd.chain
    obtain ⟨c2, h2⟩ := hsd'.chain
    have a1 := chainLocations_chain h.wf h1 hsd.start
    have a2 := chainLocations_chain h.wf h2 hsd'.start
    rw [a1] at a2
    exact (Except.ok.inj a2).symm
  subst hside
  obtain ⟨st₁, r1, f1⟩ := removeChain_frees (st := ⟨x.disk.dev, b⟩) h.wf h.writable h.consistent hp.start hc
    fun l hl => (hu l (List.mem_append_left _ hl)).1.2.1
  obtain ⟨st₂, r2, f2⟩ := f1.list (ls := side') fun l hl => (hu l (List.mem_append_right _ hl)).1
  refine deleted h hk hr rfl ?_ f2 hu
  show (M.bind (removeChain _) fun _ => _) _ = _
  exact (M.bind_of_ok r1).trans r2

/-- What a GEOS file opened from a listing is. -/
theorem geos_opened {f : File} {p : Position} (hp : InSlot d s e p)
    (hs : e.scheme = .geosSequential ∨ e.scheme = .geosVLIR) (hf : File.fromEntry d e = .ok f) :
    (e.scheme = .geosSequential ∧ f = .geosSequential ⟨e, none⟩) ∨
    (e.scheme = .geosVLIR ∧ ∃ block, d.sector e.firstSector = .ok block ∧
      f = .geosVLIR ⟨e, some (vlirRecords block)⟩) := by
  obtain ⟨border, heq⟩ := hp.entry
  have hsch : e.scheme = entryScheme (slotData d s p) := by rw [heq]; rfl
  have hv : e.isVlir = .ok (decide (e.scheme = .geosVLIR)) := by
    rw [hsch] at hs ⊢
    have := (parse32_geos (slotData d s p) (some p) hs).2
    rw [heq]
    exact this
  unfold File.fromEntry GEOSFile.new at hf
  rw [hv] at hf
  rcases hs with hs | hs
  · rw [hs] at hf
    cases hf
    exact .inl ⟨hs, rfl⟩
  · rw [hs] at hf
    simp only [res_bind_ok, decide_true, if_true] at hf
    cases hq : d.sector e.firstSector with
    | error q => rw [hq] at hf; cases hf
    | ok block =>
      rw [hq] at hf
      cases hf
      exact .inr ⟨hs, block, rfl, rfl⟩

theorem Spec.InfoBlock.location {info : List Location} (hi : InfoBlock e info) :
    ∃ o, e.infoLocation = .ok o ∧ o.toList = info := by
  obtain ⟨ex, hex, rfl⟩ := hi
  unfold DirectoryEntry.infoLocation
  rw [hex]
  simp only []
  by_cases h0 : ex.infoBlock = ⟨0, 0⟩
  · refine ⟨none, ?_, by rw [if_pos h0]; rfl⟩
    rw [if_pos (by rw [h0]; exact ⟨rfl, rfl⟩)]
  · refine ⟨some ex.infoBlock, ?_, by rw [if_neg h0]; rfl⟩
    rw [if_neg]
    rintro ⟨h1, h2⟩
    exact h0 (congr (congrArg Location.mk h1) h2)

/-- Freeing the info block. -/
theorem Freed.info {st₁ : St} {mem stored info : List Location} (h : Freed s st st₁ mem stored)
    (hi : InfoBlock e info) (hu : ∀ l ∈ info, Usable s.type l) {α : Type} (rest : M St α) :
    ∃ st₂, Freed s st st₂ (mem ++ info) stored ∧
      (do
        match ← M.lift e.infoLocation with
        | some l => St.updBam fun b => b.free l
        | none => pure ()
        rest : M St α) st₁ = rest st₂ := by
  obtain ⟨ex, hex, rfl⟩ := hi
  by_cases h0 : ex.infoBlock = ⟨0, 0⟩
  · have hl : e.infoLocation = .ok none := by
      unfold DirectoryEntry.infoLocation
      rw [hex]
      simp only []
      rw [if_pos (by rw [h0]; exact ⟨rfl, rfl⟩)]
    refine ⟨st₁, by rw [if_pos h0, List.append_nil]; exact h, ?_⟩
    rw [hl]
    rfl
  · have hl : e.infoLocation = .ok (some ex.infoBlock) := by
      unfold DirectoryEntry.infoLocation
      rw [hex]
      simp only []
      rw [if_neg]
      rintro ⟨h1, h2⟩
      exact h0 (congr (congrArg Location.mk h1) h2)
    rw [if_neg h0] at hu ⊢
    obtain ⟨st₂, r, f⟩ := h.one (l := ex.infoBlock) (hu _ (by simp)).1
    refine ⟨st₂, f, ?_⟩
    rw [hl]
    exact M.bind_of_ok r

/-- **C65** (partial: as for relative files, with the info block) Deleting a sequential GEOS file
found in a listing gives back its chain and its info block; the BAM on the image then has the
chain free, and the info block as it was. -/
theorem C65_sequential_partial {data info : List Location} (h : OpenedEntry x s b k e es)
    (hs : e.scheme = .geosSequential) (hp : SequentialBlocks x.disk.dev s e data info)
    (hu : ∀ l ∈ data ++ info, Usable s.type l) :
    ∃ x', Session.step (.delete k) x = (.ok (), x') ∧
      Gone x x' s b e es (data ++ info) data := by
  obtain ⟨f, r, hopen, hk⟩ := h.handle
  obtain ⟨hr, hf⟩ := openFile_parts hopen
  obtain ⟨content, hc⟩ := hp.chain
  obtain ⟨p, -, hslot⟩ := listed_slot h.wf h.listed h.entry
  rcases geos_opened hslot (.inl hs) hf with ⟨-, rfl⟩ | ⟨h1, -⟩
  · obtain ⟨st₁, r1, f1⟩ := removeChain_frees (st := ⟨x.disk.dev, b⟩) h.wf h.writable h.consistent hp.start
      hc fun l hl => (hu l (List.mem_append_left _ hl)).1.2.1
    obtain ⟨st₂, f2, r2⟩ := f1.info hp.info (fun l hl => hu l (List.mem_append_right _ hl)) (pure ())
    refine deleted h hk hr rfl ?_ f2 hu
    exact (M.bind_of_ok r1).trans r2
  · rw [hs] at h1; cases h1

theorem recordChains_starts {ps : List Location} {chains : List (List Location)}
    (h : RecordChains d s ps chains) :
    (ps.filter (· != noRecord)).length = chains.length ∧
    ∀ q ∈ (ps.filter (· != noRecord)).zip chains, q.2.head? = some q.1 ∧
      (∃ content, IsChain d s q.2 content) ∧ q.2 ∈ chains := by
  induction h with
  | nil => exact ⟨rfl, nofun⟩
  | absent _ ih =>
    rw [List.filter_cons_of_neg (by simp)]
    exact ih
  | @present p locs content ps chains hne hh hc _ ih =>
    rw [List.filter_cons_of_pos (by simpa using hne)]
    refine ⟨by simp [ih.1], ?_⟩
    intro q hq
    rw [List.zip_cons_cons] at hq
    rcases List.mem_cons.1 hq with rfl | hq
    · exact ⟨hh, ⟨content, hc⟩, by simp⟩
    · obtain ⟨h1, h2, h3⟩ := ih.2 q hq
      exact ⟨h1, h2, List.mem_cons_of_mem _ h3⟩

/-- **C65** Deleting a VLIR file found in a listing gives back its index sector, its info block and
the chains of all its records; the BAM on the image says so too if there is at least one record. -/
theorem C65_vlir_partial {info : List Location} {chains : List (List Location)}
    (h : OpenedEntry x s b k e es) (hs : e.scheme = .geosVLIR)
    (hp : VlirBlocks x.disk.dev s e info chains)
    (hu : ∀ l ∈ e.firstSector :: info ++ chains.flatten, Usable s.type l) :
    ∃ x', Session.step (.delete k) x = (.ok (), x') ∧
      Gone x x' s b e es (e.firstSector :: info ++ chains.flatten)
        (if chains = [] then [e.firstSector] else e.firstSector :: info ++ chains.flatten) := by
  obtain ⟨f, r, hopen, hk⟩ := h.handle
  obtain ⟨hr, hf⟩ := openFile_parts hopen
  obtain ⟨p, -, hslot⟩ := listed_slot h.wf h.listed h.entry
  rcases geos_opened hslot (.inr hs) hf with ⟨h1, -⟩ | ⟨-, block, hb, rfl⟩
  · rw [hs] at h1; cases h1
  · rw [h.wf.sector hp.index] at hb
    cases hb
    have hb0 : byteAt (x.disk.dev.blk s e.firstSector) 0 = 0 := congrArg Location.track hp.marked
    have hb1 : byteAt (x.disk.dev.blk s e.firstSector) 1 = 0xFF := congrArg Location.sector hp.marked
    have hc : IsChain x.disk.dev s [e.firstSector] _ :=
      ⟨by simpa using hp.index, by simp, trivial, [], e.firstSector, rfl, hb0, by rw [hb1]; decide, rfl⟩
    have hrecs : (vlirRecords (x.disk.dev.blk s e.firstSector)).filterMap id =
        (vlirIndex (x.disk.dev.blk s e.firstSector)).filter (· != noRecord) := by
      rw [vlirRecords_index (h.wf.blk_length hp.index) hb0 (by rw [hb1]; decide), if_pos hb1]
      rw [List.filterMap_cons_none rfl]
      induction vlirIndex (x.disk.dev.blk s e.firstSector) with
      | nil => rfl
      | cons a ls ih =>
        rw [List.map_cons]
        by_cases ha : a = noRecord
        · rw [if_pos ha, List.filterMap_cons_none rfl, ih, List.filter_cons_of_neg (by simpa using ha)]
        · rw [if_neg ha, List.filterMap_cons_some (f := id) (a := some a) (b := a) rfl, ih, List.filter_cons_of_pos (by simpa using ha)]
    obtain ⟨hlen, hch⟩ := recordChains_starts hp.records
    obtain ⟨st₁, r1, f1⟩ := removeChain_frees (st := ⟨x.disk.dev, b⟩) h.wf h.writable h.consistent rfl
      hc fun l hl => by
        rw [List.mem_singleton] at hl
        subst hl
        exact (hu _ (by simp)).1.2.1
    obtain ⟨st₂, f2, r2⟩ := f1.info hp.info (fun l hl => hu l (by simp [hl]))
      (M.forEach ((vlirRecords (x.disk.dev.blk s e.firstSector)).filterMap id) removeChain)
    obtain ⟨st₃, r3, f3⟩ := f2.chains _ chains hlen fun q hq => by
      obtain ⟨h1, h2, h3⟩ := hch q hq
      refine ⟨h1, h2, fun l hl => ?_⟩
      have := hu l (by
        refine List.mem_append_right _ ?_
        exact List.mem_flatten.2 ⟨_, h3, hl⟩)
      exact ⟨this.1.2.1, this.2⟩
    refine deleted h hk hr rfl ?_ f3 hu
    rw [hrecs] at r2
    refine ((M.bind_of_ok r1).trans ?_).trans r3
    rw [← r2, ← hrecs]
    rfl

/-- **C65, refuted.** Side sectors that were allocated are free for the program that deleted the
file, but allocated for whoever opens the image next. -/
theorem C65_side_sectors_lost_refuted {data side : List Location} (h : OpenedEntry x s b k e es)
    (hs : e.scheme = .relative) (hp : RelativeBlocks x.disk.dev s e data side)
    (hu : ∀ l ∈ data ++ side, Usable s.type l) {l : Location} (hl : l ∈ side) (hd : l ∉ data)
    (ha : isFree b l = false) :
    ∃ x', Session.step (.delete k) x = (.ok (), x') ∧
      (∃ b', bamOf x'.disk = some b' ∧ isFree b' l = true) ∧
      ∃ b'', Bam.read x'.disk.dev s.type.format = .ok b'' ∧ isFree b'' l = false := by
  obtain ⟨x', hx, hg⟩ := C65_relative_partial h hs hp hu
  obtain ⟨b', h1, h2⟩ := hg.bam
  obtain ⟨b'', h3, h4⟩ := hg.saved
  refine ⟨x', hx, ⟨b', h1, (h2 l).2 (.inl (List.mem_append_right _ hl))⟩, b'', h3, ?_⟩
  rw [← Bool.not_eq_true, h4]
  rintro (hf | hf)
  · exact hd hf
  · rw [ha] at hf; cases hf

/-- **C65, refuted.** The same for the info block of a sequential GEOS file. -/
theorem C65_info_block_lost_refuted {data info : List Location} (h : OpenedEntry x s b k e es)
    (hs : e.scheme = .geosSequential) (hp : SequentialBlocks x.disk.dev s e data info)
    (hu : ∀ l ∈ data ++ info, Usable s.type l) {l : Location} (hl : l ∈ info) (hd : l ∉ data)
    (ha : isFree b l = false) :
    ∃ x', Session.step (.delete k) x = (.ok (), x') ∧
      (∃ b', bamOf x'.disk = some b' ∧ isFree b' l = true) ∧
      ∃ b'', Bam.read x'.disk.dev s.type.format = .ok b'' ∧ isFree b'' l = false := by
  obtain ⟨x', hx, hg⟩ := C65_sequential_partial h hs hp hu
  obtain ⟨b', h1, h2⟩ := hg.bam
  obtain ⟨b'', h3, h4⟩ := hg.saved
  refine ⟨x', hx, ⟨b', h1, (h2 l).2 (.inl (List.mem_append_right _ hl))⟩, b'', h3, ?_⟩
  rw [← Bool.not_eq_true, h4]
  rintro (hf | hf)
  · exact hd hf
  · rw [ha] at hf; cases hf

/-! ## C32: the sectors that validation counts for a file are those that deletion frees -/

section
variable {disk : Disk} {f : File} {r : Nat}

/-- **C32** Validation counts the data sectors and the side sectors of a relative file. -/
theorem C32_sectors_of_relative {ex : RelativeExtra} {data side : List Location} (hw : Wf disk.dev s)
    (hs : e.scheme = .relative) (hx : e.extra = .relative ex)
    (hsd : SideSectors disk.dev s ex.firstSideSector side data)
    (ho : disk.openFileFromEntry e = .ok (f, r)) :
    ∃ ls, scanFile disk e = .ok ls ∧ ls.Nodup ∧ ∀ l, l ∈ ls ↔ l ∈ data ∨ l ∈ side := by
  have hf := (openFile_parts ho).2
  unfold File.fromEntry at hf
  rw [hs] at hf
  obtain ⟨rf, hnew, hf⟩ := res_bind_eq_ok.1 hf
  cases hf
  obtain ⟨side', data', size, hsd', -, -, -, rfl⟩ := (C42_open_iff hw hx rf).1 hnew
  have hside : side' = side := by
    obtain ⟨c1, h1⟩ := hsd.chain
    obtain ⟨c2, h2⟩ := hsd'.chain
    have a1 := chainLocations_chain hw h1 hsd.start
    have a2 := chainLocations_chain hw h2 hsd'.start
    rw [a1] at a2
    exact (Except.ok.inj a2).symm
  subst hside
  have hdata : data' = data := by rw [hsd'.data, hsd.data]
  subst hdata
  refine ⟨dedupLocs (sortLocs (data' ++ side')), ?_, dedupLocs_nodup (sortLocs_sorted _), fun l => ?_⟩
  · unfold scanFile
    rw [ho]
    rfl
  · rw [mem_dedupLocs, mem_sortLocs, List.mem_append]

/-- **C32** Of a sequential GEOS file, its chain and its info block. -/
theorem C32_sectors_of_sequential {data info : List Location} (hw : Wf disk.dev s)
    (hes : disk.directory = .ok es) (he : e ∈ es) (hs : e.scheme = .geosSequential)
    (hp : SequentialBlocks disk.dev s e data info) (ho : disk.openFileFromEntry e = .ok (f, r)) :
    ∃ ls, scanFile disk e = .ok ls ∧ ls.Nodup ∧ ∀ l, l ∈ ls ↔ l ∈ data ∨ l ∈ info := by
  obtain ⟨content, hc⟩ := hp.chain
  obtain ⟨p, -, hslot⟩ := listed_slot hw hes he
  rcases geos_opened hslot (.inl hs) (openFile_parts ho).2 with ⟨-, rfl⟩ | ⟨h1, -⟩
  · refine ⟨dedupLocs (sortLocs (data ++ info ++ [])), ?_, dedupLocs_nodup (sortLocs_sorted _), fun l => ?_⟩
    · unfold scanFile
      rw [ho]
      show GEOSFile.occupiedSectors ⟨e, none⟩ disk.dev = _
      unfold GEOSFile.occupiedSectors
      obtain ⟨o, ho, rfl⟩ := hp.info.location
      rw [chainLocations_chain hw hc hp.start, ho]
      rfl
    · rw [mem_dedupLocs, mem_sortLocs, List.append_nil, List.mem_append]
  · rw [hs] at h1; cases h1

theorem recordChains_locs (hw : Wf disk.dev s) {ps : List Location} {chains : List (List Location)}
    (h : RecordChains disk.dev s ps chains) :
    recordChains disk.dev (ps.map fun l => if l = noRecord then none else some l) = .ok chains.flatten := by
  induction h with
  | nil => rfl
  | absent _ ih =>
    rw [List.map_cons, if_pos rfl]
    exact ih
  | present hne hh hc _ ih =>
    rw [List.map_cons, if_neg hne]
    unfold recordChains
    rw [chainLocations_chain hw hc hh, ih]
    rfl

/-- **C32** Of a VLIR file, its index sector, its info block and the chains of its records. -/
theorem C32_sectors_of_vlir {info : List Location} {chains : List (List Location)} (hw : Wf disk.dev s)
    (hes : disk.directory = .ok es) (he : e ∈ es) (hs : e.scheme = .geosVLIR)
    (hp : VlirBlocks disk.dev s e info chains) (ho : disk.openFileFromEntry e = .ok (f, r)) :
    ∃ ls, scanFile disk e = .ok ls ∧ ls.Nodup ∧
      ∀ l, l ∈ ls ↔ l = e.firstSector ∨ l ∈ info ∨ ∃ locs ∈ chains, l ∈ locs := by
  obtain ⟨p, -, hslot⟩ := listed_slot hw hes he
  rcases geos_opened hslot (.inr hs) (openFile_parts ho).2 with ⟨h1, -⟩ | ⟨-, block, hb, rfl⟩
  · rw [hs] at h1; cases h1
  · rw [hw.sector hp.index] at hb
    cases hb
    have hb0 : byteAt (disk.dev.blk s e.firstSector) 0 = 0 := congrArg Location.track hp.marked
    have hb1 : byteAt (disk.dev.blk s e.firstSector) 1 = 0xFF := congrArg Location.sector hp.marked
    have hc : IsChain disk.dev s [e.firstSector] _ :=
      ⟨by simpa using hp.index, by simp, trivial, [], e.firstSector, rfl, hb0, by rw [hb1]; decide, rfl⟩
    refine ⟨dedupLocs (sortLocs ([e.firstSector] ++ info ++ chains.flatten)), ?_,
      dedupLocs_nodup (sortLocs_sorted _), fun l => ?_⟩
    · unfold scanFile
      rw [ho]
      show GEOSFile.occupiedSectors ⟨e, some (vlirRecords (disk.dev.blk s e.firstSector))⟩ disk.dev = _
      unfold GEOSFile.occupiedSectors
      obtain ⟨o, ho, rfl⟩ := hp.info.location
      rw [chainLocations_chain hw hc rfl, ho,
        vlirRecords_index (hw.blk_length hp.index) hb0 (by rw [hb1]; decide), if_pos hb1]
      simp only [res_bind_ok, recordChains]
      rw [recordChains_locs hw hp.records]
      rfl
    · rw [mem_dedupLocs, mem_sortLocs, List.mem_append, List.mem_append, List.mem_singleton, or_assoc,
        List.mem_flatten]

end

/-! ## C66 -/

/-- Reading a chain to its end. -/
theorem read_whole (hw : Wf d s) {locs : List Location} {start : Location} {content : List Byte}
    (hh : locs.head? = some start) (hc : IsChain d s locs content) :
    chainContent d start = .ok content ∧ ∀ sizes : List Nat, (∀ k ∈ sizes, 0 < k) →
      content.length < sizes.length → ((ChainReader.new start).readToEnd d sizes).1 = .ok content := by
  have hcont := (C16_read_ok_iff hw start content).2 ⟨locs, hh, hc⟩
  refine ⟨hcont, fun sizes hpos hlen => ?_⟩
  obtain ⟨rest, fin, n, hn, hf, _, hrl, hr, hcc⟩ := newReader_remaining hw start
  rw [hcont] at hcc
  have hfin : fin = none ∧ rest = content := by
    cases fin with
    | none => simp only [finish, Except.ok.injEq] at hcc; exact ⟨rfl, hcc.symm⟩
    | some e => cases hcc
  obtain ⟨rfl, rfl⟩ := hfin
  obtain ⟨r', h⟩ := readToEnd_spec hf sizes _ rest n hn hr hpos hlen
  rw [h]; rfl

theorem openWriter_refused {f : File} {r : Nat} {y : DiskError} (hk : x.files[k]? = some (f, r))
    (hf : f.writer x.disk.dev = fail y) : Session.step (.openWriter k) x = (fail y, x) := by
  show (M.bind _ _) x = _
  refine (M.bind_of_ok (m := M.read fun s : Session => indexRes s.files k) (s' := x) (a := (f, r)) ?_).trans ?_
  · unfold M.read indexRes
    simp only []
    rw [hk]
  · exact M.bind_of_error (m := M.read fun s : Session => f.writer s.disk.dev) (s' := x) (e := .err y) (by
      unfold M.read
      simp only []
      rw [hf])

/-- **C66** A sequential GEOS file found in a listing is read like an ordinary file, whatever buffers
are used; it cannot be written to, and trying to changes nothing. -/
theorem C66_sequential {f : File} {r : Nat} {locs : List Location} {content : List Byte}
    (hw : Wf x.disk.dev s) (hes : x.disk.directory = .ok es) (he : e ∈ es)
    (hs : e.scheme = .geosSequential) (hf : x.disk.openFileFromEntry e = .ok (f, r))
    (hh : locs.head? = some e.firstSector) (hc : IsChain x.disk.dev s locs content) :
    Reads x.disk.dev f content ∧
      (x.files[k]? = some (f, r) → Session.step (.openWriter k) x = (fail .readOnly, x)) := by
  obtain ⟨p, -, hslot⟩ := listed_slot hw hes he
  rcases geos_opened hslot (.inl hs) (openFile_parts hf).2 with ⟨-, rfl⟩ | ⟨h1, -⟩
  · obtain ⟨h1, h2⟩ := read_whole hw hh hc
    exact ⟨⟨h1, _, rfl, h2⟩, fun hk => openWriter_refused hk rfl⟩
  · rw [hs] at h1; cases h1

/-- **C66** A VLIR file has no single stream: neither reading nor writing it as one is possible. -/
theorem C66_vlir {f : File} {r : Nat} (hw : Wf x.disk.dev s) (hes : x.disk.directory = .ok es) (he : e ∈ es)
    (hs : e.scheme = .geosVLIR) (hf : x.disk.openFileFromEntry e = .ok (f, r)) :
    f.reader = fail .nonLinearFile ∧
      (x.files[k]? = some (f, r) → Session.step (.openWriter k) x = (fail .nonLinearFile, x)) := by
  obtain ⟨p, -, hslot⟩ := listed_slot hw hes he
  rcases geos_opened hslot (.inr hs) (openFile_parts hf).2 with ⟨h1, -⟩ | ⟨-, block, -, rfl⟩
  · rw [hs] at h1; cases h1
  · exact ⟨rfl, fun hk => openWriter_refused hk rfl⟩

/-- **C66** Nor is it for a relative file. -/
theorem C66_relative {f : File} {r : Nat} (hs : e.scheme = .relative)
    (hf : x.disk.openFileFromEntry e = .ok (f, r)) :
    f.reader = fail .nonLinearFile ∧
      (x.files[k]? = some (f, r) → Session.step (.openWriter k) x = (fail .nonLinearFile, x)) := by
  have hf := (openFile_parts hf).2
  unfold File.fromEntry at hf
  rw [hs] at hf
  obtain ⟨rf, -, hf⟩ := res_bind_eq_ok.1 hf
  cases hf
  exact ⟨rfl, fun hk => openWriter_refused hk rfl⟩

/-- **C66** An ordinary file is read and written as a stream. -/
theorem C66_linear {f : File} {r : Nat} {locs : List Location} {content : List Byte}
    (hw : Wf x.disk.dev s) (hs : e.scheme = .linear) (hf : x.disk.openFileFromEntry e = .ok (f, r))
    (hh : locs.head? = some e.firstSector) (hc : IsChain x.disk.dev s locs content) :
    Reads x.disk.dev f content ∧
      (x.files[k]? = some (f, r) → ∃ w, Session.step (.openWriter k) x =
        (.ok (), { x with writers := x.writers ++ [(w, r)] })) := by
  have hf := (openFile_parts hf).2
  unfold File.fromEntry at hf
  rw [hs] at hf
  cases hf
  obtain ⟨h1, h2⟩ := read_whole hw hh hc
  refine ⟨⟨h1, _, rfl, h2⟩, fun hk => ?_⟩
  obtain ⟨w, hwr⟩ : ∃ w, ChainWriter.new x.disk.dev e e.firstSector = .ok w := by
    rcases C51_returns_partial hw (start := e.firstSector) (by rw [h1]; nofun) e with ⟨_, w, -, h3⟩ | ⟨y, h3, -⟩
    · exact ⟨w, h3⟩
    · rw [h1] at h3; cases h3
  refine ⟨w, ?_⟩
  show (M.bind _ _) x = _
  refine (M.bind_of_ok (m := M.read fun s : Session => indexRes s.files k) (s' := x) (a := (.linear e, r)) ?_).trans ?_
  · unfold M.read indexRes
    simp only []
    rw [hk]
  · exact M.bind_of_ok (m := M.read fun s : Session => (File.linear e).writer s.disk.dev) (s' := x) (a := w) (by
      unfold M.read
      show (ChainWriter.new x.disk.dev e e.firstSector, x) = _
      rw [hwr])

end

/-! ## Concrete cases -/

section
variable {d : Device} {s : Shape}

/-- A 1541 image: the given bytes at the beginning, and a directory of one sector that holds the
given slot. -/
def sampleDev (front slot : List Byte) : Device :=
  (imageOf front).put ⟨.d64, 35, false⟩ ⟨18, 1⟩ ([0x00, 0xFF] ++ slot.drop 2 ++ List.replicate 224 0)

/-- A program that has opened the file of that slot. -/
def sampleSession (front slot : List Byte) (b : Bam) (f : File) : Session where
  disk := ⟨DiskType.d64.format, sampleDev front slot,
    some ⟨⟨18, 1⟩, 0x41, [], (0x30, 0x31), 0x32, 0x41, none⟩, some DiskType.d64.format, some 0, [b]⟩
  files := [(f, 0)]
  writers := []

/-- The entries in the slots of a sector with these bytes. -/
def entriesIn (bytes : List Byte) (l : Location) : List DirectoryEntry :=
  (List.range 8).filterMap fun k =>
    if byteAt (slice bytes (UInt8.ofNat (32 * k)).toNat 32) 2 &&& 0x8F == 0 then none
    else some { DirectoryEntry.parse32 (slice bytes (UInt8.ofNat (32 * k)).toNat 32)
      (some ⟨l, UInt8.ofNat (32 * k), 32⟩) with geosBorder := false }

theorem picked_bytes {l : Location} : picked d s 8 l false = entriesIn (d.blk s l) l := by
  unfold picked entriesIn
  rw [List.filterMap_map]
  rfl

theorem sampleDev_facts {front slot : List Byte} (hf : front.length ≤ 174848) (hs : slot.length = 32) :
    Wf (sampleDev front slot) ⟨.d64, 35, false⟩ ∧
    (sampleDev front slot).blk ⟨.d64, 35, false⟩ ⟨18, 1⟩ =
      [0x00, 0xFF] ++ slot.drop 2 ++ List.replicate 224 0 ∧
    ∀ l, (⟨.d64, 35, false⟩ : Shape).Valid l → l ≠ ⟨18, 1⟩ →
      (sampleDev front slot).blk ⟨.d64, 35, false⟩ l = (imageOf front).blk ⟨.d64, 35, false⟩ l := by
  have hl : ([0x00, 0xFF] ++ slot.drop 2 ++ List.replicate 224 (0 : Byte)).length = 256 := by
    simp only [List.length_append, List.length_drop, List.length_replicate, List.length_cons, List.length_nil, hs]
  have hw := imageOf_wf front hf
  exact ⟨hw.put (by decide) hl, hw.blk_put_same (by decide) hl, fun l hv hne =>
    hw.blk_put_other (by decide) hv hne hl⟩

theorem sampleSession_opened {front slot : List Byte} {b : Bam} {f : File} {e : DirectoryEntry}
    (hf : front.length ≤ 174848) (hs : slot.length = 32) (hb : Consistent b .d64)
    (hd : entriesIn ([0x00, 0xFF] ++ slot.drop 2 ++ List.replicate 224 0) ⟨18, 1⟩ = [e])
    (ho : File.fromEntry (sampleDev front slot) e = .ok f) :
    OpenedEntry (sampleSession front slot b f) ⟨.d64, 35, false⟩ b 0 e [e] := by
  obtain ⟨hw, hblk, -⟩ := sampleDev_facts hf hs
  have hc : IsChain (sampleDev front slot) ⟨.d64, 35, false⟩ [⟨18, 1⟩] _ :=
    ⟨by decide, by decide, trivial, [], ⟨18, 1⟩, rfl, by rw [hblk]; rfl, by rw [hblk]; exact (by decide : (0xFF : Byte) ≠ 0), rfl⟩
  refine ⟨hw, nofun, rfl, hb, ?_, by simp, ⟨_, _, [⟨18, 1⟩], _, rfl, rfl, rfl, hc, ?_⟩, f, 0, ?_, rfl⟩
  · rw [directory_picked (disk := (sampleSession front slot b f).disk) hw rfl rfl rfl hc (by nofun)]
    refine congrArg Except.ok ?_
    show picked (sampleDev front slot) _ (usedBytes ((sampleDev front slot).blk _ ⟨18, 1⟩) / 32) _ _ ++ [] ++ [] = _
    rw [hblk, List.append_nil, List.append_nil, show usedBytes ([0x00, 0xFF] ++ slot.drop 2 ++
      List.replicate 224 0) = 256 from
        if_pos (rfl : byteAt ([0x00, 0xFF] ++ slot.drop 2 ++ List.replicate 224 (0 : Byte)) 0 = 0)]
    exact picked_bytes.trans (by rw [hblk]; exact hd)
  · intro l hl
    rw [show l = ⟨18, 1⟩ by simpa using hl]
    rintro ⟨j, hj, -⟩
    exact absurd hj (by decide)
  · show (do let r ← Except.ok 0; let f ← File.fromEntry (sampleDev front slot) e; pure (f, r) : Res _) = _
    rw [ho]
    rfl

/-- The blocks of the examples are allocated. -/
theorem exists_sampleBam : ∃ b, Consistent b .d64 ∧
    ∀ l ∈ [⟨1, 0⟩, ⟨1, 1⟩, ⟨1, 2⟩, (⟨1, 3⟩ : Location)], isFree b l = false := by
  obtain ⟨b, -, h1, -, h2⟩ := allocateAll_ok (ty := .d64)
    [⟨1, 0⟩, ⟨1, 1⟩, ⟨1, 2⟩, (⟨1, 3⟩ : Location)] (freshBam_consistent .d64) (by decide)
  refine ⟨b, h1, fun l hl => ?_⟩
  rw [h2 l]
  simp [hl]

/-- The directory slot of the relative file of `sampleRelative`, with records of 10 bytes. -/
def sampleRelativeSlot : List Byte :=
  [0, 0, 0x84, 1, 1] ++ List.replicate 16 0x41 ++ [1, 0, 10, 0, 0, 0, 0, 0, 0, 3, 0]

def sampleRelativeFront : List Byte :=
  [0x00, 19, 0, 10, 1, 0, 0, 0, 0, 0, 0, 0, 0, 0, 0, 0, 1, 1, 1, 2]
    ++ List.replicate 236 0 ++ ([1, 2] ++ List.replicate 254 7)
    ++ ([0x00, 7, 1, 2, 3, 4, 5, 6] ++ List.replicate 248 0)

/-- The hypotheses of `C65_relative_partial` and `C65_side_sectors_lost_refuted` hold of a program
that opened this file; deleting it makes three blocks free. -/
theorem sampleRelative_opened : ∃ x b e data side, OpenedEntry x ⟨.d64, 35, false⟩ b 0 e [e] ∧ e.scheme = .relative ∧
    RelativeBlocks x.disk.dev ⟨.d64, 35, false⟩ e data side ∧ (∀ l ∈ data ++ side, Usable .d64 l) ∧
    (data ++ side).Nodup ∧ (∀ l ∈ data ++ side, isFree b l = false) ∧ (data ++ side).length = 3 ∧
    (∃ l ∈ side, l ∉ data) ∧ (∀ l ∈ data ++ side, l.track = 1) ∧
    ∃ front slot f, x = sampleSession front slot b f ∧ front.length ≤ 174848 ∧ slot.length = 32 := by
  obtain ⟨b, hb, hal⟩ := exists_sampleBam
  obtain ⟨hw, hblk, hoth⟩ := sampleDev_facts (front := sampleRelativeFront) (slot := sampleRelativeSlot)
    (by decide +kernel) (by decide)
  have hsame : ∀ l ∈ [⟨1, 0⟩, ⟨1, 1⟩, (⟨1, 2⟩ : Location)],
      (sampleDev sampleRelativeFront sampleRelativeSlot).blk ⟨.d64, 35, false⟩ l =
        sampleRelative.blk ⟨.d64, 35, false⟩ l := fun l hl => hoth l
    ((by decide : ∀ l ∈ [⟨1, 0⟩, ⟨1, 1⟩, (⟨1, 2⟩ : Location)], (⟨.d64, 35, false⟩ : Shape).Valid l) l hl)
    ((by decide : ∀ l ∈ [⟨1, 0⟩, ⟨1, 1⟩, (⟨1, 2⟩ : Location)], l ≠ ⟨18, 1⟩) l hl)
  have hsides : SideSectors (sampleDev sampleRelativeFront sampleRelativeSlot) ⟨.d64, 35, false⟩ ⟨1, 0⟩
      [⟨1, 0⟩] [⟨1, 1⟩, ⟨1, 2⟩] := by
    have h := sampleRelative_sides
    obtain ⟨c, hc⟩ := h.chain
    have h0 := hsame ⟨1, 0⟩ (by simp)
    refine ⟨rfl, ⟨c, hc.frame fun l hl => hsame l (by simp at hl; simp [hl])⟩, h.few, ?_, ?_, ?_⟩
    · intro l hl
      rw [List.mem_singleton] at hl
      subst hl
      rw [h0]
      exact h.listed _ (by simp)
    · intro l hl
      rw [List.mem_singleton] at hl
      subst hl
      rw [h0]
      exact h.whole _ (by simp)
    · have := h.data
      simp only [List.flatMap_cons, List.flatMap_nil] at this ⊢
      rw [h0]
      exact this
  have hstream : DataStream (sampleDev sampleRelativeFront sampleRelativeSlot) ⟨.d64, 35, false⟩
      [⟨1, 1⟩, ⟨1, 2⟩] (List.replicate 254 7 ++ [1, 2, 3, 4, 5, 6]) ∧
      ∃ content, IsChain (sampleDev sampleRelativeFront sampleRelativeSlot) ⟨.d64, 35, false⟩
        [⟨1, 1⟩, ⟨1, 2⟩] content := by
    have hc : IsChain sampleRelative ⟨.d64, 35, false⟩ [⟨1, 1⟩, ⟨1, 2⟩]
        (List.replicate 254 7 ++ [1, 2, 3, 4, 5, 6]) :=
      ⟨by decide +kernel, by decide, ⟨by decide +kernel, trivial⟩, [⟨1, 1⟩], ⟨1, 2⟩, rfl, by decide +kernel,
        by decide +kernel, by decide +kernel⟩
    have hc' := hc.frame (d' := sampleDev sampleRelativeFront sampleRelativeSlot) fun l hl =>
      hsame l (by simp at hl; rcases hl with rfl | rfl <;> simp)
    exact ⟨hc'.dataStream, _, hc'⟩
  obtain ⟨rf, hnew⟩ := (show ∃ rf, _ = Except.ok rf from ⟨_, (C42_open_iff (entry := DirectoryEntry.parse32 sampleRelativeSlot (some ⟨⟨18, 1⟩, 0, 32⟩))
    (ex := ⟨⟨1, 0⟩, 10, List.replicate 6 0⟩) hw (by decide +kernel) _).2 ⟨_, _, _, hsides, DataStream.length hw hstream.1, by decide,
      ⟨26, by decide +kernel⟩, rfl⟩⟩)
  refine ⟨_, b, _, [⟨1, 1⟩, ⟨1, 2⟩], [⟨1, 0⟩], sampleSession_opened (front := sampleRelativeFront)
    (slot := sampleRelativeSlot) (e := DirectoryEntry.parse32 sampleRelativeSlot (some ⟨⟨18, 1⟩, 0, 32⟩))
    (by decide +kernel) (by decide) hb ?_ (f := .relative rf) ?_, by decide +kernel,
    ⟨by decide +kernel, hstream.2, ⟨⟨1, 0⟩, 10, List.replicate 6 0⟩, by decide +kernel, hsides⟩, ?_, by decide, ?_, rfl,
    ⟨⟨1, 0⟩, by decide, by decide⟩, by decide, _, _, _, rfl, by decide +kernel, rfl⟩
  · decide +kernel
  · show (do let f ← RelativeFile.new _ _; pure (File.relative f) : Res File) = _
    rw [hnew]
    rfl
  · intro l hl
    refine ⟨(by decide : ∀ l ∈ [⟨1, 1⟩, ⟨1, 2⟩, (⟨1, 0⟩ : Location)], ValidLoc .d64 (bamTracks .d64) l) l hl, ?_⟩
    rintro ⟨j, rfl, -⟩
    revert hl
    decide
  · intro l hl
    exact hal l (by revert l; decide)

/-- `C55_any_kind_partial` of that relative file: deleting it does not panic. -/
example : ∃ (x : Session) (b : Bam) (e : DirectoryEntry) (f : File) (ref : Nat),
    e.scheme = .relative ∧ x.disk.openFileFromEntry e = .ok (f, ref) ∧
    (File.delete ⟨f, ⟨x.disk.dev, b⟩⟩).1 ≠ .error .panic := by
  obtain ⟨x, b, e, data, side, h, hs, hr, -⟩ := sampleRelative_opened
  obtain ⟨f, r, hf, -⟩ := h.handle
  refine ⟨x, b, e, f, r, hs, hf, fun hp => ?_⟩
  rcases (C55_any_kind_partial h.wf h.consistent.toBamOf h.listed h.entry hf).2 hp with h | ⟨g, hg, -⟩
  · exact absurd h.2 (by decide)
  · obtain ⟨ex, hx, -⟩ := hr.sides
    rw [hg] at hx
    cases hx

def sampleVlirFront : List Byte :=
  [0x00, 0xFF, 1, 1, 0, 0xFF, 1, 2] ++ List.replicate 248 0 ++
    ([0x00, 4, 1, 2, 3] ++ List.replicate 251 0) ++ ([0x00, 2, 9] ++ List.replicate 253 0)

theorem sample_usable {locs : List Location}
    (h : ∀ l ∈ locs, l ∈ [⟨1, 0⟩, ⟨1, 1⟩, ⟨1, 2⟩, (⟨1, 3⟩ : Location)]) : ∀ l ∈ locs, Usable .d64 l := by
  intro l hl
  have hl := h l hl
  refine ⟨(by decide : ∀ l ∈ [⟨1, 0⟩, ⟨1, 1⟩, ⟨1, 2⟩, (⟨1, 3⟩ : Location)],
    ValidLoc .d64 (bamTracks .d64) l) l hl, ?_⟩
  rintro ⟨j, rfl, -⟩
  revert hl
  decide

/-- The hypotheses of `C65_vlir_partial` and `C66_vlir` hold of a program that opened the file of
`sampleVlir`, with an index sector, an info block and two records. -/
theorem sampleVlir_opened : ∃ x b e info chains, OpenedEntry x ⟨.d64, 35, false⟩ b 0 e [e] ∧ e.scheme = .geosVLIR ∧
    VlirBlocks x.disk.dev ⟨.d64, 35, false⟩ e info chains ∧
    (∀ l ∈ e.firstSector :: info ++ chains.flatten, Usable .d64 l) ∧
    (e.firstSector :: info ++ chains.flatten).Nodup ∧
    (∀ l ∈ e.firstSector :: info ++ chains.flatten, isFree b l = false) ∧ chains.length = 2 ∧
    (∀ l ∈ e.firstSector :: info ++ chains.flatten, l.track = 1) ∧
    ∃ front slot f, x = sampleSession front slot b f ∧ front.length ≤ 174848 ∧ slot.length = 32 := by
  obtain ⟨b, hb, hal⟩ := exists_sampleBam
  obtain ⟨hw, hblk, hoth⟩ := sampleDev_facts (front := sampleVlirFront) (slot := sampleVlirSlot)
    (by decide +kernel) (by decide)
  have hsame : ∀ l ∈ [⟨1, 0⟩, ⟨1, 1⟩, (⟨1, 2⟩ : Location)],
      (sampleDev sampleVlirFront sampleVlirSlot).blk ⟨.d64, 35, false⟩ l =
        sampleVlir.blk ⟨.d64, 35, false⟩ l := fun l hl => hoth l
    ((by decide : ∀ l ∈ [⟨1, 0⟩, ⟨1, 1⟩, (⟨1, 2⟩ : Location)], (⟨.d64, 35, false⟩ : Shape).Valid l) l hl)
    ((by decide : ∀ l ∈ [⟨1, 0⟩, ⟨1, 1⟩, (⟨1, 2⟩ : Location)], l ≠ ⟨18, 1⟩) l hl)
  have c1 : IsChain sampleVlir ⟨.d64, 35, false⟩ [⟨1, 1⟩] [1, 2, 3] :=
    ⟨by decide +kernel, by decide, trivial, [], ⟨1, 1⟩, rfl, by decide +kernel, by decide +kernel,
      by decide +kernel⟩
  have c2 : IsChain sampleVlir ⟨.d64, 35, false⟩ [⟨1, 2⟩] [9] :=
    ⟨by decide +kernel, by decide, trivial, [], ⟨1, 2⟩, rfl, by decide +kernel, by decide +kernel,
      by decide +kernel⟩
  have c1' := c1.frame (d' := sampleDev sampleVlirFront sampleVlirSlot) fun l hl =>
    hsame l (by simp at hl; simp [hl])
  have c2' := c2.frame (d' := sampleDev sampleVlirFront sampleVlirSlot) fun l hl =>
    hsame l (by simp at hl; simp [hl])
  have hsec := hw.sector (l := ⟨1, 0⟩) (by decide)
  refine ⟨_, b, _, [⟨1, 3⟩], [[⟨1, 1⟩], [⟨1, 2⟩]], sampleSession_opened (front := sampleVlirFront)
    (slot := sampleVlirSlot) (e := DirectoryEntry.parse32 sampleVlirSlot (some ⟨⟨18, 1⟩, 0, 32⟩))
    (by decide +kernel) (by decide) hb (by decide +kernel) (f := .geosVLIR ⟨.parse32 sampleVlirSlot (some ⟨⟨18, 1⟩, 0, 32⟩), some (vlirRecords
      ((sampleDev sampleVlirFront sampleVlirSlot).blk ⟨.d64, 35, false⟩ ⟨1, 0⟩))⟩) ?_, by decide +kernel,
    ⟨by decide +kernel, ?_, ⟨_, rfl, by decide +kernel⟩, ?_⟩, sample_usable (by decide +kernel), by decide +kernel, ?_, rfl,
    by decide +kernel, _, _, _, rfl, by decide +kernel, rfl⟩
  · unfold File.fromEntry GEOSFile.new
    rw [show (DirectoryEntry.parse32 sampleVlirSlot (some ⟨⟨18, 1⟩, 0, 32⟩)).scheme = .geosVLIR from by
      decide +kernel, show (DirectoryEntry.parse32 sampleVlirSlot (some ⟨⟨18, 1⟩, 0, 32⟩)).isVlir = .ok true from
      by decide +kernel, show (DirectoryEntry.parse32 sampleVlirSlot (some ⟨⟨18, 1⟩, 0, 32⟩)).firstSector =
      ⟨1, 0⟩ from by decide +kernel]
    simp only [res_bind_ok, if_true, hsec, res_pure]
  · show linkBytes ((sampleDev sampleVlirFront sampleVlirSlot).blk ⟨.d64, 35, false⟩ ⟨1, 0⟩) = _
    rw [hsame _ (by simp)]
    decide +kernel
  · show RecordChains (sampleDev sampleVlirFront sampleVlirSlot) _
      (vlirIndex ((sampleDev sampleVlirFront sampleVlirSlot).blk ⟨.d64, 35, false⟩ ⟨1, 0⟩)) _
    rw [hsame _ (by simp), show vlirIndex (sampleVlir.blk ⟨.d64, 35, false⟩ ⟨1, 0⟩) =
      [⟨1, 1⟩, noRecord, ⟨1, 2⟩] from by decide +kernel]
    exact .present (by decide) rfl c1' (.absent (.present (by decide) rfl c2' .nil))
  · intro l hl
    exact hal l ((by decide +kernel : ∀ l ∈ (DirectoryEntry.parse32 sampleVlirSlot
      (some ⟨⟨18, 1⟩, 0, 32⟩)).firstSector :: [⟨1, 3⟩] ++ [[⟨1, 1⟩], [(⟨1, 2⟩ : Location)]].flatten,
      l ∈ [⟨1, 0⟩, ⟨1, 1⟩, ⟨1, 2⟩, (⟨1, 3⟩ : Location)]) l hl)

/-- The slot of a sequential GEOS file with data in sector (1, 1) and info block (1, 3). -/
def sampleSequentialSlot : List Byte :=
  [0, 0, 0x82, 1, 1] ++ List.replicate 16 0x41 ++ [1, 3, 0, 7, 0, 0, 0, 0, 0, 2, 0]

/-- The hypotheses of `C65_sequential_partial`, `C65_info_block_lost_refuted` and `C66_sequential`
hold of a program that opened that file. -/
theorem sampleSequential_opened : ∃ x b e data info, OpenedEntry x ⟨.d64, 35, false⟩ b 0 e [e] ∧ e.scheme = .geosSequential ∧
    SequentialBlocks x.disk.dev ⟨.d64, 35, false⟩ e data info ∧ (∀ l ∈ data ++ info, Usable .d64 l) ∧
    (data ++ info).Nodup ∧ (∀ l ∈ data ++ info, isFree b l = false) ∧ (data ++ info).length = 2 ∧
    (∃ l ∈ info, l ∉ data) ∧ (∀ l ∈ data ++ info, l.track = 1) ∧
    ∃ front slot f, x = sampleSession front slot b f ∧ front.length ≤ 174848 ∧ slot.length = 32 := by
  obtain ⟨b, hb, hal⟩ := exists_sampleBam
  obtain ⟨hw, hblk, hoth⟩ := sampleDev_facts (front := sampleVlirFront) (slot := sampleSequentialSlot)
    (by decide +kernel) (by decide)
  have c1 : IsChain sampleVlir ⟨.d64, 35, false⟩ [⟨1, 1⟩] [1, 2, 3] :=
    ⟨by decide +kernel, by decide, trivial, [], ⟨1, 1⟩, rfl, by decide +kernel, by decide +kernel,
      by decide +kernel⟩
  have c1' := c1.frame (d' := sampleDev sampleVlirFront sampleSequentialSlot) fun l hl => by
    rw [List.mem_singleton] at hl
    subst hl
    exact hoth _ (by decide) (by decide)
  refine ⟨_, b, _, [⟨1, 1⟩], [⟨1, 3⟩], sampleSession_opened (front := sampleVlirFront)
    (slot := sampleSequentialSlot) (e := DirectoryEntry.parse32 sampleSequentialSlot (some ⟨⟨18, 1⟩, 0, 32⟩))
    (by decide +kernel) (by decide) hb (by decide +kernel) (f := .geosSequential ⟨_, none⟩) rfl, by decide +kernel,
    ⟨by decide +kernel, ⟨_, c1'⟩, ⟨_, rfl, by decide +kernel⟩⟩, sample_usable (by decide +kernel), by decide +kernel,
    ?_, rfl, ⟨⟨1, 3⟩, by decide, by decide⟩, by decide, _, _, _, rfl, by decide +kernel, rfl⟩
  intro l hl
  exact hal l (by revert l; decide)

end

end Cbm
