import Verif.Lemmas.Bystander
import Verif.Spec.Bystander
import Verif.Props.Territory
import Verif.Props.Validate
import Verif.Props.Listing
/-!
# C87: on a disk that validates, work on some files leaves all others as they are
-/

namespace Cbm
open Spec

variable {s : Shape} {disk disk' : Disk} {x : Session} {ty : DiskType} {b : Bam} {header : Header}
  {dir : List Location} {entries opens : List DirectoryEntry} {e : DirectoryEntry} {α : Type}
  {ls : List Location}

/-! ## The settings of the disk object -/

/-- The header, the format and the reference to the map. -/
def settings (disk : Disk) : DiskFormat × Option Header × Option DiskFormat × Option Nat :=
  (disk.native, disk.header, disk.format, disk.bam)

instance : Pre (@Eq (DiskFormat × Option Header × Option DiskFormat × Option Nat)) := ⟨fun _ => rfl, Eq.trans⟩

theorem settings_withBam {m : M St α} (r : Nat) : Keeps Eq settings (Disk.withBam r m) := by
  intro disk
  unfold Disk.withBam
  split <;> rfl

theorem settings_nextFree : Keeps Eq settings Disk.nextFreeDirectoryEntry := by
  unfold Disk.nextFreeDirectoryEntry
  refine .bind .get fun disk => .bind (.lift _) fun f => .bind (.lift _) fun r => ?_
  cases r with
  | inl e => exact .pure e
  | inr l => exact .bind (.lift _) fun ref => settings_withBam ref

theorem settings_create (name : Petscii) (type : FileType) (scheme : Scheme) :
    Keeps Eq settings (Disk.createFile name type scheme) := by
  unfold Disk.createFile
  refine .ite (.throw _) ?_
  exact .bind (.lift _) fun _ => .bind (.read _) fun _ => .bind settings_nextFree fun _ => .bind (.read _) fun _ =>
    .bind (settings_withBam _) fun _ => .bind (.read _) fun _ => .pure _

theorem settings_work {c : Call} (hc : Work c = true) (x : Session) :
    settings (Session.step c x).2.disk = settings x.disk := by
  have hdisk : ∀ {m : M Disk Unit}, Keeps Eq settings m → settings (Session.onDisk m x).2.disk = settings x.disk := by
    intro m hm
    rw [onDisk_state]
    exact (hm x.disk).symm
  have hwriter : ∀ {β : Type} (i : Nat) (m : M WSt β), settings (Session.onWriter i m x).2.disk = settings x.disk := by
    intro β i m
    unfold Session.onWriter
    split
    · rfl
    · split <;> rfl
  cases c with
  | create name type scheme =>
    show settings ((_ >>= _ : M Session Unit) x).2.disk = _
    rcases hcr : Disk.createFile name type scheme x.disk with ⟨res, d'⟩
    have := settings_create name type scheme x.disk
    rw [hcr] at this
    cases res with
    | ok q => rw [M.bind_of_ok (onDisk_run hcr)]; exact this.symm
    | error q => rw [M.bind_of_error (onDisk_run hcr)]; exact this.symm
  | openWriter i =>
    have : ∀ y, (Session.step (.openWriter i) x).2 = y → settings y.disk = settings x.disk := by
      intro y hy
      subst hy
      show settings ((_ >>= _ : M Session Unit) x).2.disk = _
      cases hi : indexRes x.files i with
      | error q => rw [M.bind_of_error (s' := x) (e := q) (by rw [M.run_read, hi])]
      | ok fr =>
        rw [M.bind_of_ok (s' := x) (a := fr) (by rw [M.run_read, hi])]
        obtain ⟨f, r⟩ := fr
        show settings ((_ >>= _ : M Session Unit) x).2.disk = _
        cases hw : f.writer x.disk.dev with
        | error q => rw [M.bind_of_error (s' := x) (e := q) (by rw [M.run_read, hw])]
        | ok w => rw [M.bind_of_ok (s' := x) (a := w) (by rw [M.run_read, hw])]; rfl
    exact this _ rfl
  | write i buf =>
    show settings ((_ >>= _ : M Session Unit) x).2.disk = _
    rcases hr : Session.onWriter i (ChainWriter.write buf) x with ⟨res, y⟩
    have := hwriter i (ChainWriter.write buf)
    rw [hr] at this
    cases res with
    | ok q => rw [M.bind_of_ok hr]; exact this
    | error q => rw [M.bind_of_error hr]; exact this
  | flush i => exact hwriter i _
  | drop i => exact hwriter i ChainWriter.flush
  | delete i =>
    show settings (Session.onFile i File.delete x).2.disk = _
    unfold Session.onFile
    split
    · rfl
    · split <;> rfl
  | nextFreeDirectoryEntry =>
    show settings ((_ >>= _ : M Session Unit) x).2.disk = _
    rcases hcr : Disk.nextFreeDirectoryEntry x.disk with ⟨res, d'⟩
    have := settings_nextFree x.disk
    rw [hcr] at this
    cases res with
    | ok q => rw [M.bind_of_ok (onDisk_run hcr)]; exact this.symm
    | error q => rw [M.bind_of_error (onDisk_run hcr)]; exact this.symm
  | bamAllocate r l => exact hdisk (settings_withBam r)
  | bamFlush r => exact hdisk (settings_withBam r)
  | flushHeader =>
    refine hdisk (.bind (.read _) fun _ => .bind .get fun _ => ?_)
    intro disk
    rfl
  | init => cases hc
  | format _ _ => cases hc
  | setHeader _ => cases hc
  | setFormat _ => cases hc
  | setBam _ => cases hc
  | openFile _ => cases hc
  | openEntry _ => cases hc
  | rename _ _ => cases hc
  | writeDirectoryEntry _ => cases hc
  | writeSector _ _ => cases hc
  | sectorMut _ _ => cases hc
  | bamFree _ _ => cases hc

theorem settings_run : ∀ {calls : List Call}, (∀ c ∈ calls, Work c = true) → ∀ x,
    settings (Session.run calls x).disk = settings x.disk
  | [], _, _ => rfl
  | c :: calls, h, x => (settings_run (fun c' hc' => h c' (List.mem_cons_of_mem _ hc')) _).trans
      (settings_work (h c List.mem_cons_self) x)

/-- Opening files leaves the disk as it is. -/
theorem open_disk (e : DirectoryEntry) (x : Session) : (Session.step (.openEntry e) x).2.disk = x.disk := by
  show ((_ >>= _ : M Session Unit) x).2.disk = _
  cases h : x.disk.openFileFromEntry e with
  | error q => rw [M.bind_of_error (s' := x) (e := q) (by rw [M.run_read, h])]
  | ok f => rw [M.bind_of_ok (s' := x) (a := f) (by rw [M.run_read, h])]; rfl

theorem opens_disk : ∀ (opens : List DirectoryEntry) (x : Session),
    (Session.run (opens.map Call.openEntry) x).disk = x.disk
  | [], _ => rfl
  | e :: opens, x => (opens_disk opens _).trans (open_disk e x)

theorem run_append : ∀ (a c : List Call) (x : Session), Session.run (a ++ c) x = Session.run c (Session.run a x)
  | [], _, _ => rfl
  | _ :: a, c, _ => run_append a c _

theorem working_settings {calls : List Call} (h : ∀ c ∈ calls, Work c = true) :
    settings (working disk opens calls).disk = settings disk := by
  unfold working
  rw [run_append, settings_run h, opens_disk]

/-! ## The directory -/

theorem mem_sectorEntries {cs : ChainSector} {border : Bool} : e ∈ sectorEntries cs border ↔
    ∃ i, 32 * i + 32 ≤ cs.data.length ∧
      e = { DirectoryEntry.parse32 (slice cs.data (32 * i) 32) (some ⟨cs.location, UInt8.ofNat (32 * i), 32⟩) with
        geosBorder := border } ∧ e.attributes.isScratched = false := by
  unfold sectorEntries
  rw [List.mem_filterMap]
  constructor
  · rintro ⟨⟨c, i⟩, hc, he⟩
    simp only at he
    split at he
    · cases he
    · rename_i hlen
      split at he
      · cases he
      · rename_i hscr
        obtain ⟨h1, h2⟩ := mem_chunks hc (Classical.not_not.1 hlen)
        refine ⟨i, h1, ?_, ?_⟩
        · rw [← h2]
          exact (Option.some.inj he).symm
        · rw [← Option.some.inj he]
          exact Bool.eq_false_iff.2 hscr
  · rintro ⟨i, h1, h2, h3⟩
    refine ⟨(slice cs.data (32 * i) 32, i), ?_, ?_⟩
    · rw [List.mk_mem_zipIdx_iff_getElem?]
      unfold chunks
      rw [List.getElem?_map, List.getElem?_range (by simp only [ENTRY_SIZE]; omega)]
      simp only [Option.map_some, ENTRY_SIZE, Nat.mul_comm]
    · simp only
      have hlen : (slice cs.data (32 * i) 32).length = 32 := by
        simp only [slice, List.length_take, List.length_drop]
        omega
      rw [if_neg (by rw [hlen]; simp [ENTRY_SIZE]), if_neg]
      · exact congrArg some h2.symm
      · rw [h2] at h3
        exact Bool.eq_false_iff.1 h3

/-- Where an entry of the listing comes from. -/
theorem item_home (hw : Wf disk.dev s) (hf : ∃ g, disk.format = some { ty.format with geos := g })
    (hh : disk.header = some header) (he : .ok e ∈ disk.items) :
    ∃ cs i border, e.position = some ⟨cs.location, UInt8.ofNat (32 * i), 32⟩ ∧ s.Valid cs.location ∧
      32 * i + 32 ≤ cs.data.length ∧ (∃ n, cs.data = (disk.dev.blk s cs.location).take n) ∧
      e = { DirectoryEntry.parse32 (slice (disk.dev.blk s cs.location) (32 * i) 32)
        (some ⟨cs.location, UInt8.ofNat (32 * i), 32⟩) with geosBorder := border } ∧
      e.attributes.isScratched = false ∧
      (border = match header.geos with
        | some g => g.border == cs.location
        | none => false) ∧
      (.ok cs ∈ chainItems disk.dev (firstDirectory ty) ∨
        ∃ g, header.geos = some g ∧ cs = ⟨disk.dev.blk s g.border, g.border⟩) := by
  obtain ⟨g, hf⟩ := hf
  rw [items_of hf hh] at he
  unfold directoryItems at he
  obtain ⟨it, hit, hmem⟩ := List.mem_flatMap.1 he
  cases it with
  | error q => simp at hmem
  | ok cs =>
    simp only at hmem
    have hfirst : ({ ty.format with geos := g } : DiskFormat).firstDirectoryLocation = firstDirectory ty := by
      cases ty <;> rfl
    have hcs : s.Valid cs.location ∧ (∃ n, cs.data = (disk.dev.blk s cs.location).take n) ∧
        (.ok cs ∈ chainItems disk.dev (firstDirectory ty) ∨
          ∃ g, header.geos = some g ∧ cs = ⟨disk.dev.blk s g.border, g.border⟩) := by
      unfold directoryBlocks at hit
      rw [hfirst] at hit
      rcases List.mem_append.1 hit with hit | hit
      · have := chainItems_item hw hit
        exact ⟨this.1, this.2, .inl hit⟩
      · split at hit
        · rename_i g' hg'
          rw [List.mem_singleton] at hit
          by_cases hv : s.Valid g'.border
          · rw [hw.sector hv] at hit
            cases hit
            exact ⟨hv, ⟨256, by rw [List.take_of_length_le (by rw [hw.blk_length hv]; exact Nat.le_refl _)]⟩,
              .inr ⟨g', hg', rfl⟩⟩
          · rw [hw.sector_invalid hv] at hit
            cases hit
        · cases hit
    obtain ⟨hv, ⟨n, hdata⟩, hcs⟩ := hcs
    obtain ⟨e', he', heq⟩ := List.mem_map.1 hmem
    cases heq
    obtain ⟨i, h1, h2, h3⟩ := mem_sectorEntries.1 he'
    refine ⟨cs, i, _, ?_, hv, h1, ⟨n, hdata⟩, ?_, h3, rfl, hcs⟩
    · rw [h2]
      rfl
    · rw [hdata] at h1
      rw [← slice_of_take h1, ← hdata]
      exact h2

/-- An entry of the listing is still listed when its slot is as it was, and the directory was at most made longer. -/
theorem item_kept (hw : Wf disk.dev s) (hw' : Wf disk'.dev s) (hset : settings disk' = settings disk)
    (hf : ∃ g, disk.format = some { ty.format with geos := g }) (hh : disk.header = some header)
    (hd : chainLocations disk.dev (firstDirectory ty) = .ok dir)
    (hlead : ∀ l ∈ dir, LeadsTo disk'.dev s (firstDirectory ty) l)
    (htail : ∀ l ∈ dir, byteAt (disk'.dev.blk s l) 0 = 0 →
      byteAt (disk.dev.blk s l) 0 = 0 ∧ byteAt (disk'.dev.blk s l) 1 = byteAt (disk.dev.blk s l) 1)
    (he : .ok e ∈ disk.items)
    (hfield : ∀ p, e.position = some p → ∀ l j, Field p 2 30 l j →
      (disk'.dev.blk s l)[j]? = (disk.dev.blk s l)[j]?) : .ok e ∈ disk'.items := by
  obtain ⟨cs, i, border, hp, hv, hi, ⟨n, hn⟩, heq, hscr, hbo, hcs⟩ := item_home hw hf hh he
  have hfmt : disk'.format = disk.format := congrArg (fun q => q.2.2.1) hset
  have hhd : disk'.header = disk.header := congrArg (fun q => q.2.1) hset
  obtain ⟨g, hf⟩ := hf
  have hb := hw.blk_length hv
  have hi8 : 32 * i + 32 ≤ 256 := by
    rw [hn, List.length_take] at hi
    omega
  have ho : (UInt8.ofNat (32 * i)).toNat = 32 * i := by
    rw [UInt8.toNat_ofNat']
    omega
  have hparse : DirectoryEntry.parse32 (slice (disk'.dev.blk s cs.location) (32 * i) 32)
        (some ⟨cs.location, UInt8.ofNat (32 * i), 32⟩) =
      DirectoryEntry.parse32 (slice (disk.dev.blk s cs.location) (32 * i) 32)
        (some ⟨cs.location, UInt8.ofNat (32 * i), 32⟩) := by
    refine parse32_congr _ fun k hk => ?_
    rw [getElem?_slice, getElem?_slice]
    split
    · exact hfield _ hp _ _ ⟨rfl, by simp only [ho]; omega, by simp only [ho]; omega⟩
    · rfl
  have hfirst : ({ ty.format with geos := g } : DiskFormat).firstDirectoryLocation = firstDirectory ty := by
    cases ty <;> rfl
  rw [items_of (hfmt.trans hf) (hhd.trans hh)]
  unfold directoryItems
  -- the sector as it is found now
  suffices h : ∃ cs', .ok cs' ∈ directoryBlocks disk'.dev { ty.format with geos := g } header.geos ∧
      cs'.location = cs.location ∧ ∃ n', cs'.data = (disk'.dev.blk s cs.location).take n' ∧
        32 * i + 32 ≤ cs'.data.length by
    obtain ⟨cs', h1, h2, n', h3, h4⟩ := h
    refine List.mem_flatMap.2 ⟨.ok cs', h1, ?_⟩
    refine List.mem_map.2 ⟨e, mem_sectorEntries.2 ⟨i, h4, ?_, hscr⟩, rfl⟩
    rw [heq, h2, h3, slice_of_take (by rw [← h3]; exact h4), hparse, hbo]
    rfl
  unfold directoryBlocks
  rw [hfirst]
  rcases hcs with hcs | ⟨g', hg', rfl⟩
  · have hl : cs.location ∈ dir := by
      exact leads_in hw hd (item_path hw hcs)
    have hb' := hw'.blk_length hv
    obtain ⟨h1, h2⟩ := leads_item hw' (hlead _ hl) hv
    by_cases h0 : byteAt (disk'.dev.blk s cs.location) 0 = 0
    · obtain ⟨t0, t1⟩ := htail _ hl h0
      -- the last sector of the directory, then and now
      have hold : ∃ ls t, chainItems disk.dev (firstDirectory ty) =
          ls.map (fun l => .ok ⟨disk.dev.blk s l, l⟩) ++ [stopItem disk.dev s ls t] ∧
          Path disk.dev s (firstDirectory ty) ls t ∧ Stops disk.dev s ls t := chainItems_walk hw _
      obtain ⟨ls, t, hit, hpath, -⟩ := hold
      rw [hit] at hcs
      have hlen : byteAt (disk.dev.blk s cs.location) 1 ≠ 0 ∧
          cs.data = (disk.dev.blk s cs.location).take ((byteAt (disk.dev.blk s cs.location) 1).toNat + 1) := by
        rcases List.mem_append.1 hcs with hcs | hcs
        · obtain ⟨l, hl', hc⟩ := List.mem_map.1 hcs
          cases hc
          exact (hpath.onward l hl' t0).elim
        · have hs := (List.mem_singleton.1 hcs).symm
          unfold stopItem at hs
          split at hs
          · cases hs
          · split at hs
            · cases hs
            · split at hs
              · cases hs
              · rename_i h1'
                cases hs
                exact ⟨h1', rfl⟩
      rw [← t1] at hlen
      refine ⟨_, List.mem_append_left _ (h2 h0 hlen.1), rfl, _, rfl, ?_⟩
      rw [hlen.2, List.length_take] at hi
      simp only [List.length_take]
      omega
    · exact ⟨_, List.mem_append_left _ (h1 h0), rfl, 256,
        (List.take_of_length_le (by rw [hb']; exact Nat.le_refl _)).symm, by simp only [hb']; omega⟩
  · refine ⟨⟨disk'.dev.blk s g'.border, g'.border⟩, List.mem_append_right _ ?_, rfl, 256, ?_, ?_⟩
    · rw [hg']
      simp only
      rw [hw'.sector hv]
      exact List.mem_singleton.2 rfl
    · rw [List.take_of_length_le (by rw [hw'.blk_length hv]; exact Nat.le_refl _)]
    · have := hw'.blk_length hv
      simp only at this ⊢
      omega

/-! ## A disk that validates -/

/-- The sectors of the directory and the GEOS border sector. -/
def homes (dir : List Location) (header : Header) : List Location :=
  dir ++ (header.geos.map GEOSDiskHeader.border).toList

/-- What a clean report says. -/
structure Clean (disk : Disk) (ty : DiskType) (b : Bam) (header : Header) (dir : List Location)
    (entries : List DirectoryEntry) : Prop where
  scans : ∀ e ∈ entries, ∃ ls, scanFile disk e = .ok ls
  own : ∀ e ∈ entries, ∀ ls, scanFile disk e = .ok ls → ∀ l ∈ ls, l ∉ ownSectors ty
  home : ∀ e ∈ entries, ∀ ls, scanFile disk e = .ok ls → ∀ l ∈ ls, l ∉ homes dir header
  apart : ∀ e ∈ entries, ∀ o ∈ entries, o.position ≠ e.position → ∀ ls lo, scanFile disk e = .ok ls →
    scanFile disk o = .ok lo → ∀ l ∈ ls, l ∉ lo
  marked : ∀ l, ValidLoc ty (bamTracks ty) l → isFree b l = true → l ∉ ownSectors ty ∧ l ∉ homes dir header ∧
    ∀ e ∈ entries, ∀ ls, scanFile disk e = .ok ls → l ∉ ls

theorem pairwise_any {β : Type} {R : β → β → Prop} (hsym : ∀ a c, R a c → R c a) :
    ∀ {xs : List β}, xs.Pairwise R → ∀ a ∈ xs, ∀ c ∈ xs, a ≠ c → R a c
  | [], _, a, ha, _, _, _ => by cases ha
  | x :: xs, h, a, ha, c, hc, hne => by
    rw [List.pairwise_cons] at h
    rcases List.mem_cons.1 ha with ha' | ha' <;> rcases List.mem_cons.1 hc with hc' | hc'
    · exact (hne (ha'.trans hc'.symm)).elim
    · rw [ha']; exact h.1 c hc'
    · rw [hc']; exact hsym _ _ (h.1 a ha')
    · exact pairwise_any hsym h.2 a ha' c hc' hne

theorem clean_of (h : CanValidate disk ty b header dir entries) (hv : disk.validate = .ok []) :
    Clean disk ty b header dir entries := by
  obtain ⟨h1, h2, h3⟩ := (C32_empty_iff h).1 hv
  unfold claims at h2 h3
  rw [List.pairwise_cons] at h2
  have hmem : ∀ e ∈ entries, ∀ ls, scanFile disk e = .ok ls → (e.filename, ls) ∈ entries.filterMap fun e =>
      match scanFile disk e with
      | .ok ls => some (e.filename, ls)
      | .error _ => none := by
    intro e he ls hs
    refine List.mem_filterMap.2 ⟨e, he, ?_⟩
    rw [hs]
  have hsys : ∀ e ∈ entries, ∀ ls, scanFile disk e = .ok ls → ∀ l ∈ ls, l ∉ ownSectors ty ∧ l ∉ homes dir header := by
    intro e he ls hs l hl
    have := fun l' hl' => h2.1 _ (hmem e he ls hs) l' hl'
    refine ⟨fun hc => this l ?_ hl, fun hc => this l ?_ hl⟩
    · simp only [List.mem_append]
      exact .inl (.inl hc)
    · unfold homes at hc
      simp only [List.append_assoc]
      exact List.mem_append_right _ hc
  refine ⟨h1, fun e he ls hs l hl => (hsys e he ls hs l hl).1, fun e he ls hs l hl => (hsys e he ls hs l hl).2,
    ?_, fun l hl hf => ?_⟩
  · intro e he o ho hne ls lo hls hlo l hl
    have hp := List.pairwise_filterMap.1 h2.2
    have := pairwise_any (R := fun a a' => ∀ la la', scanFile disk a = .ok la → scanFile disk a' = .ok la' →
      ∀ l ∈ la, l ∉ la') (fun a c hac la lc hla hlc l hl hl' => hac lc la hlc hla l hl' hl)
      (hp.imp fun {a c} hac la lc hla hlc => hac (a.filename, la) (by rw [hla]) (c.filename, lc) (by rw [hlc]))
      e he o ho (fun hc => hne (by rw [hc]))
    exact this ls lo hls hlo l hl
  · have hno : ∀ c ∈ (systemName, ownSectors ty ++ dir ++ (header.geos.map GEOSDiskHeader.border).toList) ::
        entries.filterMap fun e =>
          match scanFile disk e with
          | .ok ls => some (e.filename, ls)
          | .error _ => none, l ∉ c.2 := by
      intro c hc hlc
      have := (h3 l hl).2 ⟨c, hc, hlc⟩
      rw [hf] at this
      cases this
    have h0 := hno _ List.mem_cons_self
    simp only [List.append_assoc, List.mem_append, not_or] at h0
    refine ⟨h0.1, ?_, fun e he ls hs => hno _ (List.mem_cons_of_mem _ (hmem e he ls hs))⟩
    unfold homes
    rw [List.mem_append, not_or]
    exact h0.2

theorem area_system {l : Location} {j : Nat} (h : bamArea ty l j ∨ headerArea ty l j) :
    systemSector ty l = true ∧ ValidLoc ty (bamTracks ty) l := by
  cases ty with
  | d64 =>
    have : l = ⟨18, 0⟩ := h.elim (·.1) (·.1)
    subst this
    exact ⟨rfl, by decide⟩
  | d71 =>
    have : l = ⟨18, 0⟩ ∨ l = ⟨53, 0⟩ := h.elim (·.imp (·.1) (·.1)) fun h => .inl h.1
    rcases this with rfl | rfl
    · exact ⟨rfl, by decide⟩
    · exact ⟨rfl, by decide⟩
  | d81 =>
    have : (l = ⟨40, 1⟩ ∨ l = ⟨40, 2⟩) ∨ l = ⟨40, 0⟩ := h.imp (·.1) (·.1)
    rcases this with (rfl | rfl) | rfl <;> exact ⟨rfl, by decide⟩

theorem area_own {l : Location} {j : Nat} (h : bamArea ty l j ∨ headerArea ty l j) : l ∈ ownSectors ty := by
  obtain ⟨h1, h2⟩ := area_system h
  refine mem_ownSectors.2 ⟨h2, ?_⟩
  unfold ownSector
  rw [h1]
  rfl

theorem free_in_map {l : Location} (hb : BamOf b ty) (hf : isFree b l = true) {n : Nat} (hv : ValidLoc ty n l) :
    ValidLoc ty (bamTracks ty) l := by
  refine ⟨hv.1, ?_, hv.2.2⟩
  unfold isFree freeAt at hf
  split at hf
  · rename_i q hq
    have h1 := (List.getElem?_eq_some_iff.1 hq).1
    rw [hb.length] at h1
    have := hv.1
    omega
  · cases hf

/-- A disk object that was just opened has no map but the one it uses. -/
theorem new_cells {image : Image} (hnew : Disk.new ty image = .ok disk) (hb : bamOf disk = some b) :
    ∀ b' ∈ disk.cells, b' = b := by
  unfold Disk.new Disk.fromImage at hnew
  split at hnew
  · cases hnew
  · rename_i g _
    unfold Disk.initialize at hnew
    obtain ⟨hd, -, hnew⟩ := res_bind_eq_ok.1 hnew
    cases hd with
    | none =>
      cases hnew
      cases hb
    | some hd =>
      obtain ⟨bam, -, hnew⟩ := res_bind_eq_ok.1 hnew
      cases bam with
      | none =>
        cases hnew
        cases hb
      | some b0 =>
        cases hnew
        cases hb
        intro b' hb'
        exact List.mem_singleton.1 hb'

/-- The slot of an entry of the listing. -/
theorem entry_home (hw : Wf disk.dev s) (h : CanValidate disk ty b header dir entries) (he : e ∈ entries) :
    ∃ p, e.position = some p ∧ p ∈ sectorSlots p.location ∧ s.Valid p.location ∧ p.location ∈ homes dir header ∧
      slotFree disk.dev s p = false ∧ .ok e ∈ disk.items := by
  have hitem : .ok e ∈ disk.items := by
    have hl : collectRes disk.items = .ok entries := h.listed
    rw [collectRes_inv hl]
    exact List.mem_map.2 ⟨e, he, rfl⟩
  obtain ⟨cs, i, border, hp, hv, hi, ⟨n, hn⟩, heq, hscr, -, hcs⟩ := item_home hw h.format h.header hitem
  have hi8 : i < 8 := by
    rw [hn, List.length_take, hw.blk_length hv] at hi
    omega
  have ho : (UInt8.ofNat (32 * i)).toNat = 32 * i := by
    rw [UInt8.toNat_ofNat']
    omega
  refine ⟨_, hp, List.mem_map.2 ⟨i, List.mem_range.2 hi8, rfl⟩, hv, ?_, ?_, hitem⟩
  · unfold homes
    rw [List.mem_append]
    rcases hcs with hcs | ⟨g, hg, rfl⟩
    · exact .inl (leads_in hw h.chain (item_path hw hcs))
    · exact .inr (by rw [hg]; simp)
  · unfold slotFree slotData
    rw [← scratched_iff, ← hscr, heq]
    simp only [ho]
    rfl

/-- What the program claims: the free sectors and slots, and the files it opens. -/
def claimOf (disk : Disk) (s : Shape) (b : Bam) (opens : List DirectoryEntry) : Territory where
  sectors l := isFree b l = true ∨ ∃ e ∈ opens, ∃ ls, scanFile disk e = .ok ls ∧ l ∈ ls
  slots p := (LeadsTo disk.dev s (firstDirectory s.type) p.location ∧ p ∈ sectorSlots p.location ∧
    slotFree disk.dev s p = true) ∨ ∃ e ∈ opens, e.position = some p

theorem claimed_of {image : Image} (hty : s.type = ty) (hw : Wf disk.dev s) (hnew : Disk.new ty image = .ok disk)
    (h : CanValidate disk ty b header dir entries) (hc : Clean disk ty b header dir entries)
    (hsys : ∀ l ∈ homes dir header, systemSector ty l = false) (ho : ∀ e ∈ opens, e ∈ entries) :
    Claimed (claimOf disk s b opens) disk s := by
  subst hty
  refine ⟨fun b' hb' l hl => ?_, fun l p hl hp hf => ?_, fun p hp => ?_, fun l j hl => ?_⟩
  · rw [new_cells hnew h.bam b' hb'] at hl
    exact .inl hl
  · have := (sectorSlots_offset hp).1
    exact .inl ⟨this ▸ hl, this ▸ hp, hf⟩
  · rcases hp with hp | ⟨e, he, hp⟩
    · exact hp.2.1
    · obtain ⟨p', hp', h1, -⟩ := entry_home hw h (ho e he)
      rw [hp] at hp'
      cases hp'
      exact h1
  · rw [← not_or]
    intro ha
    obtain ⟨a1, a2⟩ := area_system ha
    rcases hl with (hl | ⟨e, he, ls, hs, hl⟩) | hl
    · exact (hc.marked l a2 hl).1 (area_own ha)
    · exact hc.own e (ho e he) ls hs l hl (area_own ha)
    · have := hsys l (List.mem_append_left _ (leads_in hw h.chain hl))
      rw [a1] at this
      cases this

/-- An opened file lies within the sectors that the scan finds. -/
theorem blockOf_scanned {d : Device} (hw : Wf d s) {f : File} {ls : List Location} {l : Location}
    (hn : File.fromEntry d e = .ok f) (h : f.occupiedSectors d = .ok ls)
    (hrel : e.scheme = .relative → ∃ locs, chainLocations d e.firstSector = .ok locs ∧ ∀ l ∈ locs, l ∈ ls)
    (harea : ∀ l ∈ ls, ∀ j, ¬ bamArea s.type l j) (hl : BlockOf d s f l) : l ∈ ls := by
  have hfe := file_entry hn
  unfold File.fromEntry at hn
  -- a GEOS file
  have hgeos : ∀ g, (f = .geosSequential g ∨ f = .geosVLIR g) → l ∈ ls := by
    intro g hg
    have hocc : g.occupiedSectors d = .ok ls := by
      rcases hg with hg | hg <;> rw [hg] at h <;> exact h
    have hge : g.entry = e := by
      rcases hg with hg | hg <;> rw [hg] at hfe <;> exact hfe
    obtain ⟨main, info, records, h1, h2, h3, h4, hls⟩ := geos_parts hocc
    have hin : ∀ l, l ∈ main ∨ l ∈ info.toList ∨ l ∈ records → l ∈ ls := by
      intro l hl
      rw [hls, mem_sectors]
      simp only [List.mem_append]
      rcases hl with hl | hl | hl
      · exact .inl (.inl hl)
      · exact .inl (.inr hl)
      · exact .inr hl
    rcases hl with hl | ⟨g', hg', hl⟩ | ⟨g', x, hg', hx, hne, hl⟩ | ⟨g', rs, start, d', hg', hrs, hst, hd', hl⟩
    · rw [hfe, ← hge] at hl
      exact hin l (.inl (leads_in hw h1 hl))
    · rcases hg with hg | hg <;> rw [hg] at hg' <;> cases hg'
    · have : g' = g := by
        rcases hg with hg | hg <;> rcases hg' with hg' | hg' <;> rw [hg] at hg' <;> cases hg' <;> rfl
      subst this
      refine hin l (.inr (.inl ?_))
      unfold DirectoryEntry.infoLocation at h2
      rw [hx] at h2
      simp only at h2
      rw [if_neg (by
        rintro ⟨t1, t2⟩
        exact hne (by
          cases hi : x.infoBlock
          rw [hi] at t1 t2
          cases t1
          cases t2
          rfl))] at h2
      rw [← Except.ok.inj h2, hl]
      simp
    · have : g' = g := by
        rcases hg with hg | hg <;> rcases hg' with hg' | hg' <;> rw [hg] at hg' <;> cases hg' <;> rfl
      subst this
      obtain ⟨locs, g1, g2⟩ := (recordChains_on hw hw (P := fun _ => True) (fun _ _ _ => rfl) (h3 rs hrs)
        fun _ _ => trivial).2 start hst
      obtain ⟨path, hp⟩ := hl
      refine hin l (.inr (.inr (g2 l ?_)))
      refine closed_path (P := (· ∈ locs)) (fun a c ha hn => ?_) hp (chain_start hw g1)
      have hna : ∀ j, ¬ bamArea s.type a j := harea a (hin a (.inr (.inr (g2 a ha))))
      exact chain_next hw g1 ha (same_next hd'.last (hna 0) (hna 1) hn)
  split at hn
  · cases hn
    obtain ⟨main, hm, h⟩ := res_bind_eq_ok.1 (show (chainLocations d e.firstSector >>= fun ls =>
      pure (dedupLocs (sortLocs ls))) = .ok ls from h)
    cases h
    rcases hl with hl | ⟨g', hg', -⟩ | ⟨g', x, hg', -⟩ | ⟨g', rs, start, d', hg', -⟩
    · exact (mem_sectors _ _).2 (leads_in hw hm hl)
    · cases hg'
    · rcases hg' with hg' | hg' <;> cases hg'
    · rcases hg' with hg' | hg' <;> cases hg'
  · rename_i hsch
    obtain ⟨g, hg, hn⟩ := res_bind_eq_ok.1 hn
    cases hn
    rcases hl with hl | ⟨g', hg', hl⟩ | ⟨g', x, hg', -⟩ | ⟨g', rs, start, d', hg', -⟩
    · obtain ⟨locs, r1, r2⟩ := hrel hsch
      rw [hfe] at hl
      exact r2 l (leads_in hw r1 hl)
    · cases hg'
      cases h
      exact (mem_sectors _ _).2 (List.mem_append_right _ hl)
    · rcases hg' with hg' | hg' <;> cases hg'
    · rcases hg' with hg' | hg' <;> cases hg'
  · obtain ⟨g, hg, hn⟩ := res_bind_eq_ok.1 hn
    cases hn
    exact hgeos g (.inl rfl)
  · obtain ⟨g, hg, hn⟩ := res_bind_eq_ok.1 hn
    cases hn
    exact hgeos g (.inr rfl)

theorem within_work {t : Territory} : ∀ {calls : List Call}, (∀ c ∈ calls, Work c = true) → ∀ x, AllWithin t s x calls
  | [], _, _ => trivial
  | c :: calls, h, x => by
    have hc := h c List.mem_cons_self
    refine ⟨?_, ?_, within_work (fun c' hc' => h c' (List.mem_cons_of_mem _ hc')) _⟩
    · cases c <;> first | trivial | cases hc
    · cases c <;> first | trivial | cases hc

theorem scan_open (h : scanFile disk e = .ok ls) : ∃ f r, disk.bam = some r ∧ File.fromEntry disk.dev e = .ok f ∧
    disk.openFileFromEntry e = .ok (f, r) ∧ f.occupiedSectors disk.dev = .ok ls := by
  unfold scanFile at h
  obtain ⟨⟨f, r⟩, ho, h⟩ := res_bind_eq_ok.1 h
  have ho' := ho
  unfold Disk.openFileFromEntry at ho'
  obtain ⟨r', hr, ho'⟩ := res_bind_eq_ok.1 ho'
  obtain ⟨f', hf, ho'⟩ := res_bind_eq_ok.1 ho'
  cases ho'
  refine ⟨f, r, ?_, hf, ho, h⟩
  unfold Disk.bamRef at hr
  split at hr
  · rename_i r0 hr0
    rw [hr0, Except.ok.inj hr]
  · cases hr

/-- What the program claims is none of the file's. -/
theorem claim_apart {image : Image} (hty : s.type = ty) (hw : Wf disk.dev s) (hnew : Disk.new ty image = .ok disk)
    (h : CanValidate disk ty b header dir entries) (hc : Clean disk ty b header dir entries) (hb : BamOf b ty)
    (ho : ∀ o ∈ opens, o ∈ entries) {l : Location} (hv : s.Valid l) (hl : (claimOf disk s b opens).sectors l) :
    l ∉ homes dir header ∧ ∀ e ∈ entries, (∀ o ∈ opens, o.position ≠ e.position) → ∀ ls, scanFile disk e = .ok ls →
      l ∉ ls := by
  subst hty
  rcases hl with hl | ⟨o, ho', lo, hs, hl⟩
  · obtain ⟨-, h2, h3⟩ := hc.marked l (free_in_map hb hl hv) hl
    exact ⟨h2, fun e he _ => h3 e he⟩
  · exact ⟨hc.home o (ho o ho') lo hs l hl,
      fun e he hne ls hls hm => hc.apart e he o (ho o ho') (hne o ho') ls lo hls hs l hm hl⟩

theorem field_apart {p q : Position} (hp : p ∈ sectorSlots p.location) (hq : q ∈ sectorSlots q.location)
    {l : Location} {j : Nat} (h : Field p 2 30 l j) (h' : Field q 2 30 l j) : p = q := by
  obtain ⟨-, -, k, hk, o1, e1⟩ := sectorSlots_offset hp
  obtain ⟨-, -, k', hk', o2, e2⟩ := sectorSlots_offset hq
  obtain ⟨a1, a2, a3⟩ := h
  obtain ⟨b1, b2, b3⟩ := h'
  have : k = k' := by omega
  subst this
  rw [e1, e2, ← a1, ← b1]

/-- The bytes that may change are none of the file's. -/
theorem changeable_apart {image : Image} (hty : s.type = ty) (hw : Wf disk.dev s) (hnew : Disk.new ty image = .ok disk)
    (h : CanValidate disk ty b header dir entries) (hc : Clean disk ty b header dir entries) (hb : BamOf b ty)
    (hsys : ∀ l ∈ homes dir header, systemSector ty l = false)
    (ho : ∀ o ∈ opens, o ∈ entries) {l : Location} {j : Nat} (hv : s.Valid l)
    (hl : Changeable (claimOf disk s b opens) disk s l j) :
    (l ∈ homes dir header → (∃ q, (claimOf disk s b opens).slots q ∧ Field q 2 30 l j) ∨
      (LeadsTo disk.dev s (firstDirectory s.type) l ∧ byteAt (disk.dev.blk s l) 0 = 0 ∧ j < 2)) ∧
    ∀ e ∈ entries, (∀ o ∈ opens, o.position ≠ e.position) → ∀ ls, scanFile disk e = .ok ls →
      l ∉ ls ∧ ∀ p, e.position = some p → ¬ Field p 2 30 l j := by
  have harea : bamArea s.type l j ∨ headerArea s.type l j → l ∉ homes dir header ∧ ∀ e ∈ entries, ∀ ls,
      scanFile disk e = .ok ls → l ∉ ls := by
    intro ha
    rw [hty] at ha
    refine ⟨fun hm => ?_, fun e he ls hls hm => hc.own e he ls hls l hm (area_own ha)⟩
    have := hsys l hm
    rw [(area_system ha).1] at this
    cases this
  have hout : l ∉ homes dir header → ∀ e ∈ entries, ∀ p, e.position = some p → ¬ Field p 2 30 l j := by
    intro hm e he p hp hf
    obtain ⟨p', hp', -, -, h1, -⟩ := entry_home hw h he
    rw [hp] at hp'
    cases hp'
    exact hm (hf.1 ▸ h1)
  rcases hl with hl | hl | hl | ⟨q, hq, hl⟩ | hl
  · obtain ⟨h1, h2⟩ := claim_apart hty hw hnew h hc hb ho hv hl
    exact ⟨fun hm => absurd hm h1, fun e he hne ls hls => ⟨h2 e he hne ls hls, hout h1 e he⟩⟩
  · obtain ⟨h1, h2⟩ := harea (.inl hl)
    exact ⟨fun hm => absurd hm h1, fun e he hne ls hls => ⟨h2 e he ls hls, hout h1 e he⟩⟩
  · obtain ⟨h1, h2⟩ := harea (.inr hl)
    exact ⟨fun hm => absurd hm h1, fun e he hne ls hls => ⟨h2 e he ls hls, hout h1 e he⟩⟩
  · refine ⟨fun _ => .inl ⟨q, hq, hl⟩, fun e he hne ls hls => ?_⟩
    have hqs : q ∈ sectorSlots q.location := (claimed_of hty hw hnew h hc hsys ho).aligned q hq
    have hqh : q.location ∈ homes dir header := by
      rcases hq with hq | ⟨o, ho', hq⟩
      · rw [hty] at hq
        exact List.mem_append_left _ (leads_in hw h.chain hq.1)
      · obtain ⟨p', hp', -, -, h1, -⟩ := entry_home hw h (ho o ho')
        rw [hq] at hp'
        cases hp'
        exact h1
    rw [← hl.1] at hqh
    refine ⟨fun hm => hc.home e he ls hls l hm hqh, fun p hp hf => ?_⟩
    obtain ⟨p', hp', hps, -, -, hfree, -⟩ := entry_home hw h he
    rw [hp] at hp'
    cases hp'
    have := field_apart hps hqs hf hl
    subst this
    rcases hq with hq | ⟨o, ho', hq⟩
    · rw [hfree] at hq
      cases hq.2.2
    · exact hne o ho' (by rw [hq, hp])
  · refine ⟨fun _ => .inr hl, fun e he hne ls hls => ⟨fun hm => hc.home e he ls hls l hm ?_, fun p hp hf => ?_⟩⟩
    · have := hl.1
      rw [hty] at this
      exact List.mem_append_left _ (leads_in hw h.chain this)
    · have := hf.2.1
      have := hl.2.2
      omega

theorem within_opens {image : Image} (hty : s.type = ty) (hw : Wf disk.dev s)
    (h : CanValidate disk ty b header dir entries) (hc : Clean disk ty b header dir entries)
    (hrel : ∀ o ∈ opens, ScanCovers disk o) (ho : ∀ o ∈ opens, o ∈ entries) {calls : List Call}
    (hcalls : ∀ c ∈ calls, Work c = true) : ∀ (os : List DirectoryEntry) (x : Session), (∀ o ∈ os, o ∈ opens) →
      x.disk = disk → AllWithin (claimOf disk s b opens) s x (os.map Call.openEntry ++ calls)
  | [], x, _, _ => within_work hcalls x
  | o :: os, x, hos, hx => by
    have hoo := hos o List.mem_cons_self
    obtain ⟨p, hp, -, -, -, -, hitem⟩ := entry_home hw h (ho o hoo)
    refine ⟨⟨listed_placed hw hitem, listed_geos hw hitem⟩, ?_,
      within_opens (image := image) hty hw h hc hrel ho hcalls os _ (fun o' ho' => hos o' (List.mem_cons_of_mem _ ho'))
        ((open_disk o x).trans hx)⟩
    intro f r hf
    rw [hx] at hf ⊢
    obtain ⟨ls, hls⟩ := hc.scans o (ho o hoo)
    obtain ⟨f', r', -, h1, h2, h3⟩ := scan_open hls
    rw [h2] at hf
    cases hf
    refine ⟨fun p hp => .inl (.inr ⟨o, hoo, by rw [← file_entry h1]; exact hp⟩), fun l hl => ?_⟩
    refine .inr ⟨o, hoo, ls, hls, blockOf_scanned hw h1 h3 (fun hsch => ?_) (fun l hl j ha => ?_) hl⟩
    · obtain ⟨locs, g1, g2⟩ := hrel o hoo hsch
      exact ⟨locs, g1, g2 ls hls⟩
    · rw [hty] at ha
      exact hc.own o (ho o hoo) ls hls l hl (area_own (.inl ha))

/-- **C87** Take an image whose disk validates without a finding, and whose directory stays out of the sectors of
the map and the header.  A program opens some files of the listing, and then creates, writes, flushes and
deletes, in any order, also deleting files twice or writing through writers of deleted files, and whether or
not the calls succeed.  Then every other file, be it linear, relative or GEOS, is as it was: it is listed, opens
to the same file, and reads the same; no map shows one of its sectors as free; and its bytes did not change at
any time.  Of a relative file that the program opens, the chain of its data must lie within the sectors that
the validation looked at. -/
theorem C87_others_are_untouched {image : Image} (hnew : Disk.new ty image = .ok disk)
    (h : CanValidate disk ty b header dir entries) (hv : disk.validate = .ok [])
    (hsys : ∀ l ∈ dir ++ (header.geos.map GEOSDiskHeader.border).toList, systemSector ty l = false)
    (ho : ∀ o ∈ opens, o ∈ entries) (hrel : ∀ o ∈ opens, ScanCovers disk o) {calls : List Call}
    (hcalls : ∀ c ∈ calls, Work c = true) (he : e ∈ entries) (hne : ∀ o ∈ opens, o.position ≠ e.position) :
    ∃ s ls, s.type = ty ∧ Wf disk.dev s ∧ scanFile disk e = .ok ls ∧
      Untouched s disk (working disk opens calls).disk e ls := by
  obtain ⟨s, hty, hst⟩ := steady_new hnew
  have hw : Wf disk.dev s := hst.standing.wf
  have hc := clean_of h hv
  obtain ⟨ls, hls⟩ := hc.scans e he
  refine ⟨s, ls, hty, hw, hls, ?_⟩
  have hb : BamOf b ty := h.tracks
  have hcl := claimed_of hty hw hnew h hc hsys ho
  have hheld : Held (claimOf disk s b opens) disk s (working disk opens calls) :=
    held_run hcl _ (held_start hst hcl) (within_opens (image := image) hty hw h hc hrel ho hcalls opens _ (fun _ h => h) rfl)
  have hset : settings (working disk opens calls).disk = settings disk := working_settings hcalls
  generalize working disk opens calls = y at hheld hset
  have hw' : Wf y.disk.dev s := hheld.steady.standing.wf
  have hap := @changeable_apart s disk ty b header dir entries opens image hty hw hnew h hc hb hsys ho
  have hbytes : ChangesOnly s (fun l j => l ∉ ls ∧ ∀ p, e.position = some p → ¬ Field p 2 30 l j)
      disk.dev y.disk.dev :=
    changesOnly_valid hheld.only fun l j hvl hl => (hap hvl hl).2 e he hne ls hls
  have hsame : SameOn s (· ∈ ls) disk.dev y.disk.dev := by
    intro l hl hvl
    refine List.ext_getElem? fun j => ?_
    by_cases hj : j < 256
    · have := hbytes.last.2.1 l j hvl hj fun ha => ha.1 hl
      show (slice _ _ _)[j]? = (slice _ _ _)[j]?
      rw [getElem?_slice, getElem?_slice, if_pos hj, if_pos hj]
      exact this
    · rw [List.getElem?_eq_none (by rw [hw'.blk_length hvl]; omega),
        List.getElem?_eq_none (by rw [hw.blk_length hvl]; omega)]
  obtain ⟨f, r, hr, hf, hopen, hocc⟩ := scan_open hls
  obtain ⟨hf', hocc', hrec⟩ := file_on hw hw' hsame hf hocc
  have hopen' : y.disk.openFileFromEntry e = .ok (f, r) := by
    have hr' : y.disk.bam = some r := (congrArg (fun q => q.2.2.2) hset).trans hr
    unfold Disk.openFileFromEntry Disk.bamRef
    rw [hr', hf']
    rfl
  -- the links of the directory
  have hlink : ∀ l j, l ∈ dir → s.Valid l → j < 2 → byteAt (disk.dev.blk s l) 0 ≠ 0 →
      byteAt (y.disk.dev.blk s l) j = byteAt (disk.dev.blk s l) j := by
    intro l j hl hvl hj h0
    refine same_byte hheld.only.last hvl (by omega) fun ha => ?_
    rcases (hap hvl ha).1 (List.mem_append_left _ hl) with ⟨q, hq, hfq⟩ | ⟨-, h00, -⟩
    · have := hfq.2.1
      omega
    · exact h0 h00
  obtain ⟨S, -, hown, hshut⟩ := hheld.shut
  refine ⟨?_, hopen'.trans hopen.symm, ?_, ?_, ?_, hbytes⟩
  · obtain ⟨p, hp, -, hvp, -, -, hitem⟩ := entry_home hw h he
    refine item_kept hw hw' hset h.format h.header h.chain (fun l hl => ?_) (fun l hl h0 => ?_) hitem ?_
    · obtain ⟨path, hpath⟩ := locations_lead hw h.chain l hl
      refine (closed_path (P := fun l => l ∈ dir ∧ LeadsTo y.disk.dev s (firstDirectory ty) l)
        (fun a c ha hn => ?_) hpath ⟨chain_start hw h.chain, leads_refl _⟩).2
      refine ⟨chain_next hw h.chain ha.1 hn, leads_next ha.2 ?_⟩
      obtain ⟨n1, n2, n3⟩ := hn
      refine ⟨n1, ?_, ?_⟩
      · rw [hlink a 0 ha.1 n1 (by omega) n2]
        exact n2
      · rw [← n3]
        unfold linkBytes
        rw [hlink a 0 ha.1 n1 (by omega) n2, hlink a 1 ha.1 n1 (by omega) n2]
    · have hvl := chain_valid hw h.chain hl
      have h00 : byteAt (disk.dev.blk s l) 0 = 0 := by
        apply Classical.byContradiction
        intro hne0
        exact hne0 (by rw [← hlink l 0 hl hvl (by omega) hne0]; exact h0)
      refine ⟨h00, hshut.tail l _ ⟨?_, hvl, fun hs => ?_, h00, rfl⟩ h0⟩
      · rw [hty]
        exact locations_lead hw h.chain l hl
      · exact (claim_apart hty hw hnew h hc hb ho hvl hs).1 (List.mem_append_left _ hl)
    · intro q hq l j hfq
      rw [hp] at hq
      cases hq
      have hvl : s.Valid l := hfq.1 ▸ hvp
      have hj : j < 256 := by
        obtain ⟨p', hp', hps, -⟩ := entry_home hw h he
        rw [hp] at hp'
        cases hp'
        obtain ⟨-, -, k, hk, hk', -⟩ := sectorSlots_offset hps
        have := hfq.2.2
        omega
      have := hbytes.last.2.1 l j hvl hj fun ha => ha.2 p hp hfq
      show (slice _ _ _)[j]? = (slice _ _ _)[j]?
      rw [getElem?_slice, getElem?_slice, if_pos hj, if_pos hj]
      exact this
  · unfold scanFile
    rw [hopen', res_bind_ok]
    exact hocc'
  · intro f' r' hfr i
    rw [hopen] at hfr
    cases hfr
    exact hrec i
  · intro b' hb' l hl hvl
    obtain ⟨r', hr'⟩ := List.mem_iff_getElem?.1 hb'
    cases hfree : isFree b' l with
    | false => rfl
    | true => exact absurd hl ((claim_apart hty hw hnew h hc hb ho hvl (hheld.free r' b' l hr' hfree)).2 e he hne ls hls)

/-! The hypotheses are met by every image that a program has saved, for all files on it. -/

theorem saved_clean {x : Session} {a : Store} (hx : Reaches x a) (hs : a.saved = true) :
    ∃ disk b header dir entries, Disk.new a.type x.disk.dev.image = .ok disk ∧
      CanValidate disk a.type b header dir entries ∧ disk.validate = .ok [] ∧
      (∀ l ∈ dir ++ (header.geos.map GEOSDiskHeader.border).toList, systemSector a.type l = false) ∧
      (∀ o ∈ entries, ScanCovers disk o) ∧
      ∀ i j, (∃ f, a.slots[i]? = some (some f)) → (∃ f, a.slots[j]? = some (some f)) →
        i ≠ j → i < 8 → j < 8 → ∃ o ∈ entries, ∃ e ∈ entries, o.position ≠ e.position := by
  obtain ⟨s, v, r, b, hrep⟩ := hx.rep
  obtain ⟨disk, hnew, -, -, -, hcore⟩ := hrep.reopen hs
  have hready := hcore.ready
  have hd := hready.mounted.onDisk
  refine ⟨disk, b, v.header, v.dir, v.listing, hnew, ⟨⟨s.type.format.geos, ?_⟩, hready.header,
    bamOf_ready hready, ?_, ?_, directory_ready hready, fun e he => ?_⟩, validate_ready hready, fun l hl => ?_,
    fun o ho hsch => ?_, ?_⟩
  · rw [hrep.type, hready.format]
  · rw [hrep.type]
    exact hready.mounted.recorded.consistent.toBamOf
  · rw [hrep.type]
    exact dir_ready hready
  · obtain ⟨i, f, hf, rfl⟩ := mem_listing.1 he
    rw [scan_entry hready (mem_files.2 ⟨i, hf⟩)]
    exact ⟨by simp, by simp⟩
  · rw [hready.noGeos] at hl
    rw [hrep.type]
    exact (hd.dirTrack l (by simpa using hl)).2
  · obtain ⟨i, f, -, rfl⟩ := mem_listing.1 ho
    cases hsch
  · rintro i j ⟨f, hf⟩ ⟨f', hf'⟩ hij hi hj
    have hget : ∀ (k : Nat) (g : StoredFile), a.slots[k]? = some (some g) → ∃ q : FileRec, v.slots[k]? = some (some q) := by
      intro k g hk
      have hlt : k < v.slots.length := by
        rw [hcore.slots.1]
        exact (List.getElem?_eq_some_iff.1 hk).1
      cases hq : v.slots[k]? with
      | none => exact absurd (List.getElem?_eq_none_iff.1 hq) (by omega)
      | some y => cases y with
        | none =>
          rw [show a.slots[k]? = some none from hcore.slots.none_iff.1 hq] at hk
          cases hk
        | some q => exact ⟨q, rfl⟩
    obtain ⟨q, hq⟩ := hget i f hf
    obtain ⟨q', hq'⟩ := hget j f' hf'
    refine ⟨_, mem_listing.2 ⟨i, q, hq, rfl⟩, _, mem_listing.2 ⟨j, q', hq', rfl⟩, fun h => hij ?_⟩
    have h := congrArg (fun p => p.offset.toNat) (Option.some.inj h)
    simp only [slotPos, UInt8.toNat_ofNat'] at h
    omega

/-- Two files, one of which is opened, written to and deleted. -/
example (ty : DiskType) : ∃ image disk b header dir entries opens e calls, Disk.new ty image = .ok disk ∧
    CanValidate disk ty b header dir entries ∧ disk.validate = .ok [] ∧
    (∀ l ∈ dir ++ (header.geos.map GEOSDiskHeader.border).toList, systemSector ty l = false) ∧
    (∀ o ∈ opens, o ∈ entries) ∧ opens ≠ [] ∧ (∀ o ∈ opens, ScanCovers disk o) ∧
    (∀ c ∈ calls, Work c = true) ∧ calls = [.openWriter 0, .write 0 (List.replicate 600 7), .delete 0,
      .create [0x43] .SEQ .linear, .write 0 [1, 2, 3], .delete 0, .drop 0] ∧
    e ∈ entries ∧ ∀ o ∈ opens, o.position ≠ e.position := by
  obtain ⟨x, hx⟩ := exists_formatted ty [0x41] (by decide) (0x42, 0x43)
  have hd : (Store.run [.create [0x41] .PRG .linear, .openWriter 0, .write 0 (List.replicate 300 7), .drop 0,
      .create [0x42] .SEQ .linear, .openWriter 1, .write 0 (List.replicate 300 8), .drop 0]
      (Store.empty ty [0x41] (0x42, 0x43))).map (fun p => (p.2.saved, p.2.type, (p.2.slots[0]?.join).isSome,
        (p.2.slots[1]?.join).isSome)) = some (true, ty, true, true) := by
    cases ty <;> decide +kernel
  obtain ⟨⟨rs, a⟩, hr, ha⟩ := Option.map_eq_some_iff.1 hd
  obtain ⟨x', -, hx'⟩ := hx.run hr
  simp only [Prod.mk.injEq] at ha
  obtain ⟨h1, rfl, h3, h4⟩ := ha
  obtain ⟨disk, b, header, dir, entries, g1, g2, g3, g4, g5, g6⟩ := saved_clean hx' h1
  have hsome : ∀ k : Nat, (a.slots[k]?.join).isSome = true → ∃ f, a.slots[k]? = some (some f) := by
    intro k hk
    cases hq : a.slots[k]? with
    | none => rw [hq] at hk; cases hk
    | some o => cases o with
      | none => rw [hq] at hk; cases hk
      | some f => exact ⟨f, rfl⟩
  obtain ⟨o, ho, e, he, hne⟩ := g6 0 1 (hsome 0 h3) (hsome 1 h4) (by decide) (by decide) (by decide)
  refine ⟨_, disk, b, header, dir, entries, [o], e, _, g1, g2, g3, g4, ?_, by simp, ?_, ?_, rfl, he, ?_⟩
  · intro o' h'
    rw [List.mem_singleton.1 h']
    exact ho
  · intro o' h'
    rw [List.mem_singleton.1 h']
    exact g5 o ho
  · decide
  · intro o' h'
    rw [List.mem_singleton.1 h']
    exact hne

/-- The same programs meet the hypotheses of C86: they claim what is free and the files that they open. -/
example {image : Image} (hnew : Disk.new ty image = .ok disk) (h : CanValidate disk ty b header dir entries)
    (hv : disk.validate = .ok [])
    (hsys : ∀ l ∈ dir ++ (header.geos.map GEOSDiskHeader.border).toList, systemSector ty l = false)
    (ho : ∀ o ∈ opens, o ∈ entries) (hrel : ∀ o ∈ opens, ScanCovers disk o) {calls : List Call}
    (hcalls : ∀ c ∈ calls, Work c = true) : ∃ s t, s.type = ty ∧ Wf disk.dev s ∧ Claimed t disk s ∧
      AllWithin t s ⟨disk, [], []⟩ (opens.map Call.openEntry ++ calls) := by
  obtain ⟨s, hty, hst⟩ := steady_new hnew
  have hw : Wf disk.dev s := hst.standing.wf
  have hc := clean_of h hv
  exact ⟨s, claimOf disk s b opens, hty, hw, claimed_of hty hw hnew h hc hsys ho,
    within_opens (image := image) hty hw h hc hrel ho hcalls opens _ (fun _ h => h) rfl⟩

end Cbm
