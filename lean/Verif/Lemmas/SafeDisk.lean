import Verif.Lemmas.Cells
import Verif.Lemmas.SafeWriter
import Verif.Props.Robust
/-!
# The calls on any image: what they return, and what they leave behind
-/

namespace Cbm
open Spec

variable {X : Prop} {s : Shape} {disk : Disk} {e : DirectoryEntry} {l : Location} {d : Device} {n : Nat} {α β : Type}

theorem SafeRes.bind {r : Res α} {k : α → Res β} (h : SafeRes X r) (hk : ∀ a, r = .ok a → SafeRes X (k a)) :
    SafeRes X (r >>= k) := by
  rcases h with h | h
  · exact .inl h
  · rcases h.cases with ⟨a, rfl⟩ | ⟨y, rfl⟩
    · exact hk a rfl
    · exact .inr (returns_fail y)

/-- The result of a bind of which the first part is known not to panic. -/
theorem returns_bind {σ : Type} {m : M σ α} {k : α → M σ β} {x : σ} (h : SafeRes X (m x).1)
    (hk : ∀ a, (m x).1 = .ok a → SafeRes X (k a (m x).2).1) : SafeRes X ((m >>= k) x).1 := by
  rcases hm : m x with ⟨r, x'⟩
  rw [hm] at h hk
  cases r with
  | ok a => rw [M.bind_of_ok hm]; exact hk a rfl
  | error q =>
    rw [M.bind_of_error hm]
    rcases h with h | h
    · exact .inl h
    · exact .inr h.error

theorem Safe.res {σ : Type} {P : σ → Prop} {m : M σ α} {Q : α → σ → Prop} {E : σ → Prop} (h : Safe X P m Q E)
    {x : σ} (hx : P x) : SafeRes X (m x).1 := by
  by_cases hX : X
  · exact .inl hX
  · exact .inr (h.returns hX hx)

/-! ## Free slots -/

theorem scanChunks_some {loc : Location} : ∀ {cs : List (List Byte)} {k : Nat},
    scanChunks loc (32 * k) cs = .ok (some e) → ∃ chunk i, (chunk, i) ∈ cs.zipIdx k ∧ chunk.length = 32 ∧
      e = DirectoryEntry.parse32 chunk (some ⟨loc, UInt8.ofNat (32 * i), 32⟩)
  | [], _, h => by cases h
  | c :: cs, k, h => by
    unfold scanChunks at h
    obtain ⟨entry, he, h⟩ := res_bind_eq_ok.1 h
    unfold DirectoryEntry.parse at he
    split at he
    · rename_i hc
      cases he
      split at h
      · cases h
        exact ⟨c, k, by simp, hc, rfl⟩
      · obtain ⟨chunk, i, h1, h2, h3⟩ := scanChunks_some (k := k + 1) h
        exact ⟨chunk, i, by rw [List.zipIdx_cons]; exact List.mem_cons_of_mem _ h1, h2, h3⟩
    · cases he

theorem scanFree_inl : ∀ {items : List (Res ChainSector)} {last : Location},
    scanFree items last = .ok (.inl e) → ∃ c, .ok c ∈ items ∧
      scanChunks c.location 0 (chunks ENTRY_SIZE c.data) = .ok (some e)
  | [], _, h => by cases h
  | .error q :: _, _, h => by cases h
  | .ok c :: rest, last, h => by
    unfold scanFree at h
    obtain ⟨o, ho, h⟩ := res_bind_eq_ok.1 h
    cases o with
    | some e' => cases h; exact ⟨c, by simp, ho⟩
    | none =>
      obtain ⟨c', h1, h2⟩ := scanFree_inl (items := rest) h
      exact ⟨c', List.mem_cons_of_mem _ h1, h2⟩

theorem scan_placed (hw : Wf d s) {start last : Location}
    (h : scanFree (chainItems d start) last = .ok (.inl e)) : Placed s e := by
  obtain ⟨c, hc, hsc⟩ := scanFree_inl h
  obtain ⟨hv, m, hm⟩ := chainItems_item hw hc
  obtain ⟨chunk, i, hmem, h1, rfl⟩ := scanChunks_some (k := 0) hsc
  have hlen : 32 * i + 32 ≤ 256 := by
    have := (mem_chunks hmem h1).1
    rw [hm, List.length_take, hw.blk_length hv] at this
    omega
  refine parse_placed h1 hv ?_ rfl
  show (UInt8.ofNat (32 * i)).toNat + 32 ≤ 256
  rw [UInt8.toNat_ofNat']
  omega

/-! ## Directory -/

theorem safe_extend {last : Location} (hl : ¬ X → ValidLoc s.type (bamTracks s.type) last) :
    Safe X (Sound s) (extendDirectory last) (fun e st => Sound s st ∧ Placed s e) (Sound s) := by
  unfold extendDirectory
  refine (safe_next (some last) fun hX p hp => by cases hp; exact hl hX).bind fun new => ?_
  intro st h
  obtain ⟨h, hnv, -⟩ := h
  have hv := h.wf.valid_of_map hnv
  have key : Safe X (Sound s) (do
      St.updDev fun d => d.sectorMut new freshDirectoryBlock
      let block ← St.readDev fun d => d.sector new
      let entry ← M.lift (DirectoryEntry.parse (slice block 0 ENTRY_SIZE)
        (some ⟨new, 0, UInt8.ofNat ENTRY_SIZE⟩))
      St.updBam fun b => b.allocate new
      St.updDev fun d => d.sectorMut last fun block => .ok (splice block 0 [new.track, new.sector])
      pure entry) (fun e st => Sound s st ∧ Placed s e) (Sound s) := by
    refine (safe_sectorMut fun blk hb => ?_).bind fun _ => ?_
    · obtain ⟨fresh, h1, h2, -⟩ := freshDirectory_ok hb
      exact ⟨fresh, h1, h2⟩
    refine Safe.bind (Q := fun block st => Sound s st ∧ block.length = 256) ?_ fun block => ?_
    · intro st h
      rw [readDev_run, h.wf.sector hv]
      exact .inl ⟨_, rfl, h, h.wf.blk_length hv⟩
    refine Safe.bind (Q := fun entry st => Sound s st ∧ Placed s entry) ?_ fun entry => ?_
    · intro st h
      have hb : (slice block 0 ENTRY_SIZE).length = 32 := length_slice _ _ _ (by rw [h.2]; decide)
      rw [M.run_lift]
      unfold DirectoryEntry.parse
      rw [if_pos hb]
      exact .inl ⟨_, rfl, h.1, parse_placed hb hv (show (0 : Byte).toNat + 32 ≤ 256 by decide) rfl⟩
    have keepP : ∀ {m : M St Unit}, Safe X (Sound s) m (fun _ => Sound s) (Sound s) →
        Safe X (fun st => Sound s st ∧ Placed s entry) m (fun _ st => Sound s st ∧ Placed s entry) (Sound s) :=
      fun hm => ((hm.pre (P' := fun st => Sound s st ∧ Placed s entry) fun _ h => h.1).frame
        (I := fun _ => Placed s entry) fun _ h => h.2).weaken (fun _ h => h) (fun _ _ h => h) fun _ h => h.1
    refine (keepP (safe_allocate fun _ => hnv.inBam)).bind fun _ => ?_
    refine (keepP (safe_sectorMut fun blk hb => ⟨_, rfl, ?_⟩)).bind fun _ => ?_
    · rw [length_splice _ _ _ (by simp; omega), hb]
    exact Safe.pure fun _ h => h
  exact key st h

/-- The conditions for a new entry. -/
theorem scan_safe (h : Standing disk s) (hb : ¬ X → ¬ BadTail disk s) {f : DiskFormat} (hf : disk.format = some f) :
    SafeRes X (scanFree (chainItems disk.dev f.firstDirectoryLocation) f.firstDirectoryLocation) ∧
      ∀ t, scanFree (chainItems disk.dev f.firstDirectoryLocation) f.firstDirectoryLocation = .ok (.inr t) →
        ¬ X → ValidLoc s.type (bamTracks s.type) t := by
  by_cases hX : X
  · exact ⟨.inl hX, fun _ _ h => absurd hX h⟩
  · obtain ⟨h1, h2⟩ := scanFree_regular h.wf hf fun f' dir content t g1 g2 g3 g4 g5 => by
      have : ¬ (usedBytes (disk.dev.blk s t) % 32 ≠ 0 ∨ bamTracks s.type < t.track.toNat) := fun hbad =>
        hb hX ⟨f', dir, content, t, g1, g2, g3, g4, g5, hbad⟩
      omega
    exact ⟨.inr h1, fun t ht _ => ⟨(h2 t ht).1.1, (h2 t ht).2, (h2 t ht).1.2.2⟩⟩

theorem withBam_res {m : M St α} {r : Nat} {b : Bam} (hc : disk.cells[r]? = some b) :
    (Disk.withBam r m disk).1 = (m ⟨disk.dev, b⟩).1 := by
  unfold Disk.withBam
  rw [hc]

theorem nextFree_safe (h : Standing disk s) (hb : ¬ X → ¬ BadTail disk s) :
    SafeRes X (Disk.nextFreeDirectoryEntry disk).1 ∧
    ∀ e, (Disk.nextFreeDirectoryEntry disk).1 = .ok e → Placed s e := by
  unfold Disk.nextFreeDirectoryEntry
  rw [M.bind_of_ok (m := M.get) (s := disk) (s' := disk) (a := disk) rfl]
  cases hf : disk.format with
  | none =>
    rw [M.bind_of_error (s' := disk) (e := .err .unformatted)
      (by rw [M.run_lift]; unfold Disk.diskFormat; rw [hf])]
    exact ⟨.inr (returns_fail _), fun _ h => by cases h⟩
  | some f =>
    rw [M.bind_of_ok (s' := disk) (a := f) (by rw [M.run_lift]; unfold Disk.diskFormat; rw [hf])]
    obtain ⟨h1, h2⟩ := scan_safe h hb hf
    cases hs : scanFree (chainItems disk.dev f.firstDirectoryLocation) f.firstDirectoryLocation with
    | error q =>
      rw [M.bind_of_error (s' := disk) (e := q) (by rw [M.run_lift])]
      rw [hs] at h1
      refine ⟨?_, fun _ h => by cases h⟩
      rcases h1 with h1 | h1
      · exact .inl h1
      · exact .inr h1.error
    | ok y =>
      rw [M.bind_of_ok (s' := disk) (a := y) (by rw [M.run_lift])]
      cases y with
      | inl e => exact ⟨.inr (returns_ok _), fun e' he => by cases he; exact scan_placed h.wf hs⟩
      | inr t =>
        simp only
        cases hr : disk.bam with
        | none =>
          rw [M.bind_of_error (s' := disk) (e := .err .unformatted)
            (by rw [M.run_lift]; unfold Disk.bamRef; rw [hr])]
          exact ⟨.inr (returns_fail _), fun _ h => by cases h⟩
        | some r =>
          rw [M.bind_of_ok (s' := disk) (a := r) (by rw [M.run_lift]; unfold Disk.bamRef; rw [hr])]
          obtain ⟨b, hcell, ho⟩ := h.bam r hr
          rw [withBam_res hcell]
          have hsafe := safe_extend (X := X) (s := s) (last := t) (h2 t hs)
          have hsound : Sound s ⟨disk.dev, b⟩ := ⟨h.wf, ho.size⟩
          refine ⟨hsafe.res hsound, fun e he => ?_⟩
          rcases hsafe _ hsound with ⟨a, g1, g2⟩ | ⟨q, g1, -⟩
          · rw [he] at g1; cases g1; exact g2.2
          · rw [he] at g1; cases g1

/-! ## Creating -/

theorem newEntry_placed {slot : DirectoryEntry} (h : Placed s slot) {name : Petscii} (hn : name.length ≤ 16)
    (type : FileType) (first : Location) : Placed s (newFileEntry slot name type first) := by
  refine ⟨h.position, hn, fun old ho => ?_⟩
  refine ⟨List.replicate EXTRA_SIZE 0, ?_⟩
  show copyFromSlice (List.replicate EXTRA_SIZE 0) old = _
  unfold copyFromSlice
  rw [if_pos (by rw [ho]; rfl)]

theorem safe_newEntry {first : Location} (he : ¬ X → Placed s e) (hm : InMap s.type first) :
    Safe X (Sound s) (writeNewEntry e first) (fun _ => Sound s) (Sound s) := by
  intro st h
  have hw := safe_writeEntry he st h
  unfold writeNewEntry
  rcases hr : St.updDev (fun d => d.writeEntry e) st with ⟨r, st'⟩
  rw [hr] at hw
  rcases hw with ⟨u, h1, h2⟩ | ⟨q, h1, h2, h3⟩
  · cases h1
    exact .inl ⟨(), rfl, h2⟩
  · cases h1
    cases q with
    | err y =>
      simp only
      have hfree := safe_free (X := X) (s := s) (l := first) (fun _ => hm) st' h2
      rcases hr2 : St.updBam (fun b => b.free first) st' with ⟨r2, st2⟩
      rw [hr2] at hfree
      rcases hfree with ⟨u, g1, g2⟩ | ⟨q, g1, g2, g3⟩
      · cases g1
        exact .inr ⟨_, rfl, g2, .inr ⟨y, rfl⟩⟩
      · cases g1
        exact .inr ⟨_, rfl, g2, g3⟩
    | panic => exact .inr ⟨_, rfl, h2, h3⟩
    | diverge => exact .inr ⟨_, rfl, h2, h3⟩

theorem safe_createIn {slot : DirectoryEntry} (h : Placed s slot) {name : Petscii} (hn : name.length ≤ 16)
    (type : FileType) :
    Safe X (Sound s) (createIn slot name type) (fun e st => Sound s st ∧ Placed s e) (Sound s) := by
  unfold createIn
  refine (safe_next none fun _ => nofun).bind fun first => ?_
  intro st hst
  obtain ⟨hst, hnv, -⟩ := hst
  have key : Safe X (Sound s) (do
      St.updBam fun b => b.allocate first
      St.updDev fun d => d.sectorMut first CHAIN_LINK_ZERO.toBytes
      writeNewEntry (newFileEntry slot name type first) first
      pure (newFileEntry slot name type first)) (fun e st => Sound s st ∧ Placed s e) (Sound s) := by
    refine (safe_allocate fun _ => hnv.inBam).bind fun _ => ?_
    refine (safe_sectorMut fun blk hb => ?_).bind fun _ => ?_
    · unfold CHAIN_LINK_ZERO ChainLink.toBytes
      rw [if_neg (by omega)]
      refine ⟨splice blk 0 [0, UInt8.ofNat (2 - 1)], rfl, ?_⟩
      rw [length_splice _ _ _ (by simp; omega), hb]
    refine (safe_newEntry (fun _ => newEntry_placed h hn type first) hnv.inBam).bind fun _ => ?_
    exact Safe.pure fun _ h' => ⟨h', newEntry_placed h hn type first⟩
  exact key st hst

theorem Spec.Standing.keep {m : M Disk α} (h : Standing disk s) (h1 : Keeps SameTail Disk.dev m)
    (h2 : Keeps (StaysFormed s.type) (fun d => d) m) : Standing (m disk).2 s := by
  have := h2 disk ⟨h.native, h.format, h.bam⟩
  exact ⟨(h1 disk s h.wf).1, this.native, this.format, this.bam⟩

theorem createFile_safe (h : Standing disk s) (name : Petscii) (type : FileType) (scheme : Scheme)
    (hX : ¬ X → scheme = .linear ∧ ¬ BadTail disk s) :
    SafeRes X (Disk.createFile name type scheme disk).1 ∧
    ∀ e r, (Disk.createFile name type scheme disk).1 = .ok (e, r) → Placed s e ∧
      r < (Disk.createFile name type scheme disk).2.cells.length := by
  unfold Disk.createFile
  by_cases hl : scheme = .linear
  · rw [if_neg (by simp [hl])]
    rcases Nat.lt_or_ge 16 name.length with hn | hn
    · rw [M.bind_of_error (s' := disk) (e := .err .filenameTooLong) (by
        rw [M.run_lift]; unfold checkFilenameValidity; rw [if_pos hn])]
      exact ⟨.inr (returns_fail _), fun _ _ h => by cases h⟩
    rw [M.bind_of_ok (s' := disk) (a := ()) (by
      rw [M.run_lift]; unfold checkFilenameValidity
      rw [if_neg (by simp only [ENTRY_FILENAME_LENGTH]; omega)])]
    rcases ((C78_looking h).2.2 name ⟨0, 0⟩).2.1.cases with ⟨u, hu⟩ | ⟨y, hy⟩
    · rw [M.bind_of_ok (s' := disk) (a := u) (by rw [M.run_read, hu])]
      obtain ⟨h1, h2⟩ := nextFree_safe (X := X) h fun hx => (hX hx).2
      have hst : Standing (Disk.nextFreeDirectoryEntry disk).2 s :=
        h.keep keep_nextFreeDirectoryEntry form_nextFree
      rcases hnf : Disk.nextFreeDirectoryEntry disk with ⟨r, disk1⟩
      rw [hnf] at h1 h2 hst
      cases r with
      | error q =>
        rw [M.bind_of_error hnf]
        refine ⟨?_, fun _ _ h => by cases h⟩
        rcases h1 with h1 | h1
        · exact .inl h1
        · exact .inr h1.error
      | ok slot =>
        rw [M.bind_of_ok hnf]
        cases hr : disk1.bam with
        | none =>
          rw [M.bind_of_error (s' := disk1) (e := .err .unformatted)
            (by rw [M.run_read]; unfold Disk.bamRef; rw [hr])]
          exact ⟨.inr (returns_fail _), fun _ _ h => by cases h⟩
        | some r =>
          rw [M.bind_of_ok (s' := disk1) (a := r) (by rw [M.run_read]; unfold Disk.bamRef; rw [hr])]
          obtain ⟨b, hcell, ho⟩ := hst.bam r hr
          have hsafe := safe_createIn (X := X) (h2 slot rfl) hn type
          have hsound : Sound s ⟨disk1.dev, b⟩ := ⟨hst.wf, ho.size⟩
          have hlt : r < disk1.cells.length := by
            rcases Nat.lt_or_ge r disk1.cells.length with hlt | hge
            · exact hlt
            · rw [List.getElem?_eq_none hge] at hcell; cases hcell
          rcases hrun : createIn slot name type ⟨disk1.dev, b⟩ with ⟨res, st⟩
          have hs := hsafe _ hsound
          rw [hrun] at hs
          rcases hs with ⟨a, g1, g2⟩ | ⟨q, g1, -, g2⟩
          · cases g1
            rw [M.bind_of_ok (withBam_run hcell hrun)]
            have hbam : (disk1.withSt r st).bam = some r := hr
            rw [M.bind_of_ok (s' := disk1.withSt r st) (a := r) (by rw [M.run_read]; unfold Disk.bamRef; rw [hbam])]
            refine ⟨.inr (returns_ok _), fun e r' he => ?_⟩
            cases he
            refine ⟨g2.2, ?_⟩
            show r < (disk1.cells.set r st.bam).length
            simpa using hlt
          · cases g1
            rw [M.bind_of_error (withBam_run hcell hrun)]
            refine ⟨?_, fun _ _ h => by cases h⟩
            rcases g2 with g2 | ⟨y, rfl⟩
            · exact .inl g2
            · exact .inr (returns_fail y)
    · rw [M.bind_of_error (s' := disk) (e := .err y) (by rw [M.run_read, hy])]
      exact ⟨.inr (returns_fail y), fun _ _ h => by cases h⟩
  · rw [if_pos hl]
    refine ⟨.inl (Classical.byContradiction fun hx => hl (hX hx).1), fun _ _ h => by cases h⟩

/-! ## Header, format, renaming -/

theorem headerWrite_returns (hw : Wf d s) (hd : Header) : Returns (Header.write hd s.type.format.header d).1 := by
  by_cases hn : hd.diskName.length ≤ 16
  · by_cases hwr : Writable d
    · obtain ⟨new, h1, -⟩ := headerWrite_ok (hd := hd) hw hwr hn
      rw [h1]; exact returns_ok _
    · unfold Header.write
      rw [M.bind_of_ok (s := d) (s' := d) (a := d.blk s s.type.format.header.location)
        (by rw [M.run_read, hw.sector (header_valid s hw.shape)])]
      cases hr : hd.render s.type.format.header (d.blk s s.type.format.header.location) with
      | ok block =>
        rw [M.bind_of_ok (s := d) (s' := d) (a := block) (by rw [M.run_lift])]
        unfold M.sectorMut
        rw [M.update_error (sectorMut_readOnly' hwr _ _)]
        exact returns_fail _
      | error q =>
        rw [M.bind_of_error (s := d) (s' := d) (e := q) (by rw [M.run_lift])]
        unfold Header.render at hr
        simp only at hr
        split at hr
        · cases hr; exact returns_fail _
        · cases hr
  · unfold Header.write
    rw [M.bind_of_ok (s := d) (s' := d) (a := d.blk s s.type.format.header.location)
      (by rw [M.run_read, hw.sector (header_valid s hw.shape)])]
    have : hd.render s.type.format.header (d.blk s s.type.format.header.location) = fail .filenameTooLong := by
      unfold Header.render writeBytesWithPadding
      simp only
      split
      · rfl
      · rename_i hx
        split at hx
        · cases hx
        · rename_i hlt
          exact absurd (Nat.le_of_not_lt hlt) hn
    rw [M.bind_of_error (s := d) (s' := d) (e := .err .filenameTooLong) (by rw [M.run_lift, this])]
    exact returns_fail _

theorem onDev_res {m : M Device α} : (Disk.onDev m disk).1 = (m disk.dev).1 := by
  unfold Disk.onDev
  rw [M.run_zoom]

theorem writeFormat_returns (h : Standing disk s) (name : Petscii) (id : Byte × Byte) :
    Returns (Disk.writeFormat name id disk).1 := by
  by_cases hwr : Writable disk.dev
  · by_cases hn : name.length ≤ 16
    · obtain ⟨d', b, ws, h1, -⟩ := writeFormat_ok h.wf hwr h.native (fun r hr => by
        obtain ⟨b, hb, -⟩ := h.bam r hr
        rcases Nat.lt_or_ge r disk.cells.length with hlt | hge
        · exact hlt
        · rw [List.getElem?_eq_none hge] at hb; cases hb) hn id
      rw [h1]; exact returns_ok _
    · obtain ⟨d', h1, -⟩ := writeFormat_tooLong h.wf hwr h.native (Nat.lt_of_not_le hn) id
      rw [h1]; exact returns_fail _
  · obtain ⟨locs, hlocs, hlm⟩ := formatLocations_ok h.wf
    unfold Disk.writeFormat
    rw [M.bind_of_ok (m := M.get) (s := disk) (s' := disk) (a := disk) rfl]
    simp only [h.native]
    rw [M.bind_of_ok (s' := disk) (a := locs) (by rw [M.run_lift, hlocs])]
    have hne : locs ≠ [] := by
      intro e
      have := (hlm s.type.format.header.location).2 (header_valid s h.wf.shape)
      rw [e] at this
      cases this
    obtain ⟨l, ls, rfl⟩ := List.exists_cons_of_ne_nil hne
    have : Disk.onDev (M.forEach (l :: ls) fun l => M.sectorMut l zeroBlock) disk = (fail .readOnly, disk) := by
      unfold Disk.onDev
      rw [M.run_zoom, M.run_forEach_cons]
      unfold M.sectorMut
      rw [M.update_error (sectorMut_readOnly' hwr _ _)]
    rw [M.bind_of_error this]
    exact returns_fail _

theorem writeEntry_safe (hw : Wf d s) (he : ¬ X → Placed s e) : SafeRes X (d.writeEntry e) := by
  by_cases hX : X
  · exact .inl hX
  · obtain ⟨p, hp, -⟩ := (he hX).position
    rcases writeEntry_returns hw (he hX) hp with ⟨out, -, -, -, -, h1, -⟩ | h1
    · rw [h1]; exact .inr (returns_ok _)
    · rw [h1]; exact .inr (returns_fail _)

theorem update_res {σ : Type} {f : σ → Res σ} {x : σ} (h : SafeRes X (f x)) : SafeRes X (M.update f x).1 := by
  cases hf : f x with
  | ok a => rw [M.update_ok hf]; exact .inr (returns_ok _)
  | error q =>
    rw [M.update_error hf]
    rw [hf] at h
    rcases h with h | h
    · exact .inl h
    · exact .inr h.error

theorem listed_placed (hw : Wf disk.dev s) (h : .ok e ∈ disk.items) : Placed s e := by
  obtain ⟨p, hp, hs⟩ := item_slot hw h
  obtain ⟨h1, h2, h3⟩ := hs.writable hw
  exact ⟨⟨p, h1, hs.valid, hs.fits, hs.size⟩, h2, h3⟩

theorem rename_returns (h : Standing disk s) (a b : Petscii) : Returns (Disk.rename a b disk).1 := by
  unfold Disk.rename
  rcases ((C78_looking h).2.2 a ⟨0, 0⟩).1.cases with ⟨e, he⟩ | ⟨y, hy⟩
  · rw [M.bind_of_ok (s' := disk) (a := e) (by rw [M.run_read, he])]
    have hp := listed_placed h.wf (mem_of_find he).1
    rcases Nat.lt_or_ge 16 b.length with hn | hn
    · rw [M.bind_of_error (s' := disk) (e := .err .filenameTooLong) (by
        rw [M.run_lift]; unfold checkFilenameValidity; rw [if_pos hn])]
      exact returns_fail _
    rw [M.bind_of_ok (s' := disk) (a := ()) (by
      rw [M.run_lift]; unfold checkFilenameValidity
      rw [if_neg (by simp only [ENTRY_FILENAME_LENGTH]; omega)])]
    rcases ((C78_looking h).2.2 b ⟨0, 0⟩).2.1.cases with ⟨u, hu⟩ | ⟨y, hy⟩
    · rw [M.bind_of_ok (s' := disk) (a := u) (by rw [M.run_read, hu])]
      unfold Disk.writeDirectoryEntry
      rw [onDev_res]
      rcases update_res (X := False) (f := fun d => d.writeEntry { e with filename := b }) (x := disk.dev) (writeEntry_safe (d := disk.dev) (e := { e with filename := b }) h.wf
        fun _ => ⟨hp.position, hn, hp.extra⟩) with hf | hf
      · exact hf.elim
      · exact hf
    · rw [M.bind_of_error (s' := disk) (e := .err y) (by rw [M.run_read, hy])]
      exact returns_fail y
  · rw [M.bind_of_error (s' := disk) (e := .err y) (by rw [M.run_read, hy])]
    exact returns_fail y

/-! ## File handles -/

/-- What a file handle looks like, whatever happened to the disk since it was opened. -/
structure HandleOk (s : Shape) (f : File) : Prop where
  entry : Placed s f.entry
  side : ∀ g, f = .relative g → ∀ l ∈ g.sideSectors, s.Valid l
  geos : (∃ g, f = .geosSequential g ∨ f = .geosVLIR g) → ∃ x, f.entry.extra = .geos x

/-- What an entry opens as. -/
theorem fromEntry_ok {f : File} (hw : Wf d s) (he : Placed s e)
    (hg : e.scheme = .geosSequential ∨ e.scheme = .geosVLIR → ∃ g, e.extra = .geos g)
    (h : File.fromEntry d e = .ok f) : HandleOk s f := by
  have hgeos : ∀ g, GEOSFile.new d e = .ok g → g.entry = e := by
    intro g hg
    unfold GEOSFile.new at hg
    obtain ⟨v, -, hg⟩ := res_bind_eq_ok.1 hg
    split at hg
    · obtain ⟨bl, -, hg⟩ := res_bind_eq_ok.1 hg
      cases hg; rfl
    · cases hg; rfl
  unfold File.fromEntry at h
  split at h
  · cases h
    exact ⟨he, fun _ h => by (cases h), fun ⟨g, h⟩ => by rcases h with h | h <;> cases h⟩
  · obtain ⟨g, hn, h⟩ := res_bind_eq_ok.1 h
    cases h
    have hx : ∃ ex, e.extra = .relative ex := by
      unfold RelativeFile.new at hn
      split at hn
      · rename_i ex h; exact ⟨ex, h⟩
      · cases hn
    obtain ⟨ex, hx⟩ := hx
    obtain ⟨side, data, size, hside, -, -, -, rfl⟩ := (C42_open_iff hw hx g).1 hn
    obtain ⟨content, hc⟩ := hside.chain
    exact ⟨he, fun g hg l hl => by cases hg; exact hc.valid l hl, fun ⟨g, h⟩ => by rcases h with h | h <;> cases h⟩
  · rename_i hs
    obtain ⟨g, hn, h⟩ := res_bind_eq_ok.1 h
    cases h
    have hent := hgeos g hn
    exact ⟨by show Placed s g.entry; rw [hent]; exact he, fun _ h => by (cases h), fun _ => by
      show ∃ x, g.entry.extra = _; rw [hent]; exact hg (.inl hs)⟩
  · rename_i hs
    obtain ⟨g, hn, h⟩ := res_bind_eq_ok.1 h
    cases h
    have hent := hgeos g hn
    exact ⟨by show Placed s g.entry; rw [hent]; exact he, fun _ h => by (cases h), fun _ => by
      show ∃ x, g.entry.extra = _; rw [hent]; exact hg (.inr hs)⟩

theorem fromEntry_returns (hw : Wf d s)
    (hg : e.scheme = .geosSequential ∨ e.scheme = .geosVLIR → ∃ g, e.extra = .geos g)
    (hb : ¬ X → ¬ BadRelative d s e) : SafeRes X (File.fromEntry d e) := by
  have hgeos : (e.scheme = .geosSequential ∨ e.scheme = .geosVLIR) → Returns (GEOSFile.new d e) := by
    intro hs
    obtain ⟨g, hx⟩ := hg hs
    unfold GEOSFile.new
    refine Returns.bind ?_ fun v _ => ?_
    · unfold DirectoryEntry.isVlir
      rw [hx]
      simp only
      split
      · exact returns_ok _
      · exact returns_ok _
      · exact returns_fail _
    · split
      · exact (returns_sector hw _).bind fun _ _ => returns_ok _
      · exact returns_ok _
  unfold File.fromEntry
  cases hs : e.scheme with
  | linear => exact .inr (returns_ok _)
  | geosSequential => exact .inr ((hgeos (.inl hs)).bind fun _ _ => returns_ok _)
  | geosVLIR => exact .inr ((hgeos (.inr hs)).bind fun _ _ => returns_ok _)
  | relative =>
    refine SafeRes.bind ?_ fun _ _ => .inr (returns_ok _)
    by_cases hX : X
    · exact .inl hX
    · right
      cases hx : e.extra with
      | relative ex =>
        obtain ⟨h1, h2⟩ := C43_panics_iff_refuted hw hx
        exact ⟨fun h => hb hX ⟨hs, ex, hx, h2.1 h⟩, h1⟩
      | linear u => unfold RelativeFile.new; rw [hx]; exact returns_fail _
      | geos g => unfold RelativeFile.new; rw [hx]; exact returns_fail _

/-! ## Deleting -/

theorem safe_removeChain (hX : ¬ X → s.tracks ≤ bamTracks s.type) (l : Location) :
    Safe X (Sound s) (removeChain l) (fun _ => Sound s) (Sound s) := by
  unfold removeChain
  intro st h
  rcases (returns_locations h.wf l).cases with ⟨locs, hl⟩ | ⟨y, hy⟩
  · rw [M.bind_of_ok (s' := st) (a := locs) (by rw [readDev_run, hl])]
    have hv : ∀ l' ∈ locs, s.Valid l' := by
      rcases locations_or (disk := ⟨s.type.format, st.dev, none, none, none, []⟩) h.wf l with
        ⟨locs', content, h1, h2, h3⟩ | ⟨y, hy, -⟩
      · have := chainLocations_chain h.wf h3 h2
        rw [hl] at this
        cases this
        exact h3.valid
      · rw [show chainLocations st.dev l = fail y from hy] at hl; cases hl
    refine ((Safe.forEach fun l' hl' => safe_free fun hx => ?_).bind fun _ => safe_flushBam) st h
    have := hv l' hl'
    exact (show ValidLoc s.type (bamTracks s.type) l' from ⟨this.1, Nat.le_trans this.2.1 (hX hx), this.2.2⟩).inBam
  · rw [M.bind_of_error (s' := st) (e := .err y) (by rw [readDev_run, hy])]
    exact .inr ⟨_, rfl, h, .inr ⟨y, rfl⟩⟩

theorem safe_freeBlocks {f : File} (hf : HandleOk s f) (hX : ¬ X → s.tracks ≤ bamTracks s.type)
    (hI : ¬ X → ∀ g, f.entry.extra = .geos g → g.infoBlock ≠ ⟨0, 0⟩ → InMap s.type g.infoBlock) :
    Safe X (Sound s) f.freeBlocks (fun _ => Sound s) (Sound s) := by
  have hgeos : ∀ g : GEOSFile, (∃ x, g.entry.extra = .geos x) →
      (¬ X → ∀ x, g.entry.extra = .geos x → x.infoBlock ≠ ⟨0, 0⟩ → InMap s.type x.infoBlock) →
      Safe X (Sound s) (File.geosSequential g).freeBlocks (fun _ => Sound s) (Sound s) := by
    rintro g ⟨x, hx⟩ hI
    unfold File.freeBlocks
    refine (safe_removeChain hX _).bind fun _ => ?_
    have hrec : Safe X (Sound s) (match g.vlir with
        | some records => M.forEach (records.filterMap id) removeChain
        | none => pure ()) (fun _ => Sound s) (Sound s) := by
      split
      · exact Safe.forEach fun l _ => safe_removeChain hX l
      · exact Safe.pure fun _ h => h
    have hinfo : g.entry.infoLocation = .ok (if x.infoBlock.track = 0 ∧ x.infoBlock.sector = 0 then none
        else some x.infoBlock) := by
      unfold DirectoryEntry.infoLocation
      rw [hx]
    rw [hinfo]
    intro st h
    rw [M.bind_of_ok (s' := st) (a := if x.infoBlock.track = 0 ∧ x.infoBlock.sector = 0 then none
        else some x.infoBlock) (by rw [M.run_lift])]
    by_cases h0 : x.infoBlock.track = 0 ∧ x.infoBlock.sector = 0
    · rw [if_pos h0]
      exact hrec st h
    · rw [if_neg h0]
      refine ((safe_free fun hx' => hI hx' x hx fun e => h0 ?_).bind fun _ => hrec) st h
      rw [e]
      exact ⟨rfl, rfl⟩
  cases f with
  | linear e => exact safe_removeChain hX _
  | relative g =>
    unfold File.freeBlocks
    refine (safe_removeChain hX _).bind fun _ => Safe.forEach fun l hl => safe_free fun hx => ?_
    have := hf.side g rfl l hl
    exact (show ValidLoc s.type (bamTracks s.type) l from ⟨this.1, Nat.le_trans this.2.1 (hX hx), this.2.2⟩).inBam
  | geosSequential g => exact hgeos g (hf.geos ⟨g, .inl rfl⟩) hI
  | geosVLIR g => exact hgeos g (hf.geos ⟨g, .inr rfl⟩) hI

theorem HandleOk.scratch {f : File} (h : HandleOk s f) : HandleOk s (f.setEntry f.entry.scratch) := by
  have hp : Placed s f.entry.scratch := ⟨h.entry.position, h.entry.name, h.entry.extra⟩
  cases f with
  | linear e => exact ⟨hp, fun _ h => by (cases h), fun ⟨g, h⟩ => by rcases h with h | h <;> cases h⟩
  | relative g => exact ⟨hp, fun g' hg l hl => by cases hg; exact h.side g rfl l hl,
      fun ⟨g, h⟩ => by rcases h with h | h <;> cases h⟩
  | geosSequential g => exact ⟨hp, fun _ h => by (cases h), fun _ => h.geos ⟨g, .inl rfl⟩⟩
  | geosVLIR g => exact ⟨hp, fun _ h => by (cases h), fun _ => h.geos ⟨g, .inr rfl⟩⟩

/-- A file handle on an image. -/
structure FSound (s : Shape) (x : FSt) : Prop where
  st : Sound s x.st
  file : HandleOk s x.file

theorem safe_delete {f : File} (hX : ¬ X → s.tracks ≤ bamTracks s.type)
    (hI : ¬ X → ∀ g, f.entry.extra = .geos g → g.infoBlock ≠ ⟨0, 0⟩ → InMap s.type g.infoBlock) :
    Safe X (fun x => FSound s x ∧ x.file = f) File.delete (fun _ => FSound s) (FSound s) := by
  unfold File.delete
  refine Safe.get.bind fun x0 => ?_
  intro x hx
  obtain ⟨⟨h, rfl⟩, rfl⟩ := hx
  have key : Safe X (fun x => FSound s x ∧ x.file = x0.file) (do
      M.zoom FSt.st (fun s x => { x with st := s }) x0.file.freeBlocks
      M.modify fun x => { x with file := x.file.setEntry x.file.entry.scratch }
      M.zoom FSt.st (fun s x => { x with st := s })
        (St.updDev fun d => d.writeEntry x0.file.entry.scratch)) (fun _ => FSound s) (FSound s) := by
    refine Safe.bind (Q := fun _ => FSound s) ?_ fun _ => ?_
    · refine Safe.zoom fun x hx => ?_
      refine (safe_freeBlocks h.file hX hI).weaken (fun st hst => ?_) (fun _ st hst => ⟨hst, hx.1.file⟩)
        fun st hst => ⟨hst, hx.1.file⟩
      subst hst
      exact hx.1.st
    refine Safe.bind (Q := fun _ => FSound s) (Safe.modify fun x hx => ⟨hx.st, hx.file.scratch⟩) fun _ => ?_
    refine Safe.zoom fun x hx => ?_
    refine (safe_writeEntry (e := x0.file.entry.scratch) fun _ =>
      ⟨h.file.entry.position, h.file.entry.name, h.file.entry.extra⟩).weaken (fun st hst => ?_)
      (fun _ st hst => ⟨hst, hx.file⟩) fun st hst => ⟨hst, hx.file⟩
    subst hst
    exact hx.st
  exact key x0 ⟨h, rfl⟩

end Cbm
