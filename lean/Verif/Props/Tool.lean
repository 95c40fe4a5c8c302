import Verif.Lemmas.SafeCreate
import Verif.Props.Export
import Verif.Props.Commands
/-!
# C84: `cdisk` on any file
-/

namespace Cbm
open Spec

variable {s : Shape} {disk : Disk} {d : Device} {ext : Option (List Char)} {bytes : List Byte} {w : Bool}

theorem entry_of_open {name : Petscii} {f : File} {r : Nat}
    (ho : disk.openFile name = .ok (f, r)) : disk.findDirectoryEntry name = .ok f.entry := by
  unfold Disk.openFile at ho
  obtain ⟨e, he, ho⟩ := res_bind_eq_ok.1 ho
  unfold Disk.openFileFromEntry at ho
  obtain ⟨r', -, ho⟩ := res_bind_eq_ok.1 ho
  obtain ⟨f', hf, ho⟩ := res_bind_eq_ok.1 ho
  cases ho
  rw [he]
  rcases handle_cases hf with ⟨-, rfl⟩ | ⟨-, q, hq, rfl⟩ | ⟨-, g, rfl, rfl | rfl⟩
  · rfl
  · have : q.entry = e := by
      unfold RelativeFile.new at hq
      have := hq
      simp only [bind, Except.bind] at this
      repeat' split at this
      all_goals first | cases this; rfl | cases this
    rw [← this]
    rfl
  · rfl
  · rfl

/-- **C84** Whatever bytes the file given as the image holds, and whatever is asked for, the command comes back
with its result or with an error message: it does not panic and it does not run for ever, unless the file holds one
of the kinds of damage listed in `Line.Risk` for that command.  Listing with fewer than two `-v`, showing the BAM,
dumping the image, renaming and formatting have no such exception. -/
theorem C84_commands_return (ext : Option (List Char)) (bytes : List Byte) (c : Line) (hc : c.Sensible)
    (hx : ¬ c.Excused ext bytes) : Returns (c.ends ext bytes) := by
  have hrisk : ∀ {w disk s}, Disk.openPath ext w bytes = .ok disk → Steady s ⟨disk, [], []⟩ → ¬ c.Risk disk s :=
    fun ho hs hr => hx ⟨_, _, _, ho, hs.standing.wf, hr⟩
  have key : SafeRes False (c.ends ext bytes) := by
    cases c with
    | dir v =>
      exact showing_safe fun disk s ho hs => listing_fine hs.standing v fun hv e he hb =>
        hrisk ho hs ⟨hv, e, he, hb⟩
    | validate =>
      refine SafeRes.map (showing_safe fun disk s ho hs => ?_) _
      have hst := hs.standing
      obtain ⟨h1, h2, -⟩ := C78_validating hst
      unfold printValidation
      refine .lift (.inr ⟨fun hp => hrisk ho hs (h2 hp), h1⟩) fun errors _ => ?_
      refine .bind (.forEach fun _ _ => .println _) fun _ => ?_
      split
      · exact .bind (.println _) fun _ => .pure _
      · exact .pure _
    | dump name =>
      cases name with
      | none =>
        show SafeRes False (cmdDump ext none bytes).1
        cases ho : Disk.openPath ext true bytes with
        | error q =>
          have := openPath_returns ext true bytes
          unfold cmdDump showing
          rw [ho] at this ⊢
          exact .inr this.error
        | ok disk =>
          obtain ⟨-, -, -, -, h, -⟩ := C70_dump ext bytes disk ho
          rw [h]
          exact .inr (returns_ok _)
      | some name =>
        refine showing_safe fun disk s ho hs => ?_
        simp only
        refine .lift (openFile_safe hs.standing _ fun e he hb => hrisk ho hs ⟨e, he, hb⟩) fun p hp => ?_
        obtain ⟨f, r⟩ := p
        exact fileDump_fine hs.standing hp
    | bamShow =>
      show SafeRes False (cmdBamShow ext bytes).1
      cases ho : Disk.openPath ext false bytes with
      | error q =>
        have := openPath_returns ext false bytes
        unfold cmdBamShow showing
        rw [ho] at this ⊢
        exact .inr this.error
      | ok disk =>
        rcases C69_show ext bytes disk ho with ⟨-, -, h⟩ | ⟨-, -, -, -, -, -, -, h, -⟩
        · rw [h]; exact .inr (returns_fail _)
        · rw [h]; exact .inr (returns_ok _)
    | bamEdit track sector allocate =>
      refine inSession_safe fun disk s ho hs => ?_
      rw [onDisk_res]
      refine bamEdit_safe (x := ⟨disk, [], []⟩) hs (fun t ht => ⟨(hc.1 t ht).1, fun _ => ?_⟩) fun n hn => ?_
      · have := (hc.1 t ht).2
        have hr := hrisk ho hs
        have hr : ¬ (s.type = .d64 ∧ ∃ t, track = some t ∧ 36 ≤ t) := hr
        cases hty : s.type with
        | d64 =>
          rcases Nat.lt_or_ge t 36 with h | h
          · show t ≤ 35
            omega
          · exact absurd ⟨hty, t, ht, h⟩ hr
        | d71 => show t ≤ 70; omega
        | d81 => show t ≤ 80; omega
      · have := hc.2 n hn
        omega
    | read name sizes =>
      refine SafeRes.map (inSession_safe fun disk s ho hs => ?_) _
      rw [M.run_read]
      have hst := hs.standing
      refine (openFile_safe hst (fromStrLossy name) fun e he hb => hrisk ho hs ⟨e, he, hb⟩).bind fun p hp => ?_
      obtain ⟨f, r⟩ := p
      have hp : disk.openFile (fromStrLossy name) = .ok (f, r) := hp
      refine SafeRes.bind (.inr (C78_reading hst hp hst.wf).2.2.1) fun rd hrd => .inr ?_
      obtain ⟨start, rfl⟩ : ∃ start, rd = ChainReader.new start := by
        unfold File.reader at hrd
        cases f with
        | linear e => exact ⟨_, (Except.ok.inj hrd).symm⟩
        | relative g => cases hrd
        | geosSequential g =>
          simp only at hrd
          split at hrd
          · cases hrd
          · exact ⟨_, (Except.ok.inj hrd).symm⟩
        | geosVLIR g =>
          simp only at hrd
          split at hrd
          · cases hrd
          · exact ⟨_, (Except.ok.inj hrd).symm⟩
      have hle := sectors_le hst.wf.shape
      show Returns ((ChainReader.new start).readToEnd disk.dev sizes).1
      rw [C17_read_to_end hst.wf start sizes hc.1 (by have := hc.2; omega)]
      exact returns_content hst.wf start
    | write name type pieces =>
      refine inSession_safe fun disk s ho hs => ?_
      exact writing_safe hs fun _ => ⟨fun h => hrisk ho hs (.inl h), fun h => hrisk ho hs (.inr h)⟩
    | append name pieces =>
      show SafeRes False (cmdAppend ext name pieces bytes).1
      cases ho : Disk.openPath ext false bytes with
      | error q =>
        have := openPath_returns ext false bytes
        unfold cmdAppend inSession
        rw [ho] at this ⊢
        exact .inr this.error
      | ok disk =>
        obtain ⟨s, hs⟩ := openPath_steady ho
        have hst := hs.standing
        have hop := openFile_safe hst (fromStrLossy name) fun e he hb => hrisk ho hs (.inl ⟨e, he, hb⟩)
        cases hf : disk.openFile (fromStrLossy name) with
        | error q =>
          rw [hf] at hop
          unfold cmdAppend inSession
          rw [ho]
          simp only
          rw [M.bind_of_error (s' := ⟨disk, [], []⟩) (e := q) (by
            simp only [Session.step]
            rw [M.bind_of_error (s' := ⟨disk, [], []⟩) (e := q) (by rw [M.run_read, hf])])]
          rcases hop with h | h
          · exact h.elim
          · exact .inr h.error
        | ok p =>
          obtain ⟨f, r⟩ := p
          rw [append_run pieces ho hf]
          have hent := entry_of_open hf
          cases hw : f.writer disk.dev with
          | ok w => exact .inr (returns_fail _)
          | error q =>
            have : Returns (f.writer disk.dev) := by
              obtain ⟨e, p, -, -, -, hfe⟩ := opened_file hst hf
              rcases handle_cases hfe with ⟨hsch, rfl⟩ | ⟨-, g, -, rfl⟩ | ⟨-, g, -, rfl | rfl⟩
              · have hl : chainContent disk.dev e.firstSector ≠ fail .chainLoop := fun hl =>
                  hrisk ho hs (.inr ⟨e, hent, hsch, hl⟩)
                rcases C51_returns_partial hst.wf hl e with ⟨-, w, -, hw⟩ | ⟨y, -, hy⟩
                · show Returns (ChainWriter.new _ _ _); rw [hw]; exact returns_ok _
                · show Returns (ChainWriter.new _ _ _); rw [hy]; exact returns_fail _
              · exact returns_fail _
              · unfold File.writer
                simp only
                split <;> exact returns_fail _
              · unfold File.writer
                simp only
                split <;> exact returns_fail _
            rw [hw] at this
            exact .inr this.error
    | rename a b =>
      refine inSession_safe fun disk s ho hs => ?_
      show SafeRes False (Session.onDisk _ _).1
      rw [onDisk_res]
      exact .inr (rename_returns hs.standing _ _)
    | format name id =>
      refine inSession_safe fun disk s ho hs => ?_
      show SafeRes False (Session.onDisk _ _).1
      rw [onDisk_res]
      exact .inr (writeFormat_returns hs.standing _ _)
    | delete name =>
      refine inSession_safe fun disk s ho hs => ?_
      have hst := hs.standing
      obtain ⟨h1, h2⟩ := safe_call hs (c := .openFile (fromStrLossy name)) (by trivial)
      have h2 := h2 (by trivial)
      refine returns_bind (h2.imp (fun ⟨e, he, hb⟩ => hrisk ho hs (.inl ⟨e, he, hb⟩)) id) fun u hu => ?_
      cases hf : disk.openFile (fromStrLossy name) with
      | error q =>
        have : (Session.step (.openFile (fromStrLossy name)) ⟨disk, [], []⟩).1 = .error q := by
          show ((_ >>= _ : M Session Unit) _).1 = _
          rw [M.bind_of_error (s' := ⟨disk, [], []⟩) (e := q) (by rw [M.run_read, hf])]
        rw [this] at hu
        cases hu
      | ok p =>
        obtain ⟨f, r⟩ := p
        have hstep : Session.step (.openFile (fromStrLossy name)) ⟨disk, [], []⟩ = (.ok (), ⟨disk, [(f, r)], []⟩) := by
          show (_ >>= _ : M Session Unit) _ = _
          rw [M.bind_of_ok (s' := ⟨disk, [], []⟩) (a := (f, r)) (by rw [M.run_read, hf])]
          rfl
        rw [hstep] at h1 ⊢
        obtain ⟨-, h3⟩ := safe_call h1 (c := .delete 0) (by trivial)
        refine (h3 (show 0 < 1 by decide)).imp (fun he => ?_) id
        have hent := entry_of_open hf
        rcases he with he | ⟨f', r', g, hf', hg, h0, hm⟩
        · exact hrisk ho hs (.inr ⟨_, hent, .inl he⟩)
        · cases hf'
          exact hrisk ho hs (.inr ⟨_, hent, .inr ⟨g, hg, h0, hm⟩⟩)
  exact key.resolve_left id

/-! ## Where the crashes are certain -/

theorem named_panics {name : List Nat} (ho : Disk.openPath ext w bytes = .ok disk) (hw : Wf disk.dev s)
    (hn : NamesBad disk s name) : disk.openFile (fromStrLossy name) = .error .panic := by
  obtain ⟨s', hs⟩ := openPath_steady ho
  have hst := hs.standing
  obtain rfl : s = s' := by
    have hd : ∀ a ∈ shapes, ∀ b ∈ shapes, a.size = b.size → a = b := by decide +kernel
    exact hd s hw.shape s' hst.wf.shape (by rw [← hw.size, ← hst.wf.size])
  refine (C78_opening hst _).2.2 ⟨fun hb => ?_, hn⟩
  rcases open_bam ho with ⟨-, hh, hf⟩ | ⟨ty, b, -, hb', -⟩
  · obtain ⟨e, he, -⟩ := hn
    unfold Disk.findDirectoryEntry Disk.items Disk.diskFormat at he
    rw [hf] at he
    cases he
  · unfold bamOf at hb'
    rw [hb] at hb'
    cases hb'

/-- **C84** Where the file of that name is damaged in that way the exception is no excuse for an unproved case:
reading, dumping and deleting it and appending to it do panic. -/
theorem C84_damaged (ext : Option (List Char)) (bytes : List Byte) (name : List Nat) :
    (∀ disk s, Disk.openPath ext false bytes = .ok disk → Wf disk.dev s → NamesBad disk s name →
      (∀ sizes, (Line.read name sizes).ends ext bytes = .error .panic) ∧
      ∀ pieces, (Line.append name pieces).ends ext bytes = .error .panic) ∧
    ∀ disk s, Disk.openPath ext true bytes = .ok disk → Wf disk.dev s → NamesBad disk s name →
      (Line.dump (some name)).ends ext bytes = .error .panic ∧ (Line.delete name).ends ext bytes = .error .panic := by
  constructor
  · intro disk s ho hw hn
    have hp := named_panics ho hw hn
    refine ⟨fun sizes => ?_, fun pieces => ?_⟩
    · show (cmdRead ext name sizes bytes).1.map _ = _
      unfold cmdRead inSession
      rw [ho]
      simp only
      rw [M.run_read, hp]
      rfl
    · show (cmdAppend ext name pieces bytes).1 = _
      unfold cmdAppend inSession
      rw [ho]
      simp only
      rw [M.bind_of_error (s' := ⟨disk, [], []⟩) (e := .panic) (by
        simp only [Session.step]
        rw [M.bind_of_error (s' := ⟨disk, [], []⟩) (e := .panic) (by rw [M.run_read, hp])])]
  · intro disk s ho hw hn
    have hp := named_panics ho hw hn
    constructor
    · show (cmdDump ext (some name) bytes).1 = _
      unfold cmdDump showing
      rw [ho]
      simp only
      rw [M.bind_of_error (s' := _) (e := .panic) (by rw [hp]; rfl)]
    · show (cmdDelete ext name bytes).1 = _
      unfold cmdDelete inSession
      rw [ho]
      simp only
      rw [M.bind_of_error (s' := ⟨disk, [], []⟩) (e := .panic) (by
        simp only [Session.step]
        rw [M.bind_of_error (s' := ⟨disk, [], []⟩) (e := .panic) (by rw [M.run_read, hp])])]

theorem copyOut_no_panic (hw : Wf d s) : ∀ (sizes : List Nat) {r : GEOSReader}, ReaderOk r →
    r.copyOut d sizes ≠ .error .panic
  | [], r, _ => by unfold GEOSReader.copyOut; exact fun h => by cases h
  | n :: ns, r, hr => by
    unfold GEOSReader.copyOut
    obtain ⟨res, r', he, hr', h⟩ := geosRead_returns hw hr n
    rw [he]
    rcases h with ⟨e, rfl⟩ | ⟨out, rfl, -⟩
    · exact fun h => by cases h
    · simp only
      split
      · exact fun h => by cases h
      · have := copyOut_no_panic hw ns hr'
        cases hc : r'.copyOut d ns with
        | ok x => exact fun h => by cases h
        | error e =>
          rw [hc] at this
          intro h
          exact this h

/-- **C84** `geosread` of any file: it panics only where the file of that name is an ordinary or a relative
file, as it does there (C74). -/
theorem C84_geosread (ext : Option (List Char)) (bytes : List Byte) (name sizes : List Nat)
    (h : (cmdGeosread ext name sizes bytes).1 = .error .panic) :
    ∃ disk e, Disk.openPath ext false bytes = .ok disk ∧ disk.findDirectoryEntry (fromStrLossy name) = .ok e ∧
      (e.scheme = .linear ∨ e.scheme = .relative) := by
  cases ho : Disk.openPath ext false bytes with
  | error q =>
    have := openPath_returns ext false bytes
    unfold cmdGeosread inSession at h
    rw [ho] at this h
    simp only at h
    exact absurd (Except.error.inj h) (by rintro rfl; exact this.1 rfl)
  | ok disk =>
    obtain ⟨s, hs⟩ := openPath_steady ho
    have hst := hs.standing
    rw [cmdGeosread_eq ho] at h
    refine ⟨disk, ?_⟩
    unfold openGeosFile at h
    obtain ⟨h1, h2⟩ := C78_opening hst (fromStrLossy name)
    cases hf : disk.openFile (fromStrLossy name) with
    | error q =>
      rw [hf] at h
      have : q = .panic := Except.error.inj h
      subst this
      obtain ⟨-, e, he, hb⟩ := h2.1 hf
      exact ⟨e, rfl, he, .inr hb.1⟩
    | ok p =>
      obtain ⟨f, r⟩ := p
      have hent := entry_of_open hf
      refine ⟨f.entry, rfl, hent, ?_⟩
      obtain ⟨e, p, -, -, -, hfe⟩ := opened_file hst hf
      rw [hf, res_bind_ok] at h
      have hno : ∀ g : GEOSFile, f = .geosSequential g ∨ f = .geosVLIR g →
          (do let r ← GEOSReader.new g.entry; r.copyOut disk.dev sizes : Res (List Byte)) ≠ .error .panic := by
        intro g hg
        have hret := (C78_reading_geos hst hf hg hst.wf).2.1
        rcases hret.cases with ⟨r, hr⟩ | ⟨y, hy⟩
        · rw [hr, res_bind_ok]
          exact copyOut_no_panic hst.wf sizes (geosReader_ok hr)
        · rw [hy]
          exact fun h => by cases h
      rcases handle_cases hfe with ⟨hsch, rfl⟩ | ⟨hsch, q, hq, rfl⟩ | ⟨hsch, g, hg, rfl | rfl⟩
      · exact .inl hsch
      · have : q.entry = e := by
          unfold RelativeFile.new at hq
          have := hq
          simp only [bind, Except.bind] at this
          repeat' split at this
          all_goals first | cases this; rfl | cases this
        exact .inr (by rw [← hsch, ← this]; rfl)
      · exact absurd h (hno g (.inl rfl))
      · exact absurd h (hno g (.inr rfl))

/-! ## The images the tool makes itself -/

theorem path_in_chain {l : Location} : ∀ {ls c : List Location}, Linked d s (ls ++ [l]) → Linked d s c →
    (ls ++ [l]).head? = c.head? → (∀ x ∈ ls, byteAt (d.blk s x) 0 ≠ 0) →
    (∀ t, c.getLast? = some t → byteAt (d.blk s t) 0 = 0) → l ∈ c := by
  intro ls
  induction ls with
  | nil =>
    intro c _ _ hh _ _
    cases c with
    | nil => cases hh
    | cons y c => cases hh; simp
  | cons x ls ih =>
    intro c hl hc hh ho ht
    cases c with
    | nil => cases hh
    | cons y c =>
      have hxy : x = y := by simpa using hh
      subst hxy
      cases c with
      | nil => exact absurd (ht x rfl) (ho x (by simp))
      | cons z c =>
        obtain ⟨hz, hc⟩ := hc
        refine List.mem_cons_of_mem _ (ih ?_ hc ?_ (fun a ha => ho a (by simp [ha])) fun t h => ht t (by simpa using h))
        · cases ls with
          | nil => trivial
          | cons a ls => exact hl.2
        · cases ls with
          | nil => exact congrArg some (hl.1.symm.trans hz)
          | cons a ls => exact congrArg some (hl.1.symm.trans hz)

/-- What both ways of opening an image of files give. -/
theorem holds_any {c : Contents} (h : HoldsFiles ext bytes c) (ho : Disk.openPath ext w bytes = .ok disk) :
    ∃ s v r b, Opened disk s v ∧ disk.bam = some r ∧ disk.cells[r]? = some b ∧ Recorded b s.type v ∧
      c.map.type = s.type := by
  cases w with
  | true =>
    obtain ⟨disk', -, -, -, ho', hr, -⟩ := holds_inv h
    rw [ho] at ho'
    cases ho'
    obtain ⟨s, v, r, b, hrep⟩ := hr.rep
    exact ⟨s, v, r, b, hrep.ready.opened, hrep.ready.bam, hrep.ready.cell, hrep.ready.mounted.recorded, hrep.type⟩
  | false =>
    obtain ⟨disk', he, hsz, hn, ho', hr, hi⟩ := holds_inv h
    obtain ⟨s, v, r, b, hrep⟩ := hr.rep
    obtain ⟨disk₂, hd, hl⟩ := open_readOnly hrep.ready (hrep.saved rfl)
    rw [show disk'.dev.image.bytes = bytes by rw [hi]; rfl] at hd
    have ht : c.map.type = s.type := hrep.type
    have : Disk.openPath ext false bytes = .ok disk₂ := by rw [openPath_of he false hsz, ht]; exact hd
    rw [ho] at this
    cases this
    exact ⟨s, v, 0, b, hl.opened, hl.bam, hl.cell, hl.recorded, ht⟩

/-- **C84** On an image that holds files, as `create`, `format` and further commands make them (C63), every command
returns: only editing the map beyond track 35 of a 1541 disk does not. -/
theorem C84_own_images {c : Contents} (h : HoldsFiles ext bytes c) (k : Line) (hk : k.Sensible)
    (hb : ∀ t sector allocate, k = .bamEdit (some t) sector allocate → c.map.type = .d64 → t ≤ 35) :
    Returns (k.ends ext bytes) := by
  by_cases hdel : ∃ name, k = .delete name
  · obtain ⟨name, rfl⟩ := hdel
    obtain ⟨bytes', he, -⟩ := command_ok h (k := .delete name) rfl
    have he := congrArg Prod.fst he
    have he : (cmdDelete ext name bytes).1.map (fun _ => Answer.done) =
      (FileMap.step (.delete (fromStrLossy name)) c.map).1.map fun _ => Answer.done := he
    show Returns (cmdDelete ext name bytes).1
    have hr : ∀ a, (FileMap.step (.delete (fromStrLossy name)) c.map).1 = a → a ≠ .error .panic ∧ a ≠ .error .diverge := by
      rintro a rfl
      simp only [FileMap.step]
      split <;> exact ⟨fun h => (by cases h), fun h => (by cases h)⟩
    cases hq : (cmdDelete ext name bytes).1 with
    | ok x => exact returns_ok _
    | error q =>
      rw [hq] at he
      cases hm : (FileMap.step (.delete (fromStrLossy name)) c.map).1 with
      | ok x => rw [hm] at he; cases he
      | error q' =>
        rw [hm] at he
        have hqq : q = q' := Except.error.inj he
        subst hqq
        obtain ⟨h1, h2⟩ := hr _ hm
        exact ⟨fun h => h1 (by cases h; rfl), fun h => h2 (by cases h; rfl)⟩
  refine C84_commands_return ext bytes k hk ?_
  rintro ⟨w, disk, s, ho, hw, hr⟩
  obtain ⟨s', v, r, b, hop, hbam, hcell, hrec, hty⟩ := holds_any h ho
  obtain rfl : s = s' := by
    have hd : ∀ a ∈ shapes, ∀ b ∈ shapes, a.size = b.size → a = b := by decide +kernel
    exact hd s hw.shape s' hop.onDisk.wf.shape (by rw [← hw.size, ← hop.onDisk.wf.size])
  have hod := hop.onDisk
  have hlin : ∀ e, .ok e ∈ disk.items → e.scheme = .linear := by
    intro e he
    rw [hop.items] at he
    obtain ⟨e', he', hee⟩ := List.mem_map.1 he
    cases hee
    obtain ⟨i, f, -, rfl⟩ := mem_listing.1 he'
    rfl
  have hbad : ∀ e, .ok e ∈ disk.items → ¬ BadRelative disk.dev s e := fun e he hb => by
    have := hlin e he
    rw [hb.1] at this
    cases this
  have hname : ∀ name, ¬ NamesBad disk s name := by
    rintro name ⟨e, he, hb⟩
    exact hbad e (mem_of_find he).1 hb
  obtain ⟨content, hch⟩ := hod.dirChain
  cases k with
  | dir v => exact hr.2.elim fun e he => hbad e he.1 he.2
  | validate => exact hr.elim fun e he => hbad e he.1 he.2
  | dump name =>
    cases name with
    | none => exact hr
    | some name => exact hname name hr
  | bamShow => exact hr
  | bamEdit track sector allocate =>
    obtain ⟨h64, t, rfl, ht⟩ := hr
    have := hb t sector allocate rfl (hty.trans h64)
    omega
  | read name sizes => exact hname name hr
  | write name type pieces =>
    rcases hr with ⟨f, dir, content', t, hf, hh, hch', hlast, -, htail⟩ | ⟨f, r', b', locs, l, hf, hbr, hcl, hp, hfree⟩
    · rw [hop.format] at hf
      cases hf
      rw [firstDirectory_format] at hh
      have h1 := chainLocations_chain hod.wf hch hod.dirFirst
      rw [chainLocations_chain hod.wf hch' hh] at h1
      cases h1
      have hfull := hod.dirFull t hlast
      have hz : byteAt (disk.dev.blk s t) 0 = 0 := by
        obtain ⟨init, t', hi, h0, -⟩ := hch.last
        rw [hi, List.getLast?_concat] at hlast
        cases hlast
        exact h0
      have htr := (hod.dirTrack t (List.mem_of_getLast? hlast)).1
      rcases htail with h | h
      · apply h
        unfold usedBytes
        rw [if_pos hz, hfull]
        rfl
      · rw [htr] at h
        revert h
        cases s.type <;> decide
    · rw [hop.format] at hf
      cases hf
      rw [hbam] at hbr
      cases hbr
      rw [hcell] at hcl
      cases hcl
      have hin : l ∈ v.dir := by
        refine path_in_chain hp.linked hch.linked ?_ hp.onward ?_
        · rw [hp.start, hod.dirFirst, firstDirectory_format]
        · intro t ht
          obtain ⟨init, t', hi, h0, -⟩ := hch.last
          rw [hi, List.getLast?_concat] at ht
          cases ht
          exact h0
      have htr := (hod.dirTrack l hin).1
      have hv := hch.valid l hin
      have hv' : ValidLoc s.type (bamTracks s.type) l := by
        refine ⟨hv.1, ?_, hv.2.2⟩
        rw [htr]
        cases s.type <;> decide
      have := (hrec.exact l hv').2 (.inr (.inl hin))
      rw [hfree] at this
      cases this
  | append name pieces =>
    rcases hr with hr | ⟨e, he, -, hl⟩
    · exact hname name hr
    · have hm := (mem_of_find he).1
      rw [hop.items] at hm
      obtain ⟨e', he', hee⟩ := List.mem_map.1 hm
      cases hee
      obtain ⟨i, f, -, rfl, -, hc⟩ := listing_chain hod he'
      rw [hc] at hl
      cases hl
  | rename a b => exact hr
  | delete name => exact hdel ⟨name, rfl⟩
  | format name id => exact hr

/-! ## Concrete cases -/

/-- Any 174848 bytes, and any other number of them: listing, looking at the map, a dump of the whole image,
renaming and formatting always come back; so does reading a file that is not there. -/
example (ext : Option (List Char)) (bytes : List Byte) : Returns ((Line.dir 1).ends ext bytes) ∧
    Returns (Line.bamShow.ends ext bytes) ∧ Returns ((Line.dump none).ends ext bytes) ∧
    Returns ((Line.rename [0x61] [0x62]).ends ext bytes) ∧ Returns ((Line.format [0x61] [0x62]).ends ext bytes) := by
  refine ⟨C84_commands_return ext bytes _ trivial ?_, C84_commands_return ext bytes _ trivial ?_,
    C84_commands_return ext bytes _ trivial ?_, C84_commands_return ext bytes _ trivial ?_,
    C84_commands_return ext bytes _ trivial ?_⟩
  · rintro ⟨w, disk, s, -, -, h, -⟩
    omega
  all_goals
    rintro ⟨w, disk, s, -, -, h⟩
    exact h

/-- Writing, listing, checking and deleting on a newly formatted disk. -/
example : ∃ bytes, ∀ k ∈ [Line.write [104, 105] .PRG [[1, 2], [3]], .dir 3, .validate, .delete [104, 105],
    .bamEdit (some 35) none true], Returns (k.ends (some "d64".toList) bytes) := by
  obtain ⟨bytes, h⟩ := exists_holds (some "d64".toList) [] [] (by decide)
  refine ⟨bytes, fun k hk => C84_own_images h k ?_ ?_⟩
  · simp only [List.mem_cons, List.not_mem_nil, or_false] at hk
    rcases hk with rfl | rfl | rfl | rfl | rfl
    · trivial
    · trivial
    · trivial
    · trivial
    · exact ⟨fun t ht => (by cases ht; decide), fun n hn => (by cases hn)⟩
  · rintro t sector allocate rfl -
    simp only [List.mem_cons, List.not_mem_nil, or_false] at hk
    rcases hk with h | h | h | h | h <;> cases h
    decide

/-- `C84_damaged`: an image with a relative file whose only side sector says that five of its bytes are used.  Reading
the file `"aaaaaaaaaaaaaaaa"` panics; listing the directory does not. -/
example : ∃ bytes, (∀ sizes, (Line.read (List.replicate 16 97) sizes).ends (some "d64".toList) bytes = .error .panic) ∧
    Returns ((Line.dir 1).ends (some "d64".toList) bytes) := by
  obtain ⟨hw, hblk, hoth⟩ := sampleDev_facts (front := [0x00, 4, 0, 10]) (slot := sampleRelativeSlot)
    (by decide) (by decide)
  have h0 := hoth ⟨1, 0⟩ (by decide) (by decide)
  obtain ⟨bytes, disk, free, -, ho, hw', hsame, hdir⟩ := sample_listed (front := [0x00, 4, 0, 10])
    (slot := sampleRelativeSlot) (e := DirectoryEntry.parse32 sampleRelativeSlot (some ⟨⟨18, 1⟩, 0, 32⟩))
    (by decide) (by decide) (by decide +kernel)
  refine ⟨bytes, ((C84_damaged _ bytes _).1 disk _ ho hw'
    ⟨DirectoryEntry.parse32 sampleRelativeSlot (some ⟨⟨18, 1⟩, 0, 32⟩), ?_, ?_⟩).1, ?_⟩
  · obtain ⟨hes, -⟩ := cmdDir_found ho hdir
    unfold Disk.findDirectoryEntry
    rw [collectRes_inv hes]
    decide +kernel
  · refine ⟨by decide +kernel, ⟨⟨1, 0⟩, 10, List.replicate 6 0⟩, by decide +kernel, .inl ⟨[⟨1, 0⟩], _, ⟨1, 0⟩, rfl,
      ⟨by decide, by decide, trivial, [], ⟨1, 0⟩, rfl, ?_, ?_, rfl⟩, rfl, ?_⟩⟩
    · rw [hsame, h0]; decide +kernel
    · rw [hsame, h0]; decide +kernel
    · rw [hsame, h0]; decide +kernel
  · refine C84_commands_return _ bytes _ trivial ?_
    rintro ⟨w, disk, s, -, -, h, -⟩
    omega

end Cbm
