import Verif.Lemmas.FootprintOps
/-!
# What the calls on a disk change, on any image
-/

namespace Cbm
open Spec

variable {s : Shape} {A A' : Location → Nat → Prop} {G : Location → Prop} {R : Nat → Location → Prop}
  {d d' d0 : Device} {l start : Location} {e : DirectoryEntry} {p : Position} {disk disk' : Disk} {α β : Type}

/-! ## Chains -/

theorem locations_lead {locs : List Location} (hw : Wf d s) (h : chainLocations d start = .ok locs) :
    ∀ l ∈ locs, LeadsTo d s start l := by
  intro l hl
  unfold chainLocations at h
  obtain ⟨cs, hcs, h⟩ := res_bind_eq_ok.1 h
  cases h
  obtain ⟨c, hc, rfl⟩ := List.mem_map.1 hl
  exact item_path hw (by
    rw [collectRes_inv hcs]
    exact List.mem_map.2 ⟨c, hc, rfl⟩)

theorem framed_removeChain (hA : ∀ l j, bamArea s.type l j → A l j) {st : St} (h : Framed s A G d0 st)
    (hG : ∀ l, LeadsTo st.dev s start l → G l) : Framed s A G d0 (removeChain start st).2 := by
  unfold removeChain
  cases hl : chainLocations st.dev start with
  | error q =>
    rw [M.bind_of_error (s' := st) (e := q) (by rw [readDev_run, hl])]
    exact h
  | ok locs =>
    rw [M.bind_of_ok (s' := st) (a := locs) (by rw [readDev_run, hl])]
    have key : Kept (Framed s A G d0) (do
        M.forEach locs fun l => St.updBam fun b => b.free l
        St.flushBam) :=
      (Safe.forEach fun l' hl' => framed_free (hG l' (locations_lead h.wf hl l' hl'))).bind fun _ => framed_flushBam hA
    exact key.state h

/-- Freeing the blocks of a file. -/
theorem framed_freeBlocks {f : File} {st : St}
    (hG : ∀ l, BlockOf d0 s f l → G l) (h : Framed s (bamArea s.type) G d0 st) (hd : st.dev = d0) :
    Framed s (bamArea s.type) G d0 (f.freeBlocks st).2 := by
  have hmain : ∀ start, start = f.entry.firstSector → Framed s (bamArea s.type) G d0 (removeChain start st).2 := by
    rintro start rfl
    refine framed_removeChain (fun _ _ h => h) h fun l hl => hG l (.inl ?_)
    rw [hd] at hl
    exact hl
  have hgeos : ∀ g : GEOSFile, (f = .geosSequential g ∨ f = .geosVLIR g) →
      Framed s (bamArea s.type) G d0 ((File.geosSequential g).freeBlocks st).2 := by
    intro g hg
    have hent : f.entry = g.entry := by rcases hg with rfl | rfl <;> rfl
    unfold File.freeBlocks
    show Framed s _ G d0 ((_ >>= _ : M St Unit) st).2
    have h1 := hmain g.entry.firstSector (by rw [hent])
    rcases hr : removeChain g.entry.firstSector st with ⟨r, st1⟩
    rw [hr] at h1
    cases r with
    | error q => rw [M.bind_of_error hr]; exact h1
    | ok u =>
      rw [M.bind_of_ok hr]
      have hrec : Kept (Framed s (bamArea s.type) G d0) (match g.vlir with
          | some records => M.forEach (records.filterMap id) removeChain
          | none => pure ()) := by
        split
        · rename_i records hv
          refine Safe.forEach fun l hl => kept_of fun st hst => ?_
          obtain ⟨o, ho, heq⟩ := List.mem_filterMap.1 hl
          cases o with
          | none => cases heq
          | some l' =>
            cases heq
            exact framed_removeChain (fun _ _ h => h) hst fun m hm => hG m
              (.inr (.inr (.inr ⟨g, records, l, st.dev, hg, hv, ho, hst.only, hm⟩)))
        · exact Safe.pure fun _ h => h
      cases hx : g.entry.extra with
      | geos x =>
        have hinfo : g.entry.infoLocation = .ok (if x.infoBlock.track = 0 ∧ x.infoBlock.sector = 0 then none
            else some x.infoBlock) := by
          unfold DirectoryEntry.infoLocation
          rw [hx]
        rw [hinfo]
        rw [M.bind_of_ok (s' := st1) (a := if x.infoBlock.track = 0 ∧ x.infoBlock.sector = 0 then none
            else some x.infoBlock) (by rw [M.run_lift])]
        by_cases h0 : x.infoBlock.track = 0 ∧ x.infoBlock.sector = 0
        · rw [if_pos h0]
          exact hrec.state h1
        · rw [if_neg h0]
          exact Kept.state (Safe.bind (framed_free (hG _ (.inr (.inr (.inl ⟨g, x, hg, hx,
            fun h => h0 (by rw [h]; exact ⟨rfl, rfl⟩), rfl⟩))))) fun _ => hrec) h1
      | _ =>
        unfold DirectoryEntry.infoLocation
        rw [hx]
        exact h1
  cases f with
  | linear e => exact hmain _ rfl
  | relative g =>
    unfold File.freeBlocks
    show Framed s _ G d0 ((_ >>= _ : M St Unit) st).2
    have h1 := hmain g.entry.firstSector rfl
    rcases hr : removeChain g.entry.firstSector st with ⟨r, st1⟩
    rw [hr] at h1
    cases r with
    | error q => rw [M.bind_of_error hr]; exact h1
    | ok u =>
      rw [M.bind_of_ok hr]
      exact Kept.state (Safe.forEach fun l hl => framed_free (hG l (.inr (.inl ⟨g, rfl, hl⟩)))) h1
  | geosSequential g => exact hgeos g (.inl rfl)
  | geosVLIR g => exact hgeos g (.inr rfl)

theorem Framed.mono {st : St} (h : Framed s A G d0 st) (hA : ∀ l j, A l j → A' l j) : Framed s A' G d0 st :=
  ⟨h.wf, h.bam, h.only.mono hA, h.free⟩

theorem framed_delete {f : File} {st : St} (h : Framed s (bamArea s.type) G d0 st) (hd : st.dev = d0)
    (hG : ∀ l, BlockOf d0 s f l → G l) :
    Framed s (fun l j => bamArea s.type l j ∨ ∃ p, f.entry.position = some p ∧ Field p 2 30 l j) G d0
      (File.delete ⟨f, st⟩).2.st := by
  have h1 := framed_freeBlocks hG h hd
  unfold File.delete
  rw [M.bind_of_ok (m := M.get) (s := (⟨f, st⟩ : FSt)) (s' := ⟨f, st⟩) (a := ⟨f, st⟩) rfl]
  rcases hr : f.freeBlocks st with ⟨r, st1⟩
  rw [hr] at h1
  have hz : M.zoom FSt.st (fun s x => { x with st := s }) f.freeBlocks (⟨f, st⟩ : FSt) = (r, ⟨f, st1⟩) := by
    rw [M.run_zoom]
    show ((f.freeBlocks st).1, (⟨f, (f.freeBlocks st).2⟩ : FSt)) = _
    rw [hr]
  cases r with
  | error q => rw [M.bind_of_error hz]; exact h1.mono fun _ _ h => .inl h
  | ok u =>
    rw [M.bind_of_ok hz]
    show Framed s _ G d0 ((M.zoom FSt.st (fun s x => { x with st := s })
        (St.updDev fun d => d.writeEntry f.entry.scratch)) (⟨f.setEntry f.entry.scratch, st1⟩ : FSt)).2.st
    rw [M.run_zoom]
    exact Kept.state (framed_writeEntry fun p l j hp hf => .inr ⟨p, hp, hf⟩) (h1.mono fun _ _ h => .inl h)

/-! ## Directory -/

theorem scanFree_inr : ∀ {items : List (Res ChainSector)} {last t : Location}, scanFree items last = .ok (.inr t) →
    (items = [] ∧ t = last) ∨ ∃ init c, items = init ++ [.ok c] ∧ t = c.location
  | [], last, t, h => by cases h; exact .inl ⟨rfl, rfl⟩
  | .error q :: _, _, _, h => by cases h
  | .ok c :: rest, last, t, h => by
    unfold scanFree at h
    obtain ⟨o, ho, h⟩ := res_bind_eq_ok.1 h
    cases o with
    | some e' => cases h
    | none =>
      rcases scanFree_inr (items := rest) h with ⟨rfl, rfl⟩ | ⟨init, c', rfl, rfl⟩
      · exact .inr ⟨[], c, rfl, rfl⟩
      · exact .inr ⟨.ok c :: init, c', rfl, rfl⟩

/-- The end of the directory. -/
theorem scan_tail (hw : Wf d s) {last t : Location} (h : scanFree (chainItems d start) last = .ok (.inr t)) :
    LeadsTo d s start t ∧ byteAt (d.blk s t) 0 = 0 := by
  obtain ⟨ls, t', hi, hp, hs⟩ := chainItems_walk hw start
  rcases scanFree_inr h with ⟨hnil, -⟩ | ⟨init, c, heq, rfl⟩
  · rw [hi] at hnil
    simp at hnil
  · rw [hi] at heq
    have hc : stopItem d s ls t' = .ok c := by
      have := congrArg List.getLast? heq
      simpa using this
    unfold stopItem at hc
    split at hc
    · cases hc
    · rename_i h1
      split at hc
      · cases hc
      · rename_i h2
        split at hc
        · cases hc
        · cases hc
          refine ⟨⟨ls, hp⟩, ?_⟩
          rcases hs with hs | hs | hs
          · exact absurd hs h1
          · exact absurd hs h2
          · exact hs

/-- A free slot of the directory. -/
theorem scan_slot (hw : Wf d s) {last : Location} (h : scanFree (chainItems d start) last = .ok (.inl e)) :
    ∃ p, e.position = some p ∧ p ∈ sectorSlots p.location ∧ LeadsTo d s start p.location ∧ slotFree d s p = true := by
  obtain ⟨c, hc, hsc⟩ := scanFree_inl h
  obtain ⟨hv, m, hm⟩ := chainItems_item hw hc
  have hfree : e.attributes.isScratched = true := by
    clear hm hc h
    have : ∀ (cs : List (List Byte)) (k : Nat), scanChunks c.location k cs = .ok (some e) → e.attributes.isScratched = true := by
      intro cs
      induction cs with
      | nil => intro k h; cases h
      | cons x cs ih =>
        intro k h
        unfold scanChunks at h
        obtain ⟨entry, he, h⟩ := res_bind_eq_ok.1 h
        split at h
        · rename_i hs; cases h; exact hs
        · exact ih _ h
    exact this _ _ hsc
  obtain ⟨chunk, i, hmem, h1, rfl⟩ := scanChunks_some (k := 0) hsc
  obtain ⟨hle, hch⟩ := mem_chunks hmem h1
  have hlen : 32 * i + 32 ≤ 256 := by
    rw [hm, List.length_take, hw.blk_length hv] at hle
    omega
  refine ⟨_, rfl, ?_, item_path hw hc, ?_⟩
  · exact List.mem_map.2 ⟨i, List.mem_range.2 (by omega), rfl⟩
  · unfold slotFree
    rw [slotData_at d s c.location (k := i) (by omega)]
    have : chunk = slice (d.blk s c.location) (32 * i) 32 := by
      rw [hch, hm]
      rw [hm, List.length_take] at hle
      unfold slice
      rw [List.drop_take, List.take_take, Nat.min_eq_left (by omega)]
    rw [← this, ← scratched_iff]
    exact hfree

/-! ## Disks -/

/-- What a call does to a disk: only the bytes of `A` change, and only sectors of `R` are newly marked as free. -/
structure Touch (s : Shape) (A : Location → Nat → Prop) (R : Nat → Location → Prop) (x y : Disk) : Prop where
  only : ChangesOnly s A x.dev y.dev
  free : ∀ r b' l, y.cells[r]? = some b' → isFree b' l = true →
    (∃ b, x.cells[r]? = some b ∧ isFree b l = true) ∨ R r l

theorem touch_cells (h : ChangesOnly s A disk.dev disk'.dev) (hc : disk'.cells = disk.cells) :
    Touch s A R disk disk' :=
  ⟨h, fun r b' l hb hf => .inl ⟨b', by rw [← hc]; exact hb, hf⟩⟩

theorem touch_refl (disk : Disk) : Touch s A R disk disk := touch_cells (changesOnly_refl _) rfl

theorem touch_withSt {r : Nat} {b : Bam} {st : St} (hc : disk.cells[r]? = some b)
    (h : Framed s A G disk.dev st) (hG : ∀ l, G l → isFree b l = true ∨ R r l) :
    Touch s A R disk (disk.withSt r st) := by
  refine ⟨h.only, fun r' b' l hb hf => ?_⟩
  replace hb : (disk.cells.set r st.bam)[r']? = some b' := hb
  rw [List.getElem?_set] at hb
  split at hb
  · rename_i heq
    subst heq
    split at hb
    · cases hb
      rcases hG l (h.free l hf) with h | h
      · exact .inl ⟨b, hc, h⟩
      · exact .inr h
    · cases hb
  · exact .inl ⟨b', hb, hf⟩

/-- The start. -/
theorem framed_start {b : Bam} (hw : Wf disk.dev s) (hb : BamSize b s.type) (hG : ∀ l, isFree b l = true → G l) :
    Framed s A G disk.dev ⟨disk.dev, b⟩ := ⟨hw, hb, changesOnly_refl _, hG⟩

theorem standing_start {f : DiskFormat} (h : Standing disk s) (hf : disk.format = some f) :
    f.firstDirectoryLocation = firstDirectory s.type := by
  obtain ⟨g, rfl⟩ := h.format f hf
  exact firstDirectory_format s.type

/-- Looking for a free slot. -/
theorem nextFree_framed {r : Nat} {b : Bam} (h : Standing disk s) (hr : disk.bam = some r)
    (hc : disk.cells[r]? = some b) :
    ∃ st, (Disk.nextFreeDirectoryEntry disk).2 = disk.withSt r st ∧
      Framed s (NewEntry disk s) (fun l => isFree b l = true) disk.dev st ∧
      ∀ e, (Disk.nextFreeDirectoryEntry disk).1 = .ok e →
        ∀ p l j, e.position = some p → Field p 2 30 l j → NewEntry disk s l j := by
  obtain ⟨b0, hb0, ho⟩ := h.bam r hr
  have : b0 = b := Option.some.inj (hb0.symm.trans hc)
  subst this
  have hbam : bamOf disk = some b0 := by unfold bamOf; rw [hr]; exact hc
  have h0 : Framed s (NewEntry disk s) (fun l => isFree b0 l = true) disk.dev ⟨disk.dev, b0⟩ :=
    framed_start h.wf ho.size fun _ h => h
  have hsame : ∀ q, Disk.nextFreeDirectoryEntry disk = (.error q, disk) →
      ∃ st, (Disk.nextFreeDirectoryEntry disk).2 = disk.withSt r st ∧
        Framed s (NewEntry disk s) (fun l => isFree b0 l = true) disk.dev st ∧
        ∀ e, (Disk.nextFreeDirectoryEntry disk).1 = .ok e →
          ∀ p l j, e.position = some p → Field p 2 30 l j → NewEntry disk s l j := by
    intro q hq
    refine ⟨⟨disk.dev, b0⟩, ?_, h0, fun e he => ?_⟩
    · rw [hq, withSt_self hc]
    · rw [hq] at he; cases he
  cases hf : disk.format with
  | none =>
    refine hsame (.err .unformatted) ?_
    unfold Disk.nextFreeDirectoryEntry
    rw [M.bind_of_ok (m := M.get) (s := disk) (s' := disk) (a := disk) rfl]
    rw [M.bind_of_error (s' := disk) (e := .err .unformatted)
      (by rw [M.run_lift]; unfold Disk.diskFormat; rw [hf])]
  | some f =>
    have hrun : ∀ res, scanFree (chainItems disk.dev f.firstDirectoryLocation) f.firstDirectoryLocation = res →
        Disk.nextFreeDirectoryEntry disk = match res with
          | .error q => (.error q, disk)
          | .ok (.inl e) => (.ok e, disk)
          | .ok (.inr t) => Disk.withBam r (extendDirectory t) disk := by
      intro res hs
      unfold Disk.nextFreeDirectoryEntry
      rw [M.bind_of_ok (m := M.get) (s := disk) (s' := disk) (a := disk) rfl]
      rw [M.bind_of_ok (s' := disk) (a := f) (by rw [M.run_lift]; unfold Disk.diskFormat; rw [hf])]
      cases res with
      | error q => rw [M.bind_of_error (s' := disk) (e := q) (by rw [M.run_lift, hs])]
      | ok y =>
        rw [M.bind_of_ok (s' := disk) (a := y) (by rw [M.run_lift, hs])]
        cases y with
        | inl e => rfl
        | inr t =>
          show (_ >>= _ : M Disk _) disk = _
          rw [M.bind_of_ok (s' := disk) (a := r) (by rw [M.run_lift]; unfold Disk.bamRef; rw [hr])]
    have hstart := standing_start h hf
    cases hs : scanFree (chainItems disk.dev f.firstDirectoryLocation) f.firstDirectoryLocation with
    | error q => exact hsame q (hrun _ hs)
    | ok y =>
      have hn := hrun _ hs
      rw [hstart] at hs
      cases y with
      | inl e =>
        simp only at hn
        refine ⟨⟨disk.dev, b0⟩, ?_, h0, fun e' he p l j hp hj => ?_⟩
        · rw [hn, withSt_self hc]
        · rw [hn] at he
          cases he
          obtain ⟨p', g1, g2, g3, g4⟩ := scan_slot h.wf hs
          have : p' = p := Option.some.inj (g1.symm.trans hp)
          subst this
          have hl := hj.1
          subst hl
          exact .inr (.inr ⟨p', g2, g3, g4, hj⟩)
      | inr t =>
        simp only at hn
        obtain ⟨g1, g2⟩ := scan_tail h.wf hs
        have hext := kept_extend (s := s) (A := NewEntry disk s) (G := fun l => isFree b0 l = true) (d0 := disk.dev)
          (last := t) (fun l j hl => .inl ⟨b0, hbam, hl⟩) (fun j hj => .inr (.inl ⟨g1, g2, hj⟩)) ⟨disk.dev, b0⟩ h0
        rcases hx : extendDirectory t ⟨disk.dev, b0⟩ with ⟨res, st⟩
        rw [withBam_run hc hx] at hn
        rw [hx] at hext
        refine ⟨st, by rw [hn], ?_, fun e he p l j hp hj => ?_⟩
        · rcases hext with ⟨a, -, k, -⟩ | ⟨q, -, k, -⟩ <;> exact k
        · rw [hn] at he
          rcases hext with ⟨a, k1, -, p', k2, k3⟩ | ⟨q, k1, -⟩
          · have hea : e = a := Except.ok.inj (he.symm.trans k1)
            subst hea
            have : p' = p := Option.some.inj (k2.symm.trans hp)
            subst this
            have hl := hj.1
            subst hl
            exact .inl ⟨b0, hbam, k3⟩
          · exact absurd (he.symm.trans k1) (by nofun)

theorem nextFree_none (h : disk.bam = none) : (Disk.nextFreeDirectoryEntry disk).2 = disk := by
  unfold Disk.nextFreeDirectoryEntry
  rw [M.bind_of_ok (m := M.get) (s := disk) (s' := disk) (a := disk) rfl]
  cases hf : disk.diskFormat with
  | error q => rw [M.bind_of_error (s' := disk) (e := q) (by rw [M.run_lift])]
  | ok f =>
    rw [M.bind_of_ok (s' := disk) (a := f) (by rw [M.run_lift])]
    cases hs : scanFree (chainItems disk.dev f.firstDirectoryLocation) f.firstDirectoryLocation with
    | error q => rw [M.bind_of_error (s' := disk) (e := q) (by rw [M.run_lift])]
    | ok y =>
      rw [M.bind_of_ok (s' := disk) (a := y) (by rw [M.run_lift])]
      cases y with
      | inl e => rfl
      | inr t =>
        show ((_ >>= _ : M Disk _) disk).2 = _
        rw [M.bind_of_error (s' := disk) (e := .err .unformatted) (by rw [M.run_lift]; unfold Disk.bamRef; rw [h])]

theorem touch_nextFree (h : Standing disk s) :
    Touch s (NewEntry disk s) R disk (Disk.nextFreeDirectoryEntry disk).2 := by
  cases hr : disk.bam with
  | none => rw [nextFree_none hr]; exact touch_refl _
  | some r =>
    obtain ⟨b, hc, -⟩ := h.bam r hr
    obtain ⟨st, h1, h2, -⟩ := nextFree_framed h hr hc
    rw [h1]
    exact touch_withSt hc h2 fun l hl => .inl hl

/-- Creating a file. -/
theorem touch_create (h : Standing disk s) (name : Petscii) (type : FileType) (scheme : Scheme) :
    Touch s (NewEntry disk s) R disk (Disk.createFile name type scheme disk).2 := by
  unfold Disk.createFile
  split
  · exact touch_refl _
  · cases h1 : checkFilenameValidity name with
    | error q => rw [M.bind_of_error (s' := disk) (e := q) (by rw [M.run_lift])]; exact touch_refl _
    | ok u =>
      rw [M.bind_of_ok (s' := disk) (a := u) (by rw [M.run_lift])]
      cases h2 : disk.checkFilenameAvailability name with
      | error q => rw [M.bind_of_error (s' := disk) (e := q) (by rw [M.run_read, h2])]; exact touch_refl _
      | ok u =>
        rw [M.bind_of_ok (s' := disk) (a := u) (by rw [M.run_read, h2])]
        cases hr : disk.bam with
        | none =>
          have hn := nextFree_none hr
          rcases hnf : Disk.nextFreeDirectoryEntry disk with ⟨res, disk1⟩
          rw [hnf] at hn
          have hn : disk1 = disk := hn
          subst hn
          cases res with
          | error q => rw [M.bind_of_error hnf]; exact touch_refl _
          | ok slot =>
            rw [M.bind_of_ok hnf]
            rw [M.bind_of_error (s' := disk1) (e := .err .unformatted)
              (by rw [M.run_read]; unfold Disk.bamRef; rw [hr])]
            exact touch_refl _
        | some r =>
          obtain ⟨b, hc, -⟩ := h.bam r hr
          obtain ⟨st, g1, g2, g3⟩ := nextFree_framed h hr hc
          have hbam : bamOf disk = some b := by unfold bamOf; rw [hr]; exact hc
          rcases hnf : Disk.nextFreeDirectoryEntry disk with ⟨res, disk1⟩
          rw [hnf] at g1 g3
          have g1 : disk1 = disk.withSt r st := g1
          subst g1
          have hlt := (List.getElem?_eq_some_iff.1 hc).1
          cases res with
          | error q => rw [M.bind_of_error hnf]; exact touch_withSt hc g2 fun l hl => .inl hl
          | ok slot =>
            rw [M.bind_of_ok hnf]
            have hr1 : (disk.withSt r st).bam = some r := hr
            rw [M.bind_of_ok (s' := disk.withSt r st) (a := r) (by rw [M.run_read]; unfold Disk.bamRef; rw [hr1])]
            have hc1 : (disk.withSt r st).cells[r]? = some st.bam := List.getElem?_set_self hlt
            have g4 : Framed s (NewEntry disk s) (fun l => isFree b l = true) disk.dev
                (createIn slot name type st).2 :=
              (kept_createIn (fun l j hl => .inl ⟨b, hbam, hl⟩) (g3 slot rfl)).state g2
            rcases hcr : createIn slot name type st with ⟨res2, st2⟩
            rw [hcr] at g4
            have hrun := withBam_run (r := r) (disk := disk.withSt r st) (m := createIn slot name type) hc1 hcr
            have hst : (disk.withSt r st).withSt r st2 = disk.withSt r st2 := by
              unfold Disk.withSt
              simp
            rw [hst] at hrun
            have goal : Touch s (NewEntry disk s) R disk (disk.withSt r st2) := touch_withSt hc g4 fun l hl => .inl hl
            cases res2 with
            | error q => rw [M.bind_of_error hrun]; exact goal
            | ok e =>
              rw [M.bind_of_ok hrun]
              have hr2 : (disk.withSt r st2).bam = some r := hr
              rw [M.bind_of_ok (s' := disk.withSt r st2) (a := r) (by rw [M.run_read]; unfold Disk.bamRef; rw [hr2])]
              exact goal

/-! ## Maps -/

theorem touch_setBam (new : Option Bam) (hR : ∀ b r l, new = some b → isFree b l = true → R r l) :
    Touch s A R disk (disk.setBam new) := by
  refine ⟨by rw [setBam_dev]; exact changesOnly_refl _, fun r b' l hb hf => ?_⟩
  unfold Disk.setBam at hb
  cases new with
  | some b =>
    cases hd : disk.bam with
    | some ref =>
      rw [hd] at hb
      replace hb : (disk.cells.set ref b)[r]? = some b' := hb
      rw [List.getElem?_set] at hb
      split at hb
      · split at hb
        · cases hb; exact .inr (hR b' r l rfl hf)
        · cases hb
      · exact .inl ⟨b', hb, hf⟩
    | none =>
      rw [hd] at hb
      replace hb : (disk.cells ++ [b])[r]? = some b' := hb
      rw [List.getElem?_append] at hb
      split at hb
      · exact .inl ⟨b', hb, hf⟩
      · have : b' = b := by
          rw [List.getElem?_singleton] at hb
          split at hb
          · exact (Option.some.inj hb).symm
          · cases hb
        subst this
        exact .inr (hR b' r l rfl hf)
  | none =>
    cases hd : disk.bam with
    | some ref =>
      rw [hd] at hb
      simp only at hb
      split at hb
      · rename_i b hc
        rw [List.getElem?_set] at hb
        split at hb
        · rename_i heq
          subst heq
          split at hb
          · cases hb
            exact .inl ⟨b, hc, hf⟩
          · cases hb
        · exact .inl ⟨b', hb, hf⟩
      · exact .inl ⟨b', hb, hf⟩
    | none =>
      rw [hd] at hb
      exact .inl ⟨b', hb, hf⟩

theorem touch_init (h : Standing disk s)
    (hR : ∀ b r l, Bam.read disk.dev s.type.format = .ok b → isFree b l = true → R r l) :
    Touch s A R disk (M.update Disk.initialize disk).2 := by
  cases hi : Disk.initialize disk with
  | error q => rw [M.update_error hi]; exact touch_refl _
  | ok disk' =>
    rw [M.update_ok hi]
    unfold Disk.initialize at hi
    obtain ⟨header, -, hi⟩ := res_bind_eq_ok.1 hi
    cases header with
    | none =>
      cases hi
      have := touch_setBam (s := s) (A := A) (R := R) (disk := disk) none fun b r l hb => by cases hb
      exact ⟨this.only, this.free⟩
    | some hd =>
      simp only at hi
      obtain ⟨bam, hb, hi⟩ := res_bind_eq_ok.1 hi
      cases hi
      have := touch_setBam (s := s) (A := A) (R := R) (disk := disk)
        (bam.map fun b => { b with format := formatFor disk.native hd }) fun b r l hb' hf => by
          cases bam with
          | none => cases hb'
          | some b0 =>
            cases hb'
            refine hR b0 r l ?_ hf
            rw [h.native] at hb
            unfold okOpt at hb
            split at hb
            · rename_i a heq
              cases hb
              exact heq
            · cases hb
            · cases hb
      exact ⟨this.only, this.free⟩

theorem onDev_state {m : M Device α} : (Disk.onDev m disk).2 = { disk with dev := (m disk.dev).2 } := by
  unfold Disk.onDev
  rw [M.run_zoom]

theorem changesOnly_update {f : Device → Res Device} {d : Device}
    (h : ∀ d', f d = .ok d' → ChangesOnly s A d d') : ChangesOnly s A d (M.update f d).2 := by
  cases hf : f d with
  | ok d' => rw [M.update_ok hf]; exact h d' hf
  | error q => rw [M.update_error hf]; exact changesOnly_refl _

theorem headerWrite_changes (hw : Wf d s) (hd : Header) :
    ChangesOnly s (headerArea s.type) d (Header.write hd s.type.format.header d).2 := by
  by_cases hwr : Writable d
  · by_cases hn : hd.diskName.length ≤ 16
    · obtain ⟨new, h1, h2, h3, -, h4⟩ := headerWrite_ok (hd := hd) hw hwr hn
      rw [h1]
      exact changesOnly_put hw h3 h2 fun j _ hj => h4 j hj
    · unfold Header.write
      rw [M.bind_of_ok (s := d) (s' := d) (a := d.blk s s.type.format.header.location)
        (by rw [M.run_read, hw.sector (header_valid s hw.shape)])]
      have : hd.render s.type.format.header (d.blk s s.type.format.header.location) = fail .filenameTooLong := by
        unfold Header.render writeBytesWithPadding
        simp only
        split
        · rfl
        · rename_i hx
          split at hx
          · cases hx
          · rename_i hlt
            exact absurd (Nat.le_of_not_lt hlt) hn
      rw [M.bind_of_error (s := d) (s' := d) (e := .err .filenameTooLong) (by rw [M.run_lift, this])]
      exact changesOnly_refl _
  · have := keep_headerWrite (R := ReadOnlySame) hd s.type.format.header d (Classical.not_not.1 hwr)
    rw [show (Header.write hd s.type.format.header d).2 = d from this]
    exact changesOnly_refl _

theorem flushHeader_changes (h : Standing disk s) :
    Touch s (headerArea s.type) R disk (Disk.flushHeader disk).2 := by
  unfold Disk.flushHeader
  cases hh : disk.getHeader with
  | error q => rw [M.bind_of_error (s' := disk) (e := q) (by rw [M.run_read, hh])]; exact touch_refl _
  | ok hd =>
    rw [M.bind_of_ok (s' := disk) (a := hd) (by rw [M.run_read, hh])]
    rw [M.bind_of_ok (m := M.get) (s := disk) (s' := disk) (a := disk) rfl, onDev_state, h.native]
    exact touch_cells (headerWrite_changes h.wf hd) rfl

theorem rename_changes (h : Standing disk s) (a b : Petscii) :
    Touch s (fun l j => ∃ e p, disk.findDirectoryEntry a = .ok e ∧ e.position = some p ∧ Field p 5 16 l j) R disk
      (Disk.rename a b disk).2 := by
  unfold Disk.rename
  cases he : disk.findDirectoryEntry a with
  | error q => rw [M.bind_of_error (s' := disk) (e := q) (by rw [M.run_read, he])]; exact touch_refl _
  | ok e =>
    rw [M.bind_of_ok (s' := disk) (a := e) (by rw [M.run_read, he])]
    cases h1 : checkFilenameValidity b with
    | error q => rw [M.bind_of_error (s' := disk) (e := q) (by rw [M.run_lift])]; exact touch_refl _
    | ok u =>
      rw [M.bind_of_ok (s' := disk) (a := u) (by rw [M.run_lift])]
      cases h2 : disk.checkFilenameAvailability b with
      | error q => rw [M.bind_of_error (s' := disk) (e := q) (by rw [M.run_read, h2])]; exact touch_refl _
      | ok u =>
        rw [M.bind_of_ok (s' := disk) (a := u) (by rw [M.run_read, h2])]
        unfold Disk.writeDirectoryEntry
        rw [onDev_state]
        refine touch_cells (changesOnly_update fun d' hd => ?_) rfl
        obtain ⟨q, hq, hs⟩ := item_slot h.wf (mem_of_find he).1
        obtain ⟨border, heq⟩ := hs.entry
        obtain ⟨p2, out, k1, k2, k3, k4, k5, rfl⟩ := writeEntry_inv h.wf hd
        have : q = p2 := Option.some.inj (hq.symm.trans k1)
        subst this
        refine changesOnly_slot h.wf k2 k3 k5 fun i hi ha => ?_
        rw [heq] at k4
        rcases Nat.lt_or_ge i 5 with hlt | hge
        · exact rewrite_name k4 (.inl hlt)
        · rcases Nat.lt_or_ge i 21 with hlt | hge'
          · exact absurd ⟨e, q, rfl, hq, rfl, by omega, by omega⟩ ha
          · exact rewrite_name k4 (.inr hge')

end Cbm
