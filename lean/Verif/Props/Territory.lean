import Verif.Lemmas.Fence
import Verif.Props.Footprint
/-!
# C86: what a program does with its own files does not reach the rest of the disk

A program claims the free sectors and slots, and the sectors and slots of the files that it opens
(`Spec.Territory`).  Whatever it does with these files and with new ones, in any order and also
wrongly, the other bytes of the disk stay as they are.
-/

namespace Cbm
open Spec

variable {s : Shape} {disk : Disk} {x : Session} {t : Territory}

/-- Where the chains of a file start. -/
def Root (f : File) (l : Location) : Prop :=
  l = f.entry.firstSector ∨
  ∃ g records, (f = .geosSequential g ∨ f = .geosVLIR g) ∧ g.vlir = some records ∧ some l ∈ records

/-- The sectors at which the program can go into chains. -/
def Roots (x : Session) (l : Location) : Prop :=
  (∃ f ∈ x.files, Root f.1 l) ∨ ∃ w ∈ x.writers, l = w.1.location

/-- The directory at the start. -/
def startZone (t : Territory) (disk : Disk) (s : Shape) : Zone s t.sectors where
  has := LeadsTo disk.dev s (firstDirectory s.type)
  ends l n := LeadsTo disk.dev s (firstDirectory s.type) l ∧ s.Valid l ∧ ¬ t.sectors l ∧
    byteAt (disk.dev.blk s l) 0 = 0 ∧ byteAt (disk.dev.blk s l) 1 = n
  inside _ _ h := h.1
  apart _ _ h := h.2.2.1
  valid _ _ h := h.2.1

/-- The slot of the entry can be changed. -/
def SlotIn (t : Territory) (disk : Disk) (s : Shape) (e : DirectoryEntry) : Prop :=
  ∀ p, e.position = some p → ∀ l j, s.Valid l → Field p 2 30 l j → Changeable t disk s l j

/-- A handle within the territory. -/
structure FileIn (t : Territory) (disk : Disk) (s : Shape) (f : File) : Prop where
  slot : SlotIn t disk s f.entry
  side : ∀ g l, f = .relative g → l ∈ g.sideSectors → t.sectors l
  info : ∀ g x, (f = .geosSequential g ∨ f = .geosVLIR g) → g.entry.extra = .geos x → x.infoBlock ≠ ⟨0, 0⟩ →
    t.sectors x.infoBlock

/-- The program is within its territory. -/
structure Held (t : Territory) (disk : Disk) (s : Shape) (x : Session) : Prop where
  steady : Steady s x
  only : ChangesOnly s (Changeable t disk s) disk.dev x.disk.dev
  free : ∀ (r : Nat) b l, x.disk.cells[r]? = some b → isFree b l = true → t.sectors l
  files : ∀ f ∈ x.files, FileIn t disk s f.1
  writers : ∀ w ∈ x.writers, SlotIn t disk s w.1.entry
  shut : Enclosed x.disk.dev s t.sectors (startZone t disk s) (Roots x)

theorem hasSlot_changeable {p : Position} (h : t.HasSlot p) {l : Location} {j : Nat} (hj : Field p 2 30 l j) :
    Changeable t disk s l j := by
  rcases h with h | h
  · exact .inr (.inr (.inr (.inl ⟨p, h, hj⟩)))
  · exact .inl (hj.1 ▸ h)

theorem field_sub {p : Position} {o n o' n' : Nat} {l : Location} {j : Nat} (h : Field p o n l j) (h1 : o' ≤ o)
    (h2 : o + n ≤ o' + n') : Field p o' n' l j := by
  obtain ⟨g1, g2, g3⟩ := h
  exact ⟨g1, by omega, by omega⟩

theorem sectorSlots_offset {p : Position} {l : Location} (h : p ∈ sectorSlots l) :
    p.location = l ∧ p.size = 32 ∧ ∃ k, k < 8 ∧ p.offset.toNat = 32 * k ∧ p = ⟨l, UInt8.ofNat (32 * k), 32⟩ := by
  obtain ⟨k, hk, rfl⟩ := List.mem_map.1 h
  have := List.mem_range.1 hk
  refine ⟨rfl, rfl, k, this, ?_, rfl⟩
  show (UInt8.ofNat (32 * k)).toNat = _
  rw [UInt8.toNat_ofNat']
  omega

theorem changesOnly_valid {A A' : Location → Nat → Prop} {d d' : Device} (h : ChangesOnly s A d d')
    (hA : ∀ l j, s.Valid l → A l j → A' l j) : ChangesOnly s A' d d' := by
  obtain ⟨new, h1, h2⟩ := h
  refine ⟨new, h1, fun img hi => ?_⟩
  obtain ⟨g1, g2, g3⟩ := h2 img hi
  exact ⟨g1, fun l j hv hj hn => g2 l j hv hj fun ha => hn (hA l j hv ha), g3⟩

/-- What a new entry can change. -/
theorem newEntry_changeable (hc : Claimed t disk s) (h : Held t disk s x) {l : Location} {j : Nat} (hv : s.Valid l)
    (hn : NewEntry x.disk s l j) : Changeable t disk s l j := by
  obtain ⟨S, h1, h2, h3⟩ := h.shut
  have hwalk : ∀ l, LeadsTo x.disk.dev s (firstDirectory s.type) l →
      LeadsTo disk.dev s (firstDirectory s.type) l ∨ t.sectors l := fun l hl =>
    (h3.leadsDir (leads_refl _) hl).imp id (h2 l)
  rcases hn with ⟨b, hb, hf⟩ | ⟨hl, h0, hj⟩ | ⟨p, hp, hl, hf, hj⟩
  · unfold bamOf at hb
    cases hr : x.disk.bam with
    | none => rw [hr] at hb; cases hb
    | some r => rw [hr] at hb; exact .inl (h.free r b l hb hf)
  · rcases hwalk l hl with hd | hd
    · by_cases hs : t.sectors l
      · exact .inl hs
      · by_cases hz : byteAt (disk.dev.blk s l) 0 = 0
        · exact .inr (.inr (.inr (.inr ⟨hd, hz, hj⟩)))
        · exfalso
          refine hz ((same_byte h.only.last hv (by decide) ?_).symm.trans h0)
          rintro (g | g | g | ⟨p, -, g⟩ | ⟨-, g, -⟩)
          · exact hs g
          · exact (hc.system l 0 (.inr hd)).1 g
          · exact (hc.system l 0 (.inr hd)).2 g
          · have := g.2.1
            omega
          · exact hz g
    · exact .inl hd
  · rcases hwalk l hl with hd | hd
    · obtain ⟨q1, q2, k, q3, q4, q5⟩ := sectorSlots_offset hp
      by_cases hs : t.sectors l
      · exact .inl hs
      · refine .inr (.inr (.inr (.inl ⟨p, Classical.byContradiction fun hslot => ?_, hj⟩)))
        refine hslot (hc.slots l p hd hp ?_)
        have hbyte : ∀ d : Device, byteAt (slotData d s p) 2 = byteAt (d.blk s l) (32 * k + 2) := by
          intro d
          unfold slotData byteAt
          rw [q1, q4, List.getD_eq_getElem?_getD, List.getD_eq_getElem?_getD, getElem?_slice, if_pos (by decide)]
        unfold slotFree at hf ⊢
        rw [hbyte] at hf ⊢
        rw [same_byte h.only.last hv (by omega)] at hf
        · exact hf
        rintro (g | g | g | ⟨p', g0, g⟩ | ⟨-, -, g⟩)
        · exact hs g
        · exact (hc.system l _ (.inr hd)).1 g
        · exact (hc.system l _ (.inr hd)).2 g
        · obtain ⟨r1, r2, k', r3, r4, r5⟩ := sectorSlots_offset (hc.aligned p' g0)
          obtain ⟨e1, e2, e3⟩ := g
          have : k' = k := by omega
          subst this
          rw [← e1] at r5
          exact hslot (q5.trans r5.symm ▸ g0)
        · omega
    · exact .inl hd

theorem changeable_position {f : File} (h : FileIn t disk s f) {p : Position} (hp : f.entry.position = some p)
    {l : Location} {j : Nat} (hv : s.Valid l) (hj : Field p 2 30 l j) : Changeable t disk s l j :=
  h.slot p hp l j hv hj

/-- A call changes nothing outside of the territory. -/
theorem footprint_changeable (hc : Claimed t disk s) (h : Held t disk s x) {c : Call} (hw : Within t x s c)
    {l : Location} {j : Nat} (hv : s.Valid l) (hf : Footprint x s c l j) : Changeable t disk s l j := by
  obtain ⟨S, h1, h2, h3⟩ := h.shut
  have hflush : ∀ i : Nat, (bamArea s.type l j ∨ ∃ (w : ChainWriter) (r : Nat), x.writers[i]? = some (w, r) ∧ l = w.location) →
      Changeable t disk s l j := by
    rintro i (hf | ⟨w, r, hwr, rfl⟩)
    · exact .inr (.inl hf)
    · exact .inl (h2 _ (h1 _ (.inr ⟨_, List.mem_of_getElem? hwr, rfl⟩)))
  cases c with
  | init => exact hf.elim
  | format name id => exact hw.elim
  | setHeader hd => exact hf.elim
  | setFormat f => exact hf.elim
  | setBam b => exact hf.elim
  | flushHeader => exact .inr (.inr (.inl hf))
  | create name type scheme => exact newEntry_changeable hc h hv hf
  | openFile name => exact hf.elim
  | openEntry e => exact hf.elim
  | openWriter i => exact hf.elim
  | write i buf =>
    obtain ⟨w, r, hwr, hf⟩ := hf
    rcases hf with rfl | ⟨b, hb, hf⟩ | ⟨p, hp, hf⟩
    · exact .inl (h2 _ (h1 _ (.inr ⟨_, List.mem_of_getElem? hwr, rfl⟩)))
    · exact .inl (h.free r b l hb hf)
    · exact h.writers _ (List.mem_of_getElem? hwr) p hp l j hv (field_sub hf (by decide) (by decide))
  | flush i => exact hflush i hf
  | drop i => exact hflush i hf
  | delete i =>
    rcases hf with hf | ⟨f, r, p, hf, hp, hj⟩
    · exact .inr (.inl hf)
    · exact (h.files _ (List.mem_of_getElem? hf)).slot p hp l j hv hj
  | rename a b =>
    obtain ⟨e, p, he, hp, hj⟩ := hf
    exact hasSlot_changeable (hw e p he hp) (field_sub hj (by decide) (by decide))
  | nextFreeDirectoryEntry => exact newEntry_changeable hc h hv hf
  | writeDirectoryEntry e =>
    obtain ⟨p, hp, hj⟩ := hf
    exact hasSlot_changeable (hw p hp) hj
  | writeSector l' data => exact hw.elim
  | sectorMut l' data => exact hw.elim
  | bamAllocate r l' => exact hf.elim
  | bamFree r l' => exact hf.elim
  | bamFlush r => exact .inr (.inl hf)

/-- The sectors of an open file are in the territory. -/
theorem blockOf_sectors (hc : Claimed t disk s) (h : Held t disk s x) {f : File} {r : Nat} {l : Location}
    (hf : (f, r) ∈ x.files) (hb : BlockOf x.disk.dev s f l) : t.sectors l := by
  obtain ⟨S, h1, h2, h3⟩ := h.shut
  have hin := h.files _ hf
  rcases hb with hb | ⟨g, hg, hb⟩ | ⟨g, y, hg, hy, h0, rfl⟩ | ⟨g, records, start, d', hg, hv, hm, hd, hb⟩
  · exact h2 _ (h3.leads (h1 _ (.inl ⟨_, hf, .inl rfl⟩)) hb)
  · exact hin.side g l hg hb
  · exact hin.info g y hg hy h0
  · have h4 : Shut d' s (startZone t disk s) S := by
      refine h3.change (fun a m ha hn => .inl ?_) fun a n ha h0 => ?_
      · have ha : t.sectors a ∨ LeadsTo disk.dev s (firstDirectory s.type) a := ha.imp (h2 a) id
        exact same_next hd.last (hc.system a 0 ha).1 (hc.system a 1 ha).1 hn
      · have ha' : t.sectors a ∨ LeadsTo disk.dev s (firstDirectory s.type) a := .inr ha.1
        rw [same_byte hd.last ha.2.1 (by decide) (hc.system a 0 ha').1] at h0
        exact ⟨h0, same_byte hd.last ha.2.1 (by decide) (hc.system a 1 ha').1⟩
    exact h2 _ (h4.leads (h1 _ (.inl ⟨_, hf, .inr ⟨g, records, hg, hv, hm⟩⟩)) hb)

/-- A call frees nothing outside of the territory. -/
theorem released_sectors (hc : Claimed t disk s) (h : Held t disk s x) {c : Call} (hw : Within t x s c)
    {r : Nat} {l : Location} (hr : Released x s c r l) : t.sectors l := by
  cases c with
  | init =>
    obtain ⟨b, hb, hf⟩ := hr
    exact hw b hb l hf
  | format name id => exact hw.elim
  | setBam b =>
    cases b with
    | none => exact hr.elim
    | some b => exact hw.elim
  | delete i =>
    obtain ⟨f, hf, hb⟩ := hr
    exact blockOf_sectors hc h (List.mem_of_getElem? hf) hb
  | bamFree r' l' =>
    obtain ⟨-, rfl⟩ := hr
    exact hw
  | _ => exact hr.elim

/-- What is left to show about a call. -/
theorem Held.step (hc : Claimed t disk s) (h : Held t disk s x) {c : Call} (hp : Plain s c) (hw : Within t x s c)
    (hfiles : ∀ f ∈ (Session.step c x).2.files, f ∈ x.files ∨ FileIn t disk s f.1)
    (hwriters : ∀ w ∈ (Session.step c x).2.writers, w ∈ x.writers ∨ SlotIn t disk s w.1.entry)
    (hshut : Enclosed (Session.step c x).2.disk.dev s t.sectors (startZone t disk s)
      (Roots (Session.step c x).2)) : Held t disk s (Session.step c x).2 := by
  have ht := touch_step h.steady c
  refine ⟨(safe_call h.steady hp).1, h.only.trans (changesOnly_valid ht.only fun l j hv hf =>
    footprint_changeable hc h hw hv hf), fun r b l hb hf => ?_, fun f hf => ?_, fun w hwr => ?_, hshut⟩
  · rcases ht.free r b l hb hf with ⟨b', hb', hf'⟩ | hr
    · exact h.free r b' l hb' hf'
    · exact released_sectors hc h hw hr
  · exact (hfiles f hf).elim (h.files f) id
  · exact (hwriters w hwr).elim (h.writers w) id

theorem roots_same {x y : Session} (hf : y.files = x.files) (hw : y.writers = x.writers) (l : Location) :
    Roots y l → Roots x l := by
  unfold Roots
  rw [hf, hw]
  exact id

/-- A call that changes no links and opens nothing. -/
theorem Held.quiet (hc : Claimed t disk s) (h : Held t disk s x) {c : Call} (hp : Plain s c) (hw : Within t x s c)
    (hfiles : (Session.step c x).2.files = x.files) (hwriters : (Session.step c x).2.writers = x.writers)
    (hlinks : ∀ l j, (t.sectors l ∨ LeadsTo disk.dev s (firstDirectory s.type) l) → j < 2 → ¬ Footprint x s c l j) :
    Held t disk s (Session.step c x).2 := by
  refine h.step hc hp hw (by rw [hfiles]; exact fun f hf => .inl hf) (by rw [hwriters]; exact fun f hf => .inl hf) ?_
  exact (h.shut.mono (roots_same hfiles hwriters)).other (touch_step h.steady c).only hlinks

theorem step_disk {c : Call} {m : M Disk Unit} (hc : Session.step c = Session.onDisk m) :
    (Session.step c x).2.files = x.files ∧ (Session.step c x).2.writers = x.writers := by
  rw [hc, onDisk_state]
  exact ⟨rfl, rfl⟩

theorem opened_in {f : File} (h : t.HasFile x.disk.dev s f) : FileIn t disk s f :=
  ⟨fun p hp l j _ hj => hasSlot_changeable (h.1 p hp) hj,
    fun g l hg hl => h.2 l (.inr (.inl ⟨g, hg, hl⟩)), fun g x hg hx h0 =>
      h.2 _ (.inr (.inr (.inl ⟨g, x, hg, hx, h0, rfl⟩)))⟩

theorem root_blockOf {d : Device} {f : File} {start l : Location} (h : Root f start) (hl : LeadsTo d s start l) :
    BlockOf d s f l := by
  rcases h with rfl | ⟨g, records, hg, hv, hm⟩
  · exact .inl hl
  · exact .inr (.inr (.inr ⟨g, records, start, d, hg, hv, hm, changesOnly_refl _, hl⟩))

/-- Opening a file of the territory. -/
theorem held_open (hc : Claimed t disk s) (h : Held t disk s x) {c : Call} {r : Session → Res (File × Nat)}
    (hp : Plain s c) (hw : Within t x s c)
    (hs : Session.step c = (do
      let h ← M.read r
      M.modify fun s => { s with files := s.files ++ [h] }))
    (hf : ∀ f ref, r x = .ok (f, ref) → t.HasFile x.disk.dev s f) : Held t disk s (Session.step c x).2 := by
  cases hx : r x with
  | error q =>
    have hstep : Session.step c x = (.error q, x) := by
      rw [hs, M.bind_of_error (s' := x) (e := q) (by rw [M.run_read, hx])]
    rw [hstep]
    exact h
  | ok p =>
    have hstep : Session.step c x = (.ok (), { x with files := x.files ++ [p] }) := by
      rw [hs, M.bind_of_ok (s' := x) (a := p) (by rw [M.run_read, hx])]
      rfl
    have hfile := hf p.1 p.2 hx
    have key := h.step hc hp hw
    rw [hstep] at key ⊢
    refine key (fun f hf => ?_) (fun w hw => .inl hw) ?_
    · rcases List.mem_append.1 hf with hf | hf
      · exact .inl hf
      · rw [List.mem_singleton.1 hf]
        exact .inr (opened_in hfile)
    · obtain ⟨S, h1, h2, h3⟩ := h.shut
      refine ⟨fun l => S l ∨ ∃ start, Root p.1 start ∧ LeadsTo x.disk.dev s start l, ?_, ?_, ?_, ?_, h3.tail⟩
      · rintro l (⟨f, hf, hl⟩ | ⟨w, hw, hl⟩)
        · rcases List.mem_append.1 hf with hf | hf
          · exact .inl (h1 l (.inl ⟨f, hf, hl⟩))
          · rw [List.mem_singleton.1 hf] at hl
            exact .inr ⟨l, hl, leads_refl _⟩
        · exact .inl (h1 l (.inr ⟨w, hw, hl⟩))
      · rintro l (hl | ⟨start, hr, hl⟩)
        · exact h2 l hl
        · exact hfile.2 l (root_blockOf hr hl)
      · rintro l m (hl | ⟨start, hr, hl⟩) hn
        · exact .inl (h3.data l m hl hn)
        · exact .inr ⟨start, hr, leads_next hl hn⟩
      · intro l m hl hn
        exact (h3.dir l m hl hn).imp id .inl

/-- The state that the program and one of its maps are in. -/
theorem Held.fence (h : Held t disk s x) {r : Nat} {b : Bam} (hb : x.disk.cells[r]? = some b) :
    Fence s t.sectors (startZone t disk s) (Roots x) ⟨x.disk.dev, b⟩ :=
  ⟨h.steady.standing.wf, h.steady.cells b (List.mem_of_getElem? hb), fun l hl => h.free r b l hb hl, h.shut⟩

/-- A call through a writer. -/
theorem held_onWriter {α : Type} (h : Held t disk s x) {i : Nat} {m : M WSt α}
    (hm : ∀ H : Location → Prop, Kept (WFence s t.sectors (startZone t disk s) H) m)
    (hpos : ∀ w b p, WriterOk s w → BamSize b s.type → w.entry.position = some p →
      (m ⟨w, x.disk.dev, b⟩).2.w.entry.position = some p) :
    (Session.onWriter i m x).2.files = x.files ∧
    (∀ w ∈ (Session.onWriter i m x).2.writers, w ∈ x.writers ∨ SlotIn t disk s w.1.entry) ∧
    Enclosed (Session.onWriter i m x).2.disk.dev s t.sectors (startZone t disk s)
      (Roots (Session.onWriter i m x).2) := by
  cases hw : x.writers[i]? with
  | none =>
    have : Session.onWriter i m x = (.error .panic, x) := by
      unfold Session.onWriter
      rw [hw]
    rw [this]
    exact ⟨rfl, fun w hw => .inl hw, h.shut⟩
  | some q =>
    obtain ⟨w, r⟩ := q
    have hmem := List.mem_of_getElem? hw
    obtain ⟨h1, h2⟩ := h.steady.writers _ hmem
    obtain ⟨b, hb, hs⟩ := h.steady.cell h2
    have key := (hm (Roots x)).state (x := (⟨w, x.disk.dev, b⟩ : WSt))
      ⟨(h.fence hb).mono fun l hl => hl.elim id fun e => .inr ⟨_, hmem, e⟩, h1⟩
    rw [onWriter_run hw hb (res := (m ⟨w, x.disk.dev, b⟩).1) (y := (m ⟨w, x.disk.dev, b⟩).2) rfl]
    refine ⟨rfl, fun w' hw' => ?_, Enclosed.mono key.st.shut fun l hl => ?_⟩
    · rcases List.mem_or_eq_of_mem_set hw' with hw' | rfl
      · exact .inl hw'
      · refine .inr fun p hp => ?_
        obtain ⟨p', hp', -⟩ := h1.entry.position
        have := hpos w b p' h1 hs.bam hp'
        rw [show (m ⟨w, x.disk.dev, b⟩).2.w.entry.position = some p from hp] at this
        cases this
        exact h.writers _ hmem p hp'
    · rcases hl with ⟨f, hf, hl⟩ | ⟨w', hw', hl⟩
      · exact .inl (.inl ⟨f, hf, hl⟩)
      · rcases List.mem_or_eq_of_mem_set hw' with hw' | rfl
        · exact .inl (.inr ⟨w', hw', hl⟩)
        · exact .inr hl

theorem Spec.Claimed.area (hc : Claimed t disk s) :
    ∀ l j, (t.sectors l ∨ LeadsTo disk.dev s (firstDirectory s.type) l) → ¬ bamArea s.type l j :=
  fun l j hl => (hc.system l j hl).1

theorem flush_position {w : ChainWriter} {b : Bam} {p : Position} (hst : Standing x.disk s) (h1 : WriterOk s w)
    (h2 : BamSize b s.type) (hp : w.entry.position = some p) :
    (ChainWriter.flush ⟨w, x.disk.dev, b⟩).2.w.entry.position = some p :=
  (Kept.state (wkept_flush (s := s) (A := fun _ _ => True) (d0 := x.disk.dev) (p := p)
    (G := fun l => isFree b l = true) fun l j hl => trivial)
    ⟨⟨hst.wf, h2, changesOnly_refl _, fun _ h => h⟩, h1, fun j => trivial, hp⟩).position

theorem write_position {w : ChainWriter} {b : Bam} {p : Position} (hst : Standing x.disk s) (h1 : WriterOk s w)
    (h2 : BamSize b s.type) (hp : w.entry.position = some p) (buf : List Byte) :
    (ChainWriter.write buf ⟨w, x.disk.dev, b⟩).2.w.entry.position = some p :=
  (Kept.state (wkept_write (s := s) (A := fun _ _ => True) (d0 := x.disk.dev) (p := p)
    (G := fun l => isFree b l = true) (fun l j hl => trivial) (fun l j hl => trivial) buf)
    ⟨⟨hst.wf, h2, changesOnly_refl _, fun _ h => h⟩, h1, fun j => trivial, hp⟩).position

/-- The handle after the file was deleted. -/
theorem delete_file (y : FSt) : (File.delete y).2.file = y.file ∨
    (File.delete y).2.file = y.file.setEntry y.file.entry.scratch := by
  unfold File.delete
  rw [M.bind_of_ok (m := M.get) (s := y) (s' := y) (a := y) rfl]
  rcases hr : y.file.freeBlocks y.st with ⟨r, st1⟩
  have hz : M.zoom FSt.st (fun s x => { x with st := s }) y.file.freeBlocks y = (r, ⟨y.file, st1⟩) := by
    rw [M.run_zoom, hr]
  cases r with
  | error q => rw [M.bind_of_error hz]; exact .inl rfl
  | ok u =>
    rw [M.bind_of_ok hz]
    right
    show ((M.zoom FSt.st (fun s x => { x with st := s })
      (St.updDev fun d => d.writeEntry y.file.entry.scratch))
        (⟨y.file.setEntry y.file.entry.scratch, st1⟩ : FSt)).2.file = _
    rw [M.run_zoom]

theorem scratch_in {f : File} (h : FileIn t disk s f) : FileIn t disk s (f.setEntry f.entry.scratch) := by
  cases f with
  | linear e => exact ⟨h.slot, fun g l hg => by (cases hg), fun g x hg => by rcases hg with hg | hg <;> cases hg⟩
  | relative g =>
    refine ⟨h.slot, fun g' l hg hl => ?_, fun g x hg => by rcases hg with hg | hg <;> cases hg⟩
    cases hg
    exact h.side g l rfl hl
  | geosSequential g =>
    refine ⟨h.slot, fun g l hg => by (cases hg), fun g' x hg hx => ?_⟩
    rcases hg with hg | hg
    · cases hg
      exact h.info g x (.inl rfl) hx
    · cases hg
  | geosVLIR g =>
    refine ⟨h.slot, fun g l hg => by (cases hg), fun g' x hg hx => ?_⟩
    rcases hg with hg | hg
    · cases hg
    · cases hg
      exact h.info g x (.inr rfl) hx

theorem scratch_root {f : File} {l : Location} (h : Root (f.setEntry f.entry.scratch) l) : Root f l := by
  cases f with
  | linear e =>
    rcases h with h | ⟨g, rs, hg | hg, -⟩
    · exact .inl h
    · cases hg
    · cases hg
  | relative g =>
    rcases h with h | ⟨g, rs, hg | hg, -⟩
    · exact .inl h
    · cases hg
    · cases hg
  | geosSequential g =>
    rcases h with h | ⟨g', rs, hg | hg, hv, hm⟩
    · exact .inl h
    · cases hg
      exact .inr ⟨g, rs, .inl rfl, hv, hm⟩
    · cases hg
  | geosVLIR g =>
    rcases h with h | ⟨g', rs, hg | hg, hv, hm⟩
    · exact .inl h
    · cases hg
    · cases hg
      exact .inr ⟨g, rs, .inr rfl, hv, hm⟩

/-- Every call within the territory keeps it. -/
theorem held_step (hc : Claimed t disk s) (h : Held t disk s x) {c : Call} (hp : Plain s c) (hw : Within t x s c) :
    Held t disk s (Session.step c x).2 := by
  have hst := h.steady.standing
  have hdisk : ∀ m : M Disk Unit, Session.step c = Session.onDisk m →
      (∀ l j, (t.sectors l ∨ LeadsTo disk.dev s (firstDirectory s.type) l) → j < 2 → ¬ Footprint x s c l j) →
      Held t disk s (Session.step c x).2 := fun m hm hl =>
    h.quiet hc hp hw (step_disk hm).1 (step_disk hm).2 hl
  cases c with
  | init => exact hdisk _ rfl fun l j _ _ h => h
  | format name id => exact hw.elim
  | setHeader hd => exact hdisk _ rfl fun l j _ _ h => h
  | setFormat f => exact hdisk _ rfl fun l j _ _ h => h
  | setBam b => exact hdisk _ rfl fun l j _ _ h => h
  | flushHeader => exact hdisk _ rfl fun l j hl _ => (hc.system l j hl).2
  | create name type scheme =>
    obtain ⟨g1, g2⟩ := create_fence hst name type scheme h.shut fun r b hb => h.fence hb
    rcases hcf : Disk.createFile name type scheme x.disk with ⟨res, disk'⟩
    rw [hcf] at g1 g2
    have key := h.step hc hp hw
    cases res with
    | ok p =>
      obtain ⟨e, ref⟩ := p
      have hstep : Session.step (.create name type scheme) x =
          (.ok (), { x with disk := disk', files := x.files ++ [(.linear e, ref)] }) := by
        show (_ >>= _ : M Session Unit) x = _
        rw [M.bind_of_ok (onDisk_run hcf)]
        rfl
      obtain ⟨k1, k2⟩ := g2 e ref rfl
      rw [hstep] at key ⊢
      refine key (fun f hf => ?_) (fun w hw => .inl hw) (k1.mono fun l hl => ?_)
      · rcases List.mem_append.1 hf with hf | hf
        · exact .inl hf
        · rw [List.mem_singleton.1 hf]
          exact .inr ⟨fun p hp l j hv hj => newEntry_changeable hc h hv (k2 p l j hp hj),
            fun g l hg => by (cases hg), fun g x hg => by rcases hg with hg | hg <;> cases hg⟩
      · rcases hl with ⟨f, hf, hl⟩ | ⟨w, hw, hl⟩
        · rcases List.mem_append.1 hf with hf | hf
          · exact .inl (.inl ⟨f, hf, hl⟩)
          · rw [List.mem_singleton.1 hf] at hl
            rcases hl with hl | ⟨g, rs, hg | hg, -⟩
            · exact .inr hl
            · cases hg
            · cases hg
        · exact .inl (.inr ⟨w, hw, hl⟩)
    | error q =>
      have hstep : Session.step (.create name type scheme) x = (.error q, { x with disk := disk' }) := by
        show (_ >>= _ : M Session Unit) x = _
        rw [M.bind_of_error (onDisk_run hcf)]
      rw [hstep] at key ⊢
      exact key (fun f hf => .inl hf) (fun w hw => .inl hw) g1
  | openFile name => exact held_open hc h hp hw (r := fun s => s.disk.openFile name) rfl hw
  | openEntry e => exact held_open hc h hp hw (r := fun s => s.disk.openFileFromEntry e) rfl hw
  | openWriter i =>
    have key := h.step hc hp hw
    cases hf : x.files[i]? with
    | none =>
      have hstep : Session.step (.openWriter i) x = (.error .panic, x) := by
        show (_ >>= _ : M Session Unit) x = _
        rw [M.bind_of_error (s' := x) (e := .panic) (by rw [M.run_read]; unfold indexRes; rw [hf])]
      rw [hstep]
      exact h
    | some p =>
      obtain ⟨f, ref⟩ := p
      have hmem := List.mem_of_getElem? hf
      have hstep : ∀ r, f.writer x.disk.dev = r → Session.step (.openWriter i) x = match r with
          | .ok w => (.ok (), { x with writers := x.writers ++ [(w, ref)] })
          | .error q => (.error q, x) := by
        intro r hr
        show (_ >>= _ : M Session Unit) x = _
        rw [M.bind_of_ok (s' := x) (a := (f, ref)) (by rw [M.run_read]; unfold indexRes; rw [hf])]
        cases r with
        | ok w =>
          show (_ >>= _ : M Session Unit) x = _
          rw [M.bind_of_ok (s' := x) (a := w) (by rw [M.run_read, hr])]
          rfl
        | error q =>
          show (_ >>= _ : M Session Unit) x = _
          rw [M.bind_of_error (s' := x) (e := q) (by rw [M.run_read, hr])]
      cases hwr : f.writer x.disk.dev with
      | error q => rw [hstep _ hwr]; exact h
      | ok w =>
        obtain ⟨k1, k2⟩ := writer_leads hst.wf hwr
        rw [hstep _ hwr] at key ⊢
        refine key (fun f hf => .inl hf) (fun w' hw' => ?_) ?_
        · rcases List.mem_append.1 hw' with hw' | hw'
          · exact .inl hw'
          · rw [List.mem_singleton.1 hw']
            refine .inr ?_
            show SlotIn t disk s w.entry
            rw [k2]
            exact (h.files _ hmem).slot
        · obtain ⟨S, h1, h2, h3⟩ := h.shut
          refine ⟨S, fun l hl => ?_, h2, h3⟩
          rcases hl with hl | ⟨w', hw', hl⟩
          · exact h1 l (.inl hl)
          · rcases List.mem_append.1 hw' with hw' | hw'
            · exact h1 l (.inr ⟨w', hw', hl⟩)
            · rw [List.mem_singleton.1 hw'] at hl
              rw [hl]
              exact h3.leads (h1 _ (.inl ⟨_, hmem, .inl rfl⟩)) k1
  | write i buf =>
    obtain ⟨g1, g2, g3⟩ := held_onWriter (i := i) h (m := ChainWriter.write buf) (fun H => fence_write buf)
      fun w b p k1 k2 k3 => write_position hst k1 k2 k3 buf
    have hstep : (Session.step (.write i buf) x).2 = (Session.onWriter i (ChainWriter.write buf) x).2 := by
      show ((_ >>= _ : M Session Unit) x).2 = _
      rcases hm : Session.onWriter i (ChainWriter.write buf) x with ⟨r, y⟩
      cases r with
      | ok a => rw [M.bind_of_ok hm]; rfl
      | error q => rw [M.bind_of_error hm]
    have key := h.step hc hp hw
    rw [hstep] at key ⊢
    exact key (by rw [g1]; exact fun f hf => .inl hf) g2 g3
  | flush i =>
    obtain ⟨g1, g2, g3⟩ := held_onWriter (i := i) h (m := ChainWriter.flush) (fun H => fence_flush hc.area)
      fun w b p k1 k2 k3 => flush_position hst k1 k2 k3
    exact h.step hc hp hw (by
      show ∀ f ∈ (Session.onWriter i ChainWriter.flush x).2.files, _
      rw [g1]; exact fun f hf => .inl hf) g2 g3
  | drop i =>
    obtain ⟨g1, g2, g3⟩ := held_onWriter (i := i) h (m := ChainWriter.flush) (fun H => fence_flush hc.area)
      fun w b p k1 k2 k3 => flush_position hst k1 k2 k3
    refine h.step hc hp hw (by
      show ∀ f ∈ (Session.onWriter i ChainWriter.flush x).2.files, _
      rw [g1]; exact fun f hf => .inl hf) (fun w hw => g2 w (List.mem_of_mem_eraseIdx hw)) (g3.mono fun l hl => ?_)
    rcases hl with hl | ⟨w, hw, hl⟩
    · exact .inl hl
    · exact .inr ⟨w, List.mem_of_mem_eraseIdx hw, hl⟩
  | delete i =>
    have ht := (touch_step h.steady (.delete i)).only
    have hlinks : ∀ l j, (t.sectors l ∨ LeadsTo disk.dev s (firstDirectory s.type) l) → j < 2 →
        ¬ Footprint x s (.delete i) l j := by
      rintro l j hl hj (hb | ⟨f, r, p, -, -, hb⟩)
      · exact hc.area l j hl hb
      · have := hb.2.1
        omega
    have key := h.step hc hp hw
    cases hf : x.files[i]? with
    | none =>
      have hstep : Session.step (.delete i) x = (.error .panic, x) := by
        show Session.onFile i File.delete x = _
        unfold Session.onFile
        rw [hf]
      rw [hstep]
      exact h
    | some q =>
      obtain ⟨f, r⟩ := q
      have hmem := List.mem_of_getElem? hf
      obtain ⟨h1, h2⟩ := h.steady.files _ hmem
      obtain ⟨b, hb, hs⟩ := h.steady.cell h2
      have hstep : Session.step (.delete i) x = ((File.delete ⟨f, x.disk.dev, b⟩).1, { x with
          disk := x.disk.withSt r (File.delete ⟨f, x.disk.dev, b⟩).2.st
          files := x.files.set i ((File.delete ⟨f, x.disk.dev, b⟩).2.file, r) }) :=
        onFile_run (m := File.delete) hf hb (res := (File.delete ⟨f, x.disk.dev, b⟩).1)
          (y := (File.delete ⟨f, x.disk.dev, b⟩).2) rfl
      have hshut := h.shut.other ht hlinks
      rw [hstep] at key hshut ⊢
      have hfile := delete_file ⟨f, x.disk.dev, b⟩
      refine key (fun f' hf' => ?_) (fun w hw => .inl hw) (hshut.mono fun l hl => ?_)
      · rcases List.mem_or_eq_of_mem_set hf' with hf' | rfl
        · exact .inl hf'
        · right
          show FileIn t disk s (File.delete ⟨f, x.disk.dev, b⟩).2.file
          rcases hfile with e | e <;> rw [e]
          · exact h.files _ hmem
          · exact scratch_in (h.files _ hmem)
      · rcases hl with ⟨f', hf', hl⟩ | hl
        · rcases List.mem_or_eq_of_mem_set hf' with hf' | rfl
          · exact .inl ⟨f', hf', hl⟩
          · refine .inl ⟨_, hmem, ?_⟩
            replace hl : Root (File.delete ⟨f, x.disk.dev, b⟩).2.file l := hl
            rcases hfile with e | e <;> rw [e] at hl
            · exact hl
            · exact scratch_root hl
        · exact .inr hl
  | rename a b =>
    refine hdisk _ rfl fun l j hl hj => ?_
    rintro ⟨e, p, -, -, hb⟩
    have := hb.2.1
    omega
  | nextFreeDirectoryEntry =>
    have hstep : (Session.step .nextFreeDirectoryEntry x).2 =
        { x with disk := (Disk.nextFreeDirectoryEntry x.disk).2 } := by
      show ((_ >>= _ : M Session Unit) x).2 = _
      rcases hnf : Disk.nextFreeDirectoryEntry x.disk with ⟨res, disk'⟩
      cases res with
      | ok e => rw [M.bind_of_ok (onDisk_run hnf)]; rfl
      | error q => rw [M.bind_of_error (onDisk_run hnf)]
    have key := h.step hc hp hw
    rw [hstep] at key ⊢
    refine key (fun f hf => .inl hf) (fun w hw => .inl hw) ?_
    show Enclosed (Disk.nextFreeDirectoryEntry x.disk).2.dev s _ _ (Roots x)
    cases hr : x.disk.bam with
    | none => rw [nextFree_none hr]; exact h.shut
    | some r =>
      obtain ⟨b, hb, -⟩ := hst.bam r hr
      obtain ⟨st, g1, g2⟩ := nextFree_fence hr hb (h.fence hb)
      rw [g1]
      exact g2.shut
  | writeDirectoryEntry e =>
    refine hdisk _ rfl fun l j hl hj => ?_
    rintro ⟨p, -, hb⟩
    have := hb.2.1
    omega
  | writeSector l' data => exact hw.elim
  | sectorMut l' data => exact hw.elim
  | bamAllocate r l' => exact hdisk _ rfl fun l j _ _ h => h
  | bamFree r l' => exact hdisk _ rfl fun l j _ _ h => h
  | bamFlush r => exact hdisk _ rfl fun l j hl _ => hc.area l j hl

theorem held_run (hc : Claimed t disk s) : ∀ (calls : List Call) {x : Session}, Held t disk s x →
    AllWithin t s x calls → Held t disk s (Session.run calls x)
  | [], _, h, _ => h
  | _ :: calls, _, h, hw => held_run hc calls (held_step hc h hw.1 hw.2.1) hw.2.2

theorem held_start (hs : Steady s ⟨disk, [], []⟩) (hc : Claimed t disk s) : Held t disk s ⟨disk, [], []⟩ := by
  refine ⟨hs, changesOnly_refl _, fun r b l hb hf => hc.free b (List.mem_of_getElem? hb) l hf,
    fun _ h => by (cases h), fun _ h => by (cases h), fun _ => False, ?_, fun l hl => hl.elim, fun l m hl => hl.elim,
    fun l m hl hn => .inl (leads_next hl hn), fun l n hl _ => hl.2.2.2.2⟩
  rintro l (⟨f, hf, -⟩ | ⟨w, hw, -⟩)
  · cases hf
  · cases hw

/-- **C86** Take an image with any bytes, and a program that claims some sectors and directory slots of it:
what is free, and the files that it means to work with.  Whatever calls it makes then on those files and on
new ones, in any order, also deleting files twice or writing through writers of deleted files, and whether or
not the calls succeed: no byte outside of the claim, the map and the header changes, except for the link at
the end of the directory when a sector is appended to it.  This is so after each sector write, thus also when
the program is stopped at any point; and no other sector is marked as free in a map. -/
theorem C86_stays_in_its_territory {ty : DiskType} {image : Image} (hnew : Disk.new ty image = .ok disk) :
    ∃ s : Shape, s.type = ty ∧ ∀ t, Claimed t disk s → ∀ calls, AllWithin t s ⟨disk, [], []⟩ calls → ∀ x,
      x = Session.run calls ⟨disk, [], []⟩ →
      ChangesOnly s (Changeable t disk s) disk.dev x.disk.dev ∧
      ∀ b ∈ x.disk.cells, ∀ l, isFree b l = true → t.sectors l := by
  obtain ⟨s, hty, hs⟩ := steady_new hnew
  refine ⟨s, hty, ?_⟩
  rintro t hc calls hw x rfl
  have h := held_run hc calls (held_start hs hc) hw
  refine ⟨h.only, fun b hb l hf => ?_⟩
  obtain ⟨r, hr⟩ := List.mem_iff_getElem?.1 hb
  exact h.free r b l hr hf

/-! Props/Bystander has programs that meet the hypotheses, and disks for them. -/

end Cbm
