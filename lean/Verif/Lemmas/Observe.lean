import Verif.Lemmas.Sim
import Verif.Props.Chain
import Verif.Spec.Observe
/-!
# What a program sees
-/

namespace Cbm
open Spec

variable {s : Shape} {v : Volume} {r : Nat} {b : Bam} {a a' : Store} {x x' : Session}
  {f : FileRec} {d : Device} {disk : Disk} {calls : List Call} {rs : List (Res Unit)}

/-- Runs of calls. -/
theorem simulation_run : ∀ (calls : List Call) {x : Session} {v : Volume} {b : Bam} {a a' : Store}
    {rs : List (Res Unit)}, Rep x s v r b a → Store.run calls a = some (rs, a') →
    ∃ x' v' b', runs calls x = (rs, x') ∧ Rep x' s v' r b' a'
  | [], x, v, b, a, a', rs, h, hs => by
    cases hs
    exact ⟨x, v, b, rfl, h⟩
  | c :: cs, x, v, b, a, a', rs, h, hs => by
    unfold Store.run at hs
    cases h1 : Store.step c a with
    | none => rw [h1] at hs; cases hs
    | some p =>
      obtain ⟨res, a₁⟩ := p
      rw [h1] at hs
      simp only [Option.bind_eq_bind, Option.bind_some] at hs
      cases h2 : Store.run cs a₁ with
      | none => rw [h2] at hs; cases hs
      | some q =>
        obtain ⟨rs', a₂⟩ := q
        rw [h2] at hs
        simp only [Option.bind_some, pure, Option.some.injEq, Prod.mk.injEq] at hs
        obtain ⟨rfl, rfl⟩ := hs
        obtain ⟨x₁, v₁, b₁, e1, r1⟩ := simulation h h1
        obtain ⟨x₂, v₂, b₂, e2, r2⟩ := simulation_run cs r1 h2
        refine ⟨x₂, v₂, b₂, ?_, r2⟩
        unfold runs
        rw [e1]
        simp only [e2]

theorem Store.run_append {cs ds : List Call} {a a₁ a₂ : Store} {rs ts : List (Res Unit)}
    (h1 : Store.run cs a = some (rs, a₁)) (h2 : Store.run ds a₁ = some (ts, a₂)) :
    Store.run (cs ++ ds) a = some (rs ++ ts, a₂) := by
  induction cs generalizing a rs with
  | nil => cases h1; simpa using h2
  | cons c cs ih =>
    rw [List.cons_append]
    unfold Store.run at h1 ⊢
    cases hs : Store.step c a with
    | none => rw [hs] at h1; cases h1
    | some p =>
      rw [hs] at h1
      simp only [Option.bind_eq_bind, Option.bind_some] at h1 ⊢
      cases hr : Store.run cs p.2 with
      | none => rw [hr] at h1; cases h1
      | some q =>
        rw [hr] at h1
        simp only [Option.bind_some, pure, Option.some.injEq, Prod.mk.injEq] at h1
        obtain ⟨rfl, rfl⟩ := h1
        rw [ih hr]
        simp

theorem runs_append (cs ds : List Call) (x : Session) :
    runs (cs ++ ds) x = ((runs cs x).1 ++ (runs ds (runs cs x).2).1, (runs ds (runs cs x).2).2) := by
  induction cs generalizing x with
  | nil => simp [runs]
  | cons c cs ih =>
    rw [List.cons_append]
    simp only [runs, ih, List.cons_append]

theorem runs_state (cs : List Call) (x : Session) : (runs cs x).2 = Session.run cs x := by
  induction cs generalizing x with
  | nil => rfl
  | cons c cs ih =>
    unfold runs Session.run
    exact ih _

/-- A store run within the contract, from a state that shows the store. -/
theorem rep_start (h : ReadyAt disk s v r b) (ht : NoSlack v) {saved : Bool}
    (hs : saved = true → BamSaved disk.dev s b) :
    Rep ⟨disk, [], []⟩ s v r b (storeOf s.type v saved) := by
  have hslot : ∀ (i : Nat) (f : FileRec) (g : StoredFile), v.slots[i]? = some (some f) →
      (storeOf s.type v saved).slots[i]? = some (some g) → g = ⟨f.name, f.attr, f.data⟩ := by
    intro i f g hf hg
    simp only [storeOf, List.getElem?_map, hf, Option.map_some, Option.some.injEq] at hg
    exact hg.symm
  refine ⟨h, rfl, rfl, ⟨by simp [storeOf], ?_⟩, ?_, rfl, ?_, rfl, ?_, List.nodup_nil, hs⟩
  · intro i y z hy hz
    simp only [storeOf, List.getElem?_map, hy, Option.map_some, Option.some.injEq] at hz
    subst hz
    cases y with
    | none => exact .none
    | some f =>
      refine .some ⟨rfl, rfl, ht f ?_, List.prefix_refl _⟩
      unfold Volume.files
      rw [List.mem_filterMap]
      exact ⟨some f, List.mem_of_getElem? hy, rfl⟩
  · intro i f g hf hg _
    rw [hslot i f g hf hg]
  · intro k i hk
    simp [storeOf] at hk
  · intro k i hk
    simp [storeOf] at hk

theorem Spec.Reaches.rep (h : Reaches x a) : ∃ s v r b, Rep x s v r b a := by
  obtain ⟨disk, s, v, r, b, saved, calls, rs, hr, ht, hs, hx, ha⟩ := h
  obtain ⟨x', v', b', e, hrep⟩ := simulation_run calls (rep_start hr ht hs) ha
  rw [hx] at e
  cases e
  exact ⟨s, v', r, b', hrep⟩

theorem Spec.Reaches.run (h : Reaches x a) (ha : Store.run calls a = some (rs, a')) :
    ∃ x', runs calls x = (rs, x') ∧ Reaches x' a' := by
  obtain ⟨s, v, r, b, hrep⟩ := h.rep
  obtain ⟨x', v', b', e, -⟩ := simulation_run calls hrep ha
  obtain ⟨disk, s, v, r, b, saved, calls', rs', hr, ht, hs, hx, ha'⟩ := h
  refine ⟨x', e, disk, s, v, r, b, saved, calls' ++ calls, rs' ++ rs, hr, ht, hs, ?_,
    Store.run_append ha' ha⟩
  rw [runs_append, hx]
  simp only [e]

/-- The relation without the handles and the writers. -/
structure Core (disk : Disk) (s : Shape) (v : Volume) (r : Nat) (b : Bam) (a : Store) : Prop where
  ready : ReadyAt disk s v r b
  type : a.type = s.type
  label : a.label = (v.header.diskName, v.header.diskId)
  slots : SlotsRep v.slots a.slots
  settled : ∀ (i : Nat) (f : FileRec) (g : StoredFile), v.slots[i]? = some (some f) →
    a.slots[i]? = some (some g) →
    (∀ w ∈ a.writers, w.slot = i → w.pending = false) → f.data = g.data

theorem Rep.core (h : Rep x s v r b a) : Core x.disk s v r b a :=
  ⟨h.ready, h.type, h.label, h.slots, h.settled⟩

theorem reads_chain {file : File} {e : DirectoryEntry} (hw : Wf d s)
    (he : file = .linear e) (hf : e.firstSector = f.first) (hc : IsChain d s f.locs f.data) :
    Reads d file f.data := by
  subst he
  have hh : f.locs.head? = some f.first := by
    cases hl : f.locs with
    | nil =>
      obtain ⟨_, _, _, init, t, ht, -⟩ := hc
      rw [hl] at ht
      simp at ht
    | cons a r => simp [FileRec.first, hl]
  have hcont := (C16_read_ok_iff hw f.first f.data).2 ⟨f.locs, hh, hc⟩
  refine ⟨by rw [← hf] at hcont; exact hcont, ChainReader.new e.firstSector, rfl,
    fun sizes hpos hlen => ?_⟩
  rw [hf]
  obtain ⟨rest, fin, n, hn, hf, _, hrl, hr, hcc⟩ := newReader_remaining hw f.first
  rw [hcont] at hcc
  have hfin : fin = none ∧ rest = f.data := by
    cases fin with
    | none => simp only [finish, Except.ok.injEq] at hcc; exact ⟨rfl, hcc.symm⟩
    | some e => cases hcc
  obtain ⟨rfl, rfl⟩ := hfin
  obtain ⟨r', h⟩ := readToEnd_spec hf sizes _ f.data n hn hr hpos hlen
  rw [h]; rfl

theorem read_some {i : Nat} {data : List Byte} (h : a.read i = some data) :
    ∃ g, a.slots[i]? = some (some g) ∧ g.data = data ∧
      ∀ w ∈ a.writers, w.slot = i → w.pending = false := by
  unfold Store.read at h
  cases hg : a.file? i with
  | none => rw [hg] at h; cases h
  | some g =>
    rw [hg] at h
    simp only at h
    split at h
    · cases h
    · rename_i hany
      refine ⟨g, file?_eq.1 hg, Option.some.inj h, fun w hw hs => ?_⟩
      cases hp : w.pending with
      | false => rfl
      | true =>
        exact absurd (List.any_eq_true.2 ⟨w, hw, by simp [hs, hp]⟩) hany

theorem SlotsRep.lines : ∀ {ys : List (Option FileRec)} {zs : List (Option StoredFile)},
    SlotsRep ys zs → (∀ y ∈ ys.filterMap id, y.blocks = y.locs.length) →
    (ys.filterMap id).map (fun f => (f.name, f.attr, f.blocks)) =
      (zs.filterMap id).map Store.line
  | [], [], _, _ => rfl
  | [], z :: zs, h, _ => by simp [SlotsRep] at h
  | y :: ys, [], h, _ => by simp [SlotsRep] at h
  | y :: ys, z :: zs, h, hx => by
    have h0 := h.2 0 y z rfl rfl
    have ht : SlotsRep ys zs := ⟨by simpa using h.1, fun i y z hy hz => h.2 (i + 1) y z hy hz⟩
    have ih := SlotsRep.lines ht (fun y hy => hx y (by
      rw [List.filterMap_cons]
      split
      · exact hy
      · exact List.mem_cons_of_mem _ hy))
    cases h0 with
    | none => simpa using ih
    | @some f g hf =>
      simp only [List.filterMap_cons, id_eq, List.map_cons, ih]
      congr 1
      simp only [Store.line]
      rw [hx f (by simp), hf.name, hf.attr, hf.blocks]

theorem listing_lines (v : Volume) :
    v.listing.map (fun e => (e.filename, e.attributes.toByte, e.fileSize)) =
      v.files.map fun f => (f.name, f.attr, f.blocks) := by
  rw [files_range]
  unfold Volume.listing
  rw [List.map_filterMap, List.map_filterMap]
  apply filterMap_congr_left
  intro i _
  cases v.slots[i]? with
  | none => rfl
  | some y =>
    cases y with
    | none => rfl
    | some f =>
      show some _ = some _
      simp only [FileRec.entry, attr_toByte_fromByte]

theorem find_none {name : List Byte} (h : a.find name = none) :
    ∀ g ∈ a.files, g.name ≠ name := by
  intro g hg
  unfold Store.files at hg
  obtain ⟨y, hy, e⟩ := List.mem_filterMap.1 hg
  obtain ⟨j, hj⟩ := List.mem_iff_getElem?.1 hy
  have e : y = some g := e
  subst e
  exact find_none_iff.1 h j g hj

/-- The answers to the queries that need no handle. -/
theorem Core.shows (h : Core disk s v r b a) : Shows ⟨disk, [], []⟩ { a with handles := [] } := by
  have hod := h.ready.mounted.onDisk
  have hdisk : ∀ name i data, a.find name = some i → a.read i = some data →
      ReadsName disk name data := by
    intro name i data hf hr
    obtain ⟨g, hg, hd, hset⟩ := read_some hr
    obtain ⟨f, hfv, hfg⟩ := h.slots.some_right hg
    obtain ⟨⟨g', hg', hn⟩, hno⟩ := find_some_iff.1 hf
    have : g' = g := by rw [hg] at hg'; simpa using hg'.symm
    subst this
    rcases find_ready h.ready name with ⟨j, fj, hj, hnj, hbefore, hent⟩ | ⟨hall, -⟩
    · have hij : j = i := by
        rcases Nat.lt_trichotomy j i with hlt | heq | hgt
        · obtain ⟨gj, hgj, hfgj⟩ := h.slots.some_left hj
          exact absurd (hfgj.name ▸ hnj) (hno j gj hlt hgj)
        · exact heq
        · exact absurd (hfg.name.trans hn) (hbefore i f hgt hfv)
      subst hij
      have : fj = f := by rw [hfv] at hj; simpa using hj.symm
      subst this
      refine ⟨.linear (fj.entry (slotPos v.dir j)), r, ?_, ?_⟩
      · unfold Disk.openFile
        rw [hent]
        exact openEntry_ready h.ready _
      · rw [← hd, ← h.settled j fj g' hfv hg hset]
        exact reads_chain hod.wf rfl rfl (hod.chains fj (mem_files.2 ⟨_, hfv⟩))
    · exact absurd (hfg.name.trans hn) (hall f (mem_files.2 ⟨_, hfv⟩))
  refine ⟨?_, ?_, ?_, ?_, ?_, hdisk, ?_, ?_⟩
  · show disk.name = some a.label.1
    unfold Disk.name
    rw [h.ready.header, h.label]; rfl
  · show disk.header.map Header.diskId = some a.label.2
    rw [h.ready.header, h.label]; rfl
  · refine ⟨v.listing, directory_ready h.ready, ?_⟩
    rw [listing_lines]
    exact h.slots.lines fun f hf => h.ready.exact f hf
  · show disk.blocksFree = .ok a.room
    have hroom : a.room = v.room s.type := by
      unfold Store.room Volume.room
      rw [h.type]
      have := h.slots.used
      unfold Store.used Volume.used Volume.files Store.files
      rw [this]
    rw [hroom, ← blocksFree_volume h.ready.mounted.recorded hod]
    unfold Disk.blocksFree
    unfold Disk.bamRef indexRes
    rw [h.ready.bam]
    simp only [res_bind_ok]
    rw [h.ready.cell]
    rfl
  · intro name hf
    have hall := find_none (a := a) hf
    show disk.openFile name = _
    unfold Disk.openFile
    rcases find_ready h.ready name with ⟨j, fj, hj, hnj, -, -⟩ | ⟨-, hent⟩
    · obtain ⟨gj, hgj, hfgj⟩ := h.slots.some_left hj
      exact absurd (hfgj.name ▸ hnj) (find_none_iff.1 hf j gj hgj)
    · rw [hent]; rfl
  · intro k i data hk
    simp at hk
  · exact validate_ready h.ready

theorem Rep.shows (h : Rep x s v r b a) : Shows x a := by
  have hc := h.core.shows
  refine ⟨hc.name, hc.id, hc.lists, hc.blocksFree, hc.absent, hc.reads, ?_, hc.valid⟩
  intro k i data hk hr
  obtain ⟨file, f, hx, hh⟩ := h.handles k i hk
  obtain ⟨g, hg, hd, hset⟩ := read_some hr
  obtain ⟨e, y, he, -, hfirst, -⟩ := hh.entry
  refine ⟨file, r, hx, ?_⟩
  rw [← hd, ← h.settled i f g hh.slot hg hset]
  exact reads_chain h.ready.mounted.onDisk.wf he hfirst
    (h.ready.mounted.onDisk.chains f (mem_files.2 ⟨_, hh.slot⟩))

end Cbm
