import Verif.Spec.Placement
import Verif.Props.RelativeNew
import Verif.Props.Crash
import Verif.Lemmas.Stale
/-!
# C77: where the blocks of a file lie
-/

namespace Cbm
open Spec

variable {d : Device} {s : Shape} {v v₁ : Volume} {st : St} {i k : Nat} {name : Petscii}
  {type : FileType} {disk disk' : Disk} {r : Nat} {b b' : Bam} {f : FileRec} {x x' : Session}
  {a a' : Store}

theorem freeNow_ready (h : ReadyAt disk s v r b) : freeNow disk = freeAt b := by
  funext t u
  unfold freeNow
  rw [h.bam]
  show (match disk.cells[r]? with | some b => freeAt b t u | none => false) = _
  rw [h.cell]

theorem lies_ready (h : ReadyAt disk s v r b) (hi : v.slots[i]? = some (some f))
    (hf : disk.findDirectoryEntry name = .ok (f.entry (slotPos v.dir i))) :
    LiesAt disk name f.locs := by
  refine ⟨_, r, openFile_ready h hf, ?_⟩
  have hc := h.mounted.onDisk.chains f (mem_files.2 ⟨_, hi⟩)
  obtain ⟨init, t, hl, -⟩ := hc.last
  refine chainLocations_chain h.mounted.onDisk.wf hc ?_
  show f.locs.head? = some f.first
  unfold FileRec.first
  rw [hl]
  cases init <;> rfl

theorem LiesAt.unique {ls ls' : List Location} (h : LiesAt disk name ls) (h' : LiesAt disk name ls') :
    ls = ls' := by
  obtain ⟨e, r, h1, h2⟩ := h
  obtain ⟨e', r', h1', h2'⟩ := h'
  rw [h1] at h1'
  cases h1'
  rw [h2] at h2'
  cases h2'
  rfl

/-- Where a file lies, by the volume. -/
theorem lies_iff (h : ReadyAt disk s v r b) {ls : List Location} : LiesAt disk name ls ↔
    ∃ (i : Nat) (f : FileRec), v.slots[i]? = some (some f) ∧ f.name = name ∧
      (∀ (j : Nat) (g : FileRec), j < i → v.slots[j]? = some (some g) → g.name ≠ name) ∧
      f.locs = ls := by
  rcases find_ready h name with ⟨i, f, hi, hn, hb, hf⟩ | ⟨hno, hf⟩
  · have hl := lies_ready h hi hf
    constructor
    · intro h'
      exact ⟨i, f, hi, hn, hb, LiesAt.unique hl h'⟩
    · rintro ⟨i', f', hi', hn', hb', rfl⟩
      have : i' = i := by
        rcases Nat.lt_trichotomy i' i with hlt | heq | hgt
        · exact absurd hn' (hb i' f' hlt hi')
        · exact heq
        · exact absurd hn (hb' i f hgt hi)
      subst this
      rw [hi] at hi'
      cases hi'
      exact hl
  · constructor
    · rintro ⟨e, r', ho, -⟩
      unfold Disk.openFile at ho
      rw [hf] at ho
      cases ho
    · rintro ⟨i, f, hi, hn, -⟩
      exact absurd hn (hno f (mem_files.2 ⟨i, hi⟩))

theorem find?_agree {α : Type _} {p q : α → Bool} {l : List α} (h : ∀ a ∈ l, p a = q a) :
    l.find? p = l.find? q := by
  induction l with
  | nil => rfl
  | cons a l ih =>
    rw [List.find?_cons, List.find?_cons, h a (by simp), ih fun x hx => h x (by simp [hx])]

theorem firstTracks_data : ∀ ty ∈ [DiskType.d64, .d71, .d81], ∀ t ∈ firstTracks ty,
    1 ≤ t ∧ t ≤ bamTracks ty ∧ t ≠ directoryTrack ty := by decide +kernel

/-- The choice of the first block does not look at the directory track. -/
theorem firstBlock_agree {ty : DiskType} {free free' : Nat → Nat → Bool}
    (h : ∀ t u, 1 ≤ t → t ≤ bamTracks ty → t ≠ directoryTrack ty → u < sectorsPerTrack ty t →
      free t u = free' t u) :
    firstBlock ty false free = firstBlock ty false free' := by
  unfold firstBlock
  simp only [Bool.false_eq_true, if_false]
  have hany : ∀ t ∈ firstTracks ty, anyFree ty free t = anyFree ty free' t := by
    intro t ht
    obtain ⟨h1, h2, h3⟩ := firstTracks_data ty (mem_diskTypes ty) t ht
    unfold anyFree
    rw [Bool.eq_iff_iff, List.any_eq_true, List.any_eq_true]
    constructor
    · rintro ⟨u, hu, hf⟩
      exact ⟨u, hu, (h t u h1 h2 h3 (List.mem_range.1 hu)) ▸ hf⟩
    · rintro ⟨u, hu, hf⟩
      exact ⟨u, hu, (h t u h1 h2 h3 (List.mem_range.1 hu)).symm ▸ hf⟩
  rw [find?_agree hany]
  cases hx : (firstTracks ty).find? fun t => anyFree ty free' t with
  | none => rfl
  | some t =>
    obtain ⟨h1, h2, h3⟩ := firstTracks_data ty (mem_diskTypes ty) t (List.mem_of_find?_eq_some hx)
    simp only [Option.bind_some]
    congr 1
    unfold sectorFrom
    apply find?_agree
    intro u hu
    obtain ⟨k, -, rfl⟩ := List.mem_map.1 hu
    have hge := sectorsPerTrack_ge ty t
    exact h t _ h1 h2 h3 (Nat.mod_lt _ (by omega))

theorem reserve_dir (h : Reserve s v v₁ i) (h0 : OnDisk d s v₁) {l : Location}
    (hl : l.track.toNat ≠ directoryTrack s.type) :
    v₁.Occupies s.type l ↔ v.Occupies s.type l := by
  have hu : v₁.used = v.used := by
    cases h with
    | free _ _ => rfl
    | fresh _ _ _ => simp [Volume.used, Volume.files, Volume.extend, List.filterMap_append]
  have hd : l ∉ v₁.dir := fun hm => hl (h0.dirTrack l hm).1
  have hd' : l ∉ v.dir := by
    cases h with
    | free _ _ => exact hd
    | fresh _ _ _ => exact fun hm => hd (List.mem_append_left _ hm)
  unfold Volume.Occupies
  rw [hu]
  simp only [hd, hd', false_or]

/-- The block a successful `create_file` takes. -/
theorem createFile_first (h : ReadyAt disk s v r b) {e : DirectoryEntry} {r' : Nat}
    (hrun : Disk.createFile name type .linear disk = (.ok (e, r'), disk')) :
    firstBlock s.type false (freeAt b) = some e.firstSector := by
  unfold Disk.createFile at hrun
  rw [if_neg (by simp)] at hrun
  have hv : checkFilenameValidity name = .ok () := by
    cases hq : checkFilenameValidity name with
    | ok => rfl
    | error e => rw [M.bind_of_error (s := disk) (s' := disk) (by rw [M.run_lift, hq])] at hrun; cases hrun
  rw [M.bind_of_ok (s := disk) (s' := disk) (a := ()) (by rw [M.run_lift, hv])] at hrun
  have ha : disk.checkFilenameAvailability name = .ok () := by
    cases hq : disk.checkFilenameAvailability name with
    | ok => rfl
    | error e => rw [M.bind_of_error (s := disk) (s' := disk) (by rw [M.run_read, hq])] at hrun; cases hrun
  rw [M.bind_of_ok (s := disk) (s' := disk) (a := ()) (by rw [M.run_read, ha])] at hrun
  rcases nextFreeDirectoryEntry_ready h with ⟨v₁, i, st, hres, hn, hm, hf, -, -, -⟩ | ⟨-, -, hn⟩
  · have h1 : ReadyAt (disk.withSt r st) s v₁ r st.bam :=
      h.update hm hf hres.header (hres.exact h.exact)
    rw [M.bind_of_ok hn, M.bind_of_ok (s := disk.withSt r st) (s' := disk.withSt r st) (a := r)
        (by rw [M.run_read]; unfold Disk.bamRef; rw [h1.bam])] at hrun
    cases hc : createIn (DirectoryEntry.parse32 (slotAt st.dev s v₁.dir i) (some (slotPos v₁.dir i)))
      name type st with
    | mk res st' =>
      cases res with
      | error y => rw [M.bind_of_error (withBam_run h1.cell hc)] at hrun; cases hrun
      | ok e' =>
      rw [M.bind_of_ok (withBam_run h1.cell hc), withSt_withSt,
        M.bind_of_ok (s := disk.withSt r st') (s' := disk.withSt r st') (a := r)
          (by rw [M.run_read]; unfold Disk.bamRef Disk.withSt; rw [h.bam])] at hrun
      have he : e' = e := congrArg Prod.fst (Except.ok.inj (congrArg Prod.fst hrun))
      subst he
      obtain ⟨first, hfirst, rfl⟩ := createIn_inv hc
      have hg : st.bam.format.geos = false := by rw [h1.bamFormat]; cases s.type <;> rfl
      have := C76_first hm.recorded.consistent
      rw [hfirst, hg] at this
      have hagree : firstBlock s.type false (freeAt b) = firstBlock s.type false (freeAt st.bam) := by
        apply firstBlock_agree
        intro t u h1 h2 h3 h4
        have hle := sectorsPerTrack_le s.type t
        obtain ⟨e1, e2⟩ := locOf_toNat (ty := s.type) (t := t) (s := u) h2 (by omega)
        have hv : ValidLoc s.type (bamTracks s.type) ⟨UInt8.ofNat t, UInt8.ofNat u⟩ := by
          unfold ValidLoc; simp only [e1, e2]; exact ⟨h1, h2, h4⟩
        have q1 := h.mounted.recorded.exact _ hv
        have q2 := hm.recorded.exact _ hv
        rw [reserve_dir hres hm.onDisk (by simp only [e1]; exact h3), ← q1] at q2
        unfold isFree at q2
        simp only [e1, e2] at q2
        cases h5 : freeAt b t u <;> cases h6 : freeAt st.bam t u <;> simp_all
      rw [hagree]
      cases hfb : firstBlock s.type false (freeAt st.bam) with
      | none => rw [hfb] at this; cases this
      | some l => rw [hfb] at this; cases this; rfl
  · rw [M.bind_of_error hn] at hrun
    cases hrun

/-- **C77** The block of a new file is the one the policy names for the first block of a
file. -/
theorem C77_create_partial (h : Reaches x a) (ht : type.toByte &&& 0x0F ≠ 4)
    (hpad : name.getLast? ≠ some 0xA0)
    (hrun : Session.step (.create name type .linear) x = (.ok (), x')) :
    ∃ l, firstBlock a.type false (freeNow x.disk) = some l ∧ LiesAt x'.disk name [l] := by
  obtain ⟨s, v, r, b, hrep⟩ := h.rep
  rw [freeNow_ready hrep.ready, hrep.type]
  simp only [Session.step] at hrun
  have ho := createFile_ready hrep.ready name type ht
  cases hq : Disk.createFile name type .linear x.disk with
  | mk res disk' =>
    rw [hq] at ho
    have fails : ∀ e, res = .error e → False := by
      rintro e rfl
      rw [M.bind_of_error (onDisk_run hq)] at hrun
      cases hrun
    cases ho with
    | tooLong => exact (fails _ rfl).elim
    | «exists» => exact (fails _ rfl).elim
    | dirFull => exact (fails _ rfl).elim
    | full => exact (fails _ rfl).elim
    | @created v₁ j st₁ st slot first hlen hno hres hr1 hsame hroom hdl hnu hp hr _ _ =>
      have hfirst := createFile_first hrep.ready hq
      rw [M.bind_of_ok (onDisk_run hq)] at hrun
      cases hrun
      refine ⟨first, hfirst, ?_⟩
      refine (lies_iff hr).2 ⟨j, _, set_slot (slot_lt hres.slot), storedName_plain hpad, ?_, rfl⟩
      intro k g hk hg
      rw [set_slot_ne (by omega)] at hg
      exact hno g (hres.files ▸ mem_files.2 ⟨k, hg⟩)

/-- **C77** A write that adds blocks to a file takes each of them as if it were the first
block of a file; no other file moves. -/
theorem C77_write_partial (h : Reaches x a) {y : StoreWriter} {g : StoredFile} {buf : List Byte}
    {res : Res Unit} {ls : List Location} (hk : a.writers[k]? = some y)
    (hg : a.file? y.slot = some g) (hn : a.find name = some y.slot) (hl : LiesAt x.disk name ls)
    (hrun : Session.step (.write k buf) x = (res, x')) :
    ∃ new, LiesAt x'.disk name (ls ++ new) ∧
      new = firstBlocks a.type false (freeNow x.disk) new.length ∧
      ls.length = blocksFor g.data.length ∧
      (ls ++ new).length =
        blocksFor (min (254 * (blocksFor g.data.length + a.room)) (g.data.length + buf.length)) ∧
      ∀ other ls', other ≠ name → (LiesAt x'.disk other ls' ↔ LiesAt x.disk other ls') := by
  obtain ⟨s, v, r, b, hrep⟩ := h.rep
  rw [freeNow_ready hrep.ready, hrep.type]
  have hg' : a.slots[y.slot]? = some (some g) := by
    unfold Store.file? at hg
    cases hq : a.slots[y.slot]? with
    | none => rw [hq] at hg; cases hg
    | some o => rw [hq] at hg; rw [show o = some g from hg]
  rcases hrep.find name with ⟨i, f, g', hi, hgi, hfg, hfind, hname, hf⟩ | ⟨hfind, -⟩
  case inr => rw [hn] at hfind; cases hfind
  rw [hn] at hfind
  cases hfind
  rw [hg'] at hgi
  cases hgi
  obtain ⟨x₁, f', b', hrun', hrep', hgr, -, hlaid⟩ := write_rep buf hrep hk hi hg'
  rw [hrun] at hrun'
  obtain ⟨-, rfl⟩ := Prod.mk.inj hrun'
  have hls : f.locs = ls := LiesAt.unique (lies_ready hrep.ready hi hf) hl
  have hlt := slot_lt hi
  obtain ⟨f₂, hf₂, hfg₂⟩ := hrep'.slots.some_right (i := y.slot)
    (g := { g with data := (g.data ++ buf).take (254 * (blocksFor g.data.length + a.room)) })
    (by
      show (a.slots.set y.slot _)[y.slot]? = _
      rw [List.getElem?_set_self (List.getElem?_eq_some_iff.1 hg').1])
  rw [set_slot hlt] at hf₂
  cases hf₂
  have hge := hgr.locs.length_le
  have hsplit : f.locs ++ f'.locs.drop f.locs.length = f'.locs := by
    obtain ⟨t, ht⟩ := hgr.locs
    rw [← ht, List.drop_left]
  refine ⟨f'.locs.drop f.locs.length, ?_, ?_, ?_, ?_, ?_⟩
  · rw [← hls, hsplit]
    refine (lies_iff hrep'.ready).2 ⟨y.slot, f', set_slot hlt, hgr.name.trans hname, ?_, rfl⟩
    intro j q hj hq
    rw [set_slot_ne (by omega)] at hq
    obtain ⟨q', hq', hqq⟩ := hrep.slots.some_left hq
    rw [hqq.name]
    exact (find_some_iff.1 hn).2 j q' hj hq'
  · rw [List.length_drop]
    have := congrArg (List.drop f.locs.length) hlaid
    rwa [List.drop_left] at this
  · rw [← hls, hfg.blocks]
  · rw [← hls, hsplit, hfg₂.blocks]
    show blocksFor (List.take _ _).length = _
    rw [List.length_take, List.length_append]
  · intro other ls' hne
    rw [lies_iff hrep'.ready, lies_iff hrep.ready]
    have hset : ∀ (j : Nat) (q : FileRec), (v.set y.slot (some f')).slots[j]? = some (some q) →
        ∃ q', v.slots[j]? = some (some q') ∧ q'.name = q.name := by
      intro j q hj
      by_cases hji : j = y.slot
      · subst hji
        rw [set_slot hlt] at hj
        cases hj
        exact ⟨f, hi, hgr.name.symm⟩
      · rw [set_slot_ne hji] at hj
        exact ⟨q, hj, rfl⟩
    have hget : ∀ (j : Nat) (q : FileRec), v.slots[j]? = some (some q) →
        ∃ q', (v.set y.slot (some f')).slots[j]? = some (some q') ∧ q'.name = q.name := by
      intro j q hj
      by_cases hji : j = y.slot
      · subst hji
        rw [hi] at hj
        cases hj
        exact ⟨f', set_slot hlt, hgr.name⟩
      · exact ⟨q, by rw [set_slot_ne hji]; exact hj, rfl⟩
    constructor
    · rintro ⟨j, q, hj, hq, hbefore, hlocs⟩
      have hji : j ≠ y.slot := by
        rintro rfl
        rw [set_slot hlt] at hj
        cases hj
        exact hne (hq.symm.trans (hgr.name.trans hname))
      rw [set_slot_ne hji] at hj
      refine ⟨j, q, hj, hq, ?_, hlocs⟩
      intro j' q' hj' hq'
      obtain ⟨q'', hq'', hqn⟩ := hget j' q' hq'
      rw [← hqn]
      exact hbefore j' q'' hj' hq''
    · rintro ⟨j, q, hj, hq, hbefore, hlocs⟩
      have hji : j ≠ y.slot := by
        rintro rfl
        rw [hi] at hj
        cases hj
        exact hne (hq.symm.trans hname)
      refine ⟨j, q, by rw [set_slot_ne hji]; exact hj, hq, ?_, hlocs⟩
      intro j' q' hj' hq'
      obtain ⟨q'', hq'', hqn⟩ := hset j' q' hq'
      rw [← hqn]
      exact hbefore j' q'' hj' hq''

/-! ## The interleave is not used -/

/-- The choice of the block after 17/0 does not look at the directory track. -/
theorem nextBlock_agree {ty : DiskType} (hty : ty ≠ .d81) {free free' : Nat → Nat → Bool}
    (h : ∀ t u, 1 ≤ t → t ≤ bamTracks ty → t ≠ directoryTrack ty → u < sectorsPerTrack ty t →
      free t u = free' t u) :
    nextBlock ty false free ⟨17, 0⟩ = nextBlock ty false free' ⟨17, 0⟩ := by
  have hdata : ∀ ty ∈ [DiskType.d64, .d71], ∀ x ∈ trackOrder ty false 17,
      1 ≤ x.1 ∧ x.1 ≤ bamTracks ty ∧ x.1 ≠ directoryTrack ty := by decide +kernel
  have hdata := hdata ty (by cases ty <;> simp at hty ⊢)
  unfold nextBlock
  simp only [show ((17 : Byte).toNat) = 17 from rfl]
  have hany : ∀ x ∈ trackOrder ty false 17, anyFree ty free x.1 = anyFree ty free' x.1 := by
    intro x hx
    obtain ⟨h1, h2, h3⟩ := hdata x hx
    unfold anyFree
    rw [Bool.eq_iff_iff, List.any_eq_true, List.any_eq_true]
    constructor
    · rintro ⟨u, hu, hf⟩
      exact ⟨u, hu, (h _ u h1 h2 h3 (List.mem_range.1 hu)) ▸ hf⟩
    · rintro ⟨u, hu, hf⟩
      exact ⟨u, hu, (h _ u h1 h2 h3 (List.mem_range.1 hu)).symm ▸ hf⟩
  rw [find?_agree hany]
  cases hx : (trackOrder ty false 17).find? fun x => anyFree ty free' x.1 with
  | none => rfl
  | some x =>
    obtain ⟨h1, h2, h3⟩ := hdata x (List.mem_of_find?_eq_some hx)
    simp only [Option.bind_some]
    congr 1
    unfold sectorFrom
    apply find?_agree
    intro u hu
    obtain ⟨k, -, rfl⟩ := List.mem_map.1 hu
    have hge := sectorsPerTrack_ge ty x.1
    exact h x.1 _ h1 h2 h3 (Nat.mod_lt _ (by omega))

/-- The free sectors of a disk on which files take just `ls`. -/
def Spec.freeBut (ty : DiskType) (ls : List Location) : Nat → Nat → Bool := fun t u =>
  !(systemSector ty ⟨UInt8.ofNat t, UInt8.ofNat u⟩ || ls.contains ⟨UInt8.ofNat t, UInt8.ofNat u⟩)

theorem free_but (h : ReadyAt disk s v r b) {ls : List Location} (hls : ∀ m, m ∈ v.used ↔ m ∈ ls)
    (t u : Nat) (h1 : 1 ≤ t) (h2 : t ≤ bamTracks s.type) (h3 : t ≠ directoryTrack s.type)
    (h4 : u < sectorsPerTrack s.type t) : freeAt b t u = freeBut s.type ls t u := by
  have hle := sectorsPerTrack_le s.type t
  obtain ⟨e1, e2⟩ := locOf_toNat (ty := s.type) (t := t) (s := u) h2 (by omega)
  have hv : ValidLoc s.type (bamTracks s.type) ⟨UInt8.ofNat t, UInt8.ofNat u⟩ := by
    unfold ValidLoc; simp only [e1, e2]; exact ⟨h1, h2, h4⟩
  have q := h.mounted.recorded.exact _ hv
  have hd : (⟨UInt8.ofNat t, UInt8.ofNat u⟩ : Location) ∉ v.dir := fun hm =>
    h3 (by have := (h.mounted.onDisk.dirTrack _ hm).1; simpa only [e1] using this)
  unfold isFree Volume.Occupies at q
  rw [hls] at q
  simp only [e1, e2, hd, false_or] at q
  unfold freeBut
  rw [Bool.eq_iff_iff, Bool.not_eq_true', Bool.or_eq_false_iff, ← Bool.not_eq_false, q,
    List.contains_eq_mem, decide_eq_false_iff_not, not_or, Bool.not_eq_true]

/-- **C77, refuted** On a newly formatted 1541 or 1571 disk, a file of two blocks lies in
adjacent sectors of a track, where the drive would have left ten or six apart. -/
theorem C77_interleave_refuted {ty : DiskType} {label : List Byte} {id : Byte × Byte}
    (h : Reaches x (Store.empty ty label id)) (hty : ty ≠ .d81) (hname : name.length ≤ 16)
    (hpad : name.getLast? ≠ some 0xA0) (buf : List Byte) (hbuf : buf.length = 255) :
    ∃ x', runs [.create name .PRG .linear, .openWriter 0, .write 0 buf] x =
        ([.ok (), .ok (), .ok ()], x') ∧
      LiesAt x'.disk name [⟨17, 0⟩, ⟨17, 1⟩] ∧
      nextBlock ty false (without (freeNow x.disk) ⟨17, 0⟩) ⟨17, 0⟩ =
        some ⟨17, UInt8.ofNat (interleaveOn ty 17)⟩ ∧
      ¬ Interleaved ty (freeNow x.disk) [⟨17, 0⟩, ⟨17, 1⟩] := by
  have hty' : ty ∈ [DiskType.d64, .d71] := by cases ty <;> simp at hty ⊢
  -- the sectors that are free at first
  obtain ⟨s, v, r, b, hrep⟩ := h.rep
  have hs : ty = s.type := hrep.type
  have hused : ∀ m, m ∈ v.used ↔ m ∈ ([] : List Location) := by
    intro m
    simp only [List.not_mem_nil, iff_false]
    intro hm
    obtain ⟨f, hf, -⟩ := List.mem_flatMap.1 hm
    obtain ⟨j, hj⟩ := mem_files.1 hf
    obtain ⟨g, hg, -⟩ := hrep.slots.some_left hj
    have : (List.replicate 8 (none : Option StoredFile))[j]? = some (some g) := hg
    rw [List.getElem?_replicate] at this
    split at this <;> cases this
  have hfree := free_but hrep.ready hused
  rw [← freeNow_ready hrep.ready, ← hs] at hfree
  -- the calls
  have hroom : ∀ ty ∈ [DiskType.d64, .d71],
      (Store.empty ty [] (0, 0)).room ≠ 0 ∧ 2 ≤ (Store.empty ty [] (0, 0)).room := by decide
  have hc : Store.step (.create name .PRG .linear) (Store.empty ty label id) =
      some (.ok (), { Store.empty ty label id with
        slots := some ⟨storedName name, 0x82, []⟩ :: List.replicate 7 none
        handles := [some 0], saved := false }) := by
    simp only [Store.step]
    rw [if_neg (by decide), if_neg (by omega), if_neg (by simp [show (Store.empty ty label id).find name = none from rfl])]
    show (if (Store.empty ty [] (0, 0)).room = 0 then _ else _) = _
    rw [if_neg (hroom ty hty').1]
    rfl
  obtain ⟨x₁, hx₁, hr₁⟩ := h.one hc
  obtain ⟨x₂, hx₂, hr₂⟩ := hr₁.one (c := .openWriter 0) (res := .ok ()) (by
    simp only [Store.step]
    rfl)
  have hd₂ : x₂.disk = x₁.disk := by
    obtain ⟨s', v', r', b', hrep₁⟩ := hr₁.rep
    obtain ⟨x₂', hx₂', hd, -⟩ := openWriter_rep (k := 0) (i := 0) hrep₁ rfl rfl
    rw [hx₂] at hx₂'
    cases hx₂'
    exact hd
  obtain ⟨l, hl, hlies⟩ := C77_create_partial h (by decide) hpad hx₁
  have hl' : firstBlock ty false (freeBut ty []) = some ⟨17, 0⟩ := by
    have : ∀ ty ∈ [DiskType.d64, .d71], firstBlock ty false (freeBut ty []) = some ⟨17, 0⟩ := by
      decide +kernel
    exact this ty hty'
  have hl₀ : l = ⟨17, 0⟩ := by
    rw [show (Store.empty ty label id).type = ty from rfl, firstBlock_agree hfree, hl'] at hl
    cases hl
    rfl
  subst hl₀
  rw [← hd₂] at hlies
  -- the sectors that are free after the first block
  obtain ⟨s₂, v₂, r₂, b₂, hrep₂⟩ := hr₂.rep
  have hs₂ : ty = s₂.type := hrep₂.type
  have hused₂ : ∀ m, m ∈ v₂.used ↔ m ∈ ([⟨17, 0⟩] : List Location) := by
    obtain ⟨i, f, hi, -, -, hlocs⟩ := (lies_iff hrep₂.ready).1 hlies
    intro m
    rw [← hlocs]
    have hz : ∀ (j : Nat) (q : FileRec), v₂.slots[j]? = some (some q) → j = 0 := by
      intro j q hj
      obtain ⟨g, hg, -⟩ := hrep₂.slots.some_left hj
      match j, hg with
      | 0, _ => rfl
      | j + 1, hg =>
        have : (List.replicate 7 (none : Option StoredFile))[j]? = some (some g) := hg
        rw [List.getElem?_replicate] at this
        split at this <;> cases this
    constructor
    · intro hm
      obtain ⟨f', hf, hm⟩ := List.mem_flatMap.1 hm
      obtain ⟨j, hj⟩ := mem_files.1 hf
      have := hz j f' hj
      have := hz i f hi
      subst_vars
      rw [hi] at hj
      cases hj
      exact hm
    · intro hm
      exact List.mem_flatMap.2 ⟨f, mem_files.2 ⟨i, hi⟩, hm⟩
  have hfree₂ := free_but hrep₂.ready hused₂
  rw [← freeNow_ready hrep₂.ready, ← hs₂] at hfree₂
  obtain ⟨f, hf, -⟩ := hrep₂.slots.some_right (i := 0) (g := ⟨storedName name, 0x82, []⟩) rfl
  obtain ⟨x₃, f', b', hx₃, -⟩ := write_rep (k := 0) (y := ⟨0, true⟩) buf hrep₂ rfl hf rfl
  have hb : blocksFor 0 = 1 := by decide
  have hcap : 255 ≤ 254 * (blocksFor 0 + Store.room ⟨ty, (paddedName label, id),
      some ⟨storedName name, 0x82, []⟩ :: List.replicate 7 none, [some 0], [⟨0, true⟩], false⟩) := by
    have : ∀ ty ∈ [DiskType.d64, .d71], 2 ≤ dataBlocks ty := by decide
    have := this ty hty'
    have hu : Store.used ⟨ty, (paddedName label, id),
      some ⟨storedName name, 0x82, []⟩ :: List.replicate 7 none, [some 0], [⟨0, true⟩], false⟩ = 1 := by
      show blocksFor 0 + 0 = 1
      decide
    unfold Store.room
    rw [hu, hb]
    show 255 ≤ 254 * (1 + (dataBlocks ty - 1))
    omega
  rw [if_pos (by
    rw [hbuf]
    exact Nat.le_trans (Nat.le_of_eq (Nat.zero_add 255)) hcap)] at hx₃
  obtain ⟨new, hn₁, hn₂, -, hn₃, -⟩ := C77_write_partial hr₂ (k := 0) (y := ⟨0, true⟩)
    (g := ⟨storedName name, 0x82, []⟩) rfl rfl
    (find_some_iff.2 ⟨⟨_, rfl, storedName_plain hpad⟩, fun j _ hj => absurd hj (Nat.not_lt_zero j)⟩)
    hlies hx₃
  have hlen : new.length = 1 := by
    rw [hbuf] at hn₃
    have hn₃ : ([(⟨17, 0⟩ : Location)] ++ new).length = blocksFor 255 :=
      hn₃.trans (congrArg blocksFor (Nat.min_eq_right hcap))
    rw [show blocksFor 255 = 2 by decide] at hn₃
    simpa using hn₃
  have hl₂ : firstBlock ty false (freeBut ty [⟨17, 0⟩]) = some ⟨17, 1⟩ := by
    have : ∀ ty ∈ [DiskType.d64, .d71],
        firstBlock ty false (freeBut ty [⟨17, 0⟩]) = some ⟨17, 1⟩ := by decide +kernel
    exact this ty hty'
  rw [hlen] at hn₂
  simp only [firstBlocks] at hn₂
  rw [show Store.type _ = ty from rfl, firstBlock_agree hfree₂, hl₂] at hn₂
  simp only at hn₂
  subst hn₂
  have hnext : nextBlock ty false (without (freeNow x.disk) ⟨17, 0⟩) ⟨17, 0⟩ =
      some ⟨17, UInt8.ofNat (interleaveOn ty 17)⟩ := by
    have : ∀ ty ∈ [DiskType.d64, .d71],
        nextBlock ty false (without (freeBut ty []) ⟨17, 0⟩) ⟨17, 0⟩ =
          some ⟨17, UInt8.ofNat (interleaveOn ty 17)⟩ := by decide +kernel
    rw [← this ty hty']
    refine nextBlock_agree hty fun t u h1 h2 h3 h4 => ?_
    unfold without
    rw [hfree t u h1 h2 h3 h4]
  refine ⟨x₃, ?_, hn₁, hnext, ?_⟩
  · simp only [runs, hx₁, hx₂, hx₃]
  · rintro ⟨hbad, -⟩
    rw [hnext] at hbad
    have : ∀ ty ∈ [DiskType.d64, .d71],
        (some ⟨17, UInt8.ofNat (interleaveOn ty 17)⟩ : Option Location) ≠ some ⟨17, 1⟩ := by
      decide +kernel
    exact this ty hty' hbad

/-- There are such disks and such files: the theorems above apply to them. -/
example (ty : DiskType) (hty : ty ≠ .d81) : ∃ x x' rs,
    runs [.create [0x41] .PRG .linear, .openWriter 0, .write 0 (List.replicate 255 7)] x = (rs, x') ∧
      LiesAt x'.disk [0x41] [⟨17, 0⟩, ⟨17, 1⟩] := by
  obtain ⟨x, hx⟩ := exists_formatted ty [0x41] (by decide) (0x30, 0x31)
  obtain ⟨x', hx', hl, -⟩ := C77_interleave_refuted hx hty (name := [0x41]) (by decide) (by decide)
    (List.replicate 255 7) List.length_replicate
  exact ⟨x, x', _, hx', hl⟩

/-- The second block by the interleave, and the one that is taken, for each disk type. -/
example : [DiskType.d64, .d71, .d81].map (fun ty =>
      (nextBlock ty false (without (fun _ _ => true) ⟨17, 0⟩) ⟨17, 0⟩,
        (firstBlocks ty false (freeBut ty []) 2))) =
    [(some ⟨17, 10⟩, [⟨17, 0⟩, ⟨17, 1⟩]), (some ⟨17, 6⟩, [⟨17, 0⟩, ⟨17, 1⟩]),
      (some ⟨17, 1⟩, [⟨39, 0⟩, ⟨39, 1⟩])] := by decide +kernel

end Cbm
