import Verif.Lemmas.SafeTool
/-!
# A new file on any image
-/

namespace Cbm
open Spec

variable {X : Prop} {s : Shape} {disk : Disk} {d : Device} {e : DirectoryEntry} {α β σ : Type}

theorem updDev_inv {st st' : St} {g : Device → Res Device} {u : Unit} (h : St.updDev g st = (.ok u, st')) :
    ∃ d', g st.dev = .ok d' ∧ st' = { st with dev := d' } := by
  cases hg : g st.dev with
  | ok d' =>
    rw [updDev_ok hg] at h
    exact ⟨d', rfl, (Prod.mk.inj h).2.symm⟩
  | error q => rw [updDev_error hg] at h; cases (Prod.mk.inj h).1

theorem updBam_inv {st st' : St} {g : Bam → Res Bam} {u : Unit} (h : St.updBam g st = (.ok u, st')) :
    ∃ b', g st.bam = .ok b' ∧ st' = { st with bam := b' } := by
  cases hg : g st.bam with
  | ok b' =>
    rw [updBam_ok hg] at h
    exact ⟨b', rfl, (Prod.mk.inj h).2.symm⟩
  | error q => rw [updBam_error hg] at h; cases (Prod.mk.inj h).1

theorem allocate_flip {b b' : Bam} {ty : DiskType} {l : Location} (hb : BamSize b ty)
    (hl : ValidLoc ty (bamTracks ty) l) (h : b.allocate l = .ok b') : Flip b b' ty l false := by
  rcases hb.live with hl' | hl'
  · obtain ⟨b2, h1, h2⟩ := allocate_ok hl' hl.inBam
    rw [h1] at h
    cases h
    exact h2
  · unfold Bam.allocate at h
    rw [modify_invalid hl'] at h
    cases h

theorem Flip.not_free {b b' : Bam} {ty : DiskType} {l : Location} (h : Flip b b' ty l false) : isFree b' l = false := by
  show freeAt b' _ _ = false
  rw [h.free, if_pos ⟨rfl, rfl⟩]

theorem Flip.still {b b' : Bam} {ty : DiskType} {l m : Location} (h : Flip b b' ty l false)
    (hm : isFree b m = false) : isFree b' m = false := by
  show freeAt b' _ _ = false
  rw [h.free]
  split
  · rfl
  · exact hm

/-- The slot in a new directory sector. -/
theorem extend_away {last : Location} {st st' : St} (h : Sound s st)
    (hr : extendDirectory last st = (.ok e, st')) :
    ∃ p, e.position = some p ∧ isFree st'.bam p.location = false := by
  unfold extendDirectory at hr
  obtain ⟨new, st1, h1, hr⟩ := bind_inv hr
  obtain ⟨_, st2, h2, hr⟩ := bind_inv hr
  obtain ⟨block, st3, h3, hr⟩ := bind_inv hr
  obtain ⟨entry, st4, h4, hr⟩ := bind_inv hr
  obtain ⟨_, st5, h5, hr⟩ := bind_inv hr
  obtain ⟨_, st6, h6, hr⟩ := bind_inv hr
  obtain ⟨hq, hst⟩ := Prod.mk.inj hr
  cases hq
  subst hst
  have e1 : st.bam.nextFreeBlock (some last) = .ok new ∧ st1 = st := by
    unfold St.readBam at h1
    rw [M.run_read] at h1
    exact ⟨(Prod.mk.inj h1).1, (Prod.mk.inj h1).2.symm⟩
  obtain ⟨e1, rfl⟩ := e1
  obtain ⟨d2, -, rfl⟩ := updDev_inv h2
  rw [readDev_run] at h3
  obtain ⟨-, e3⟩ := Prod.mk.inj h3
  subst e3
  rw [M.run_lift] at h4
  obtain ⟨e4, e5⟩ := Prod.mk.inj h4
  subst e5
  obtain ⟨b5, e5, rfl⟩ := updBam_inv h5
  obtain ⟨d6, -, rfl⟩ := updDev_inv h6
  refine ⟨⟨new, 0, UInt8.ofNat ENTRY_SIZE⟩, ?_, ?_⟩
  · unfold DirectoryEntry.parse at e4
    split at e4
    · cases e4; rfl
    · cases e4
  · exact (allocate_flip h.bam (next_valid h.bam e1).1 e5).not_free

theorem linked_init {a : List Location} {l m : Location} : ∀ {c : List Location}, Linked d s (a ++ l :: m :: c) →
    Linked d s (a ++ [l]) := by
  intro c h
  induction a with
  | nil => trivial
  | cons x a ih =>
    cases a with
    | nil => exact ⟨h.1, trivial⟩
    | cons y a => exact ⟨h.1, ih h.2⟩

theorem Spec.Path.cut {start stop l : Location} {a c : List Location} (h : Path d s start (a ++ l :: c) stop) :
    Path d s start a l := by
  refine ⟨fun x hx => h.valid x (by simp [hx]), (List.nodup_append.1 h.nodup).1, fun x hx => h.onward x (by simp [hx]), ?_, ?_⟩
  · have := h.linked
    rw [List.append_assoc] at this
    cases c with
    | nil => exact linked_init (c := []) this
    | cons m c => exact linked_init (c := c ++ [stop]) this
  · have := h.start
    cases a with
    | nil => simpa using this
    | cons x a => simpa using this

theorem item_path (hw : Wf d s) {start : Location} {cs : ChainSector} (h : .ok cs ∈ chainItems d start) :
    ∃ locs, Path d s start locs cs.location := by
  obtain ⟨ls, t, hi, hp, -⟩ := chainItems_walk hw start
  rw [hi, List.mem_append] at h
  rcases h with h | h
  · obtain ⟨l, hl, he⟩ := List.mem_map.1 h
    cases he
    obtain ⟨a, c, rfl⟩ := List.append_of_mem hl
    exact ⟨a, hp.cut⟩
  · have : t = cs.location := by
      have h := List.mem_singleton.1 h
      unfold stopItem at h
      split at h
      · cases h
      · split at h
        · cases h
        · split at h
          · cases h
          · cases h; rfl
    subst this
    exact ⟨ls, hp⟩

/-- The slot for a new entry is not in a sector that is free. -/
theorem nextFree_away (h : Standing disk s) (hb : ¬ FreeDirectory disk s) {slot : DirectoryEntry} {disk1 : Disk}
    (hr : Disk.nextFreeDirectoryEntry disk = (.ok slot, disk1)) :
    ∃ p, slot.position = some p ∧
      ∀ r b, disk1.bam = some r → disk1.cells[r]? = some b → isFree b p.location = false := by
  unfold Disk.nextFreeDirectoryEntry at hr
  obtain ⟨d0, x0, h0, hr⟩ := bind_inv hr
  cases h0
  obtain ⟨f, x1, h1, hr⟩ := bind_inv hr
  rw [M.run_lift] at h1
  obtain ⟨hf, rfl⟩ := Prod.mk.inj h1
  have hf : disk.format = some f := by
    unfold Disk.diskFormat at hf
    split at hf
    · cases hf; assumption
    · cases hf
  obtain ⟨y, x2, h2, hr⟩ := bind_inv hr
  rw [M.run_lift] at h2
  obtain ⟨hs, rfl⟩ := Prod.mk.inj h2
  cases y with
  | inl e =>
    obtain ⟨hq, rfl⟩ := Prod.mk.inj hr
    cases hq
    obtain ⟨c, hc, hsc⟩ := scanFree_inl hs
    obtain ⟨chunk, i, hmem, h1, rfl⟩ := scanChunks_some (k := 0) hsc
    obtain ⟨locs, hp⟩ := item_path h.wf hc
    refine ⟨_, rfl, fun r b hr hcell => ?_⟩
    exact Bool.eq_false_iff.2 fun hfree => hb ⟨f, r, b, locs, c.location, hf, hr, hcell, hp, hfree⟩
  | inr t =>
    simp only at hr
    obtain ⟨r, x3, h3, hr⟩ := bind_inv hr
    rw [M.run_lift] at h3
    obtain ⟨hr0, rfl⟩ := Prod.mk.inj h3
    obtain ⟨hbam, b, -, hcell, ho⟩ := h.cell hr0
    rcases hrun : extendDirectory t ⟨disk.dev, b⟩ with ⟨res, st⟩
    rw [withBam_run hcell hrun] at hr
    obtain ⟨hq, rfl⟩ := Prod.mk.inj hr
    subst hq
    obtain ⟨p, hp, hfree⟩ := extend_away (s := s) ⟨h.wf, ho.size⟩ hrun
    refine ⟨p, hp, fun r' b' hr' hc' => ?_⟩
    have hr' : disk.bam = some r' := hr'
    rw [hbam] at hr'
    cases hr'
    have hc' : (disk.cells.set r st.bam)[r]? = some b' := hc'
    have hlt : r < disk.cells.length := (List.getElem?_eq_some_iff.1 hcell).1
    rw [List.getElem?_set_self hlt] at hc'
    cases hc'
    exact hfree

/-- What a new file looks like. -/
structure NewFile (s : Shape) (e : DirectoryEntry) (st : St) (p : Position) : Prop where
  position : e.position = some p
  valid : s.Valid e.firstSector
  away : p.location ≠ e.firstSector
  used : isFree st.bam p.location = false
  size : storedSize st.dev s p = 1
  link : byteAt (st.dev.blk s e.firstSector) 0 = 0 ∧ byteAt (st.dev.blk s e.firstSector) 1 = 1

theorem createIn_new {slot : DirectoryEntry} {name : Petscii} {type : FileType} {st st' : St} {p : Position}
    (h : Sound s st) (hslot : Placed s slot) (hn : name.length ≤ 16) (hp : slot.position = some p)
    (hfree : isFree st.bam p.location = false) (hr : createIn slot name type st = (.ok e, st')) :
    NewFile s e st' p := by
  unfold createIn at hr
  obtain ⟨first, st1, h1, hr⟩ := bind_inv hr
  obtain ⟨_, st2, h2, hr⟩ := bind_inv hr
  obtain ⟨_, st3, h3, hr⟩ := bind_inv hr
  simp only at hr
  obtain ⟨_, st4, h4, hr⟩ := bind_inv hr
  obtain ⟨hq, hst⟩ := Prod.mk.inj hr
  cases hq
  subst hst
  have e1 : st.bam.nextFreeBlock none = .ok first ∧ st1 = st := by
    unfold St.readBam at h1
    rw [M.run_read] at h1
    exact ⟨(Prod.mk.inj h1).1, (Prod.mk.inj h1).2.symm⟩
  obtain ⟨e1, rfl⟩ := e1
  obtain ⟨hnv, hnf⟩ := next_valid h.bam e1
  have hv := h.wf.valid_of_map hnv
  obtain ⟨b2, e2, rfl⟩ := updBam_inv h2
  have hflip := allocate_flip h.bam hnv e2
  obtain ⟨d3, e3, rfl⟩ := updDev_inv h3
  have hbl := h.wf.blk_length hv
  have hlink : CHAIN_LINK_ZERO.toBytes (st1.dev.blk s first) =
      .ok (splice (st1.dev.blk s first) 0 [0, UInt8.ofNat (2 - 1)]) := by
    unfold CHAIN_LINK_ZERO ChainLink.toBytes
    rw [if_neg (by omega)]
    rfl
  have hll : (splice (st1.dev.blk s first) 0 [0, UInt8.ofNat (2 - 1)]).length = 256 := by
    rw [length_splice _ _ _ (by simp; omega), hbl]
  have hd3 : d3 = st1.dev.put s first (splice (st1.dev.blk s first) 0 [0, UInt8.ofNat (2 - 1)]) := by
    rcases sectorMut_returns h.wf (l := first) (f := CHAIN_LINK_ZERO.toBytes) fun _ => ⟨_, hlink, hll⟩ with
      ⟨n, -, g1, -, g2, -⟩ | ⟨y, g⟩
    · rw [hlink] at g1
      cases g1
      exact Except.ok.inj (e3.symm.trans g2)
    · exact absurd (e3.symm.trans g) (by nofun)
  have hw3 : Wf d3 s := by rw [hd3]; exact h.wf.put hv hll
  have hpl := newEntry_placed hslot hn type first
  have hpos : (newFileEntry slot name type first).position = some p := hp
  have hne : p.location ≠ first := by
    intro e
    rw [e, hnf] at hfree
    cases hfree
  obtain ⟨p', hp', hpv, hpo, -⟩ := hslot.position
  have : p' = p := Option.some.inj (hp'.symm.trans hp)
  subst this
  have hbp := hw3.blk_length hpv
  -- the entry is stored
  have e4 : ∃ out, out.length = 32 ∧ slice out 0x1E 2 = [UInt8.ofNat (1 % 256), UInt8.ofNat (1 / 256)] ∧
      st4 = ⟨d3.put s p'.location (splice (d3.blk s p'.location) p'.offset.toNat out), b2⟩ := by
    unfold writeNewEntry at h4
    rcases writeEntry_returns (d := d3) hw3 hpl hpos with ⟨out, g1, g2, -, -, g3, -⟩ | g
    · rw [updDev_ok (st := ⟨d3, b2⟩) g3] at h4
      simp only at h4
      exact ⟨out, g1, g2, (Prod.mk.inj h4).2.symm⟩
    · rw [updDev_error (st := ⟨d3, b2⟩) g] at h4
      simp only at h4
      split at h4 <;> cases (Prod.mk.inj h4).1
  obtain ⟨out, o1, o2, rfl⟩ := e4
  have hsl : (splice (d3.blk s p'.location) p'.offset.toNat out).length = 256 := by
    rw [length_splice _ _ _ (by omega), hbp]
  refine ⟨hpos, hv, hne, hflip.still hfree, ?_, ?_⟩
  · show storedSize (d3.put s p'.location (splice (d3.blk s p'.location) p'.offset.toNat out)) s p' = 1
    have hslot' : slotData (d3.put s p'.location (splice (d3.blk s p'.location) p'.offset.toNat out)) s p' = out := by
      unfold slotData
      rw [hw3.blk_put_same hpv hsl]
      exact slice_splice_same' _ _ _ _ o1.symm (by omega)
    unfold storedSize entryAt
    rw [hslot']
    have hlo : byteAt out 0x1E = UInt8.ofNat (1 % 256) := by
      have := congrArg (fun l => byteAt l 0) o2
      simpa [slice, byteAt] using this
    have hhi : byteAt out 0x1F = UInt8.ofNat (1 / 256) := by
      have := congrArg (fun l => byteAt l 1) o2
      simpa [slice, byteAt] using this
    show (byteAt out 0x1F).toNat * 256 + (byteAt out 0x1E).toNat = _
    rw [hlo, hhi]
    decide
  · show byteAt ((d3.put s p'.location (splice (d3.blk s p'.location) p'.offset.toNat out)).blk s first) 0 = 0 ∧
      byteAt ((d3.put s p'.location (splice (d3.blk s p'.location) p'.offset.toNat out)).blk s first) 1 = 1
    rw [hw3.blk_put_other hpv hv hne.symm hsl, hd3, h.wf.blk_put_same hv hll]
    simp [splice, byteAt]

/-! ## Writing it -/

theorem newWriter {st : St} {p : Position} (hw : Wf st.dev s) (h : NewFile s e st p) :
    ChainWriter.new st.dev e e.firstSector = .ok ⟨e, e.firstSector, st.dev.blk s e.firstSector, true⟩ := by
  unfold ChainWriter.new
  rw [hw.sector h.valid, res_bind_ok]
  have : tailLoop st.dev chainFuel e.firstSector (st.dev.blk s e.firstSector) =
      .ok (e.firstSector, st.dev.blk s e.firstSector) := by
    obtain ⟨n, hn⟩ : ∃ n, chainFuel = n + 1 := ⟨chainFuel - 1, by decide⟩
    rw [hn]
    unfold tailLoop
    rw [chainLink_new _ (by rw [hw.blk_length h.valid]; omega), if_pos h.link.1, if_neg (by
      rw [h.link.2]; decide)]
    rfl
  rw [this]
  rfl

theorem marked_le (ty : DiskType) (b : Bam) : marked ty b ≤ 3200 := by
  unfold marked
  refine Nat.le_trans List.countP_le_length ?_
  cases ty <;> decide +kernel

/-- The first writer, with room for so many more blocks. -/
def Writing (X : Prop) (s : Shape) (p : Position) (k : Nat) (x : Session) : Prop :=
  ∃ w r b, x.writers[0]? = some (w, r) ∧ x.disk.cells[r]? = some b ∧ Guarded X s p k 0 ⟨w, x.disk.dev, b⟩

theorem Writing.next {p : Position} {k : Nat} {x : Session} {w w' : ChainWriter} {r : Nat} {b : Bam} {st : St}
    (hw : x.writers[0]? = some (w, r)) (hc : x.disk.cells[r]? = some b) (h : Guarded X s p k 0 ⟨w', st⟩) :
    Writing X s p k { x with disk := x.disk.withSt r st, writers := x.writers.set 0 (w', r) } := by
  refine ⟨w', r, st.bam, ?_, ?_, h⟩
  · show (x.writers.set 0 (w', r))[0]? = _
    rw [List.getElem?_set_self (List.getElem?_eq_some_iff.1 hw).1]
  · show (x.disk.cells.set r st.bam)[r]? = _
    rw [List.getElem?_set_self (List.getElem?_eq_some_iff.1 hc).1]

theorem safe_piece {p : Position} {k : Nat} (buf : List Byte) :
    Safe X (Writing X s p (blocksFor buf.length + k)) (Session.step (.write 0 buf))
      (fun _ => Writing X s p k) (fun _ => True) := by
  rintro x ⟨w, r, b, hw, hc, h⟩
  have hs := safe_write (X := X) (s := s) (p := p) (k := k) buf _ h
  rcases hr : ChainWriter.write buf ⟨w, x.disk.dev, b⟩ with ⟨res, y⟩
  rw [hr] at hs
  show (∃ a, ((_ >>= _ : M Session Unit) x).1 = .ok a ∧ Writing X s p k ((_ >>= _ : M Session Unit) x).2) ∨
    ∃ q, ((_ >>= _ : M Session Unit) x).1 = .error q ∧ True ∧ _
  rcases hs with ⟨a, h1, h2⟩ | ⟨q, h1, -, h3⟩
  · cases h1
    rw [M.bind_of_ok (onWriter_run hw hc hr)]
    exact .inl ⟨(), rfl, Writing.next hw hc h2⟩
  · cases h1
    rw [M.bind_of_error (onWriter_run hw hc hr)]
    exact .inr ⟨q, rfl, trivial, h3⟩

theorem safe_pieces {p : Position} : ∀ (pieces : List (List Byte)),
    Safe X (Writing X s p (pieces.map fun q => blocksFor q.length).sum)
      (M.forEach pieces fun q => Session.step (.write 0 q)) (fun _ => Writing X s p 0) (fun _ => True)
  | [] => Safe.pure fun _ h => h
  | q :: qs => (safe_piece (k := (qs.map fun q => blocksFor q.length).sum) q).bind fun _ => safe_pieces qs

theorem copyInto_safe {p : Position} {x : Session} {pieces : List (List Byte)}
    (h : Writing X s p (pieces.map fun q => blocksFor q.length).sum x) : SafeRes X (copyInto 0 pieces x).1 := by
  have key : Safe X (Writing X s p (pieces.map fun q => blocksFor q.length).sum) (do
      M.forEach pieces fun p => Session.step (.write 0 p)
      Session.step (.flush 0) : M Session Unit) (fun _ _ => True) (fun _ => True) := by
    refine (safe_pieces pieces).bind fun _ => ?_
    rintro x ⟨w, r, b, hw, hc, h⟩
    have hs := safe_flush (X := X) (s := s) _ h.1
    rcases hr : ChainWriter.flush ⟨w, x.disk.dev, b⟩ with ⟨res, y⟩
    rw [hr] at hs
    show (∃ a, (Session.onWriter 0 ChainWriter.flush x).1 = .ok a ∧ True) ∨
      ∃ q, (Session.onWriter 0 ChainWriter.flush x).1 = .error q ∧ True ∧ _
    rw [onWriter_run hw hc hr]
    rcases hs with ⟨a, h1, -⟩ | ⟨q, h1, -, h3⟩
    · exact .inl ⟨a, h1, trivial⟩
    · exact .inr ⟨q, h1, trivial, h3⟩
  have := key.res h
  unfold copyInto
  revert this
  generalize (do
      M.forEach pieces fun p => Session.step (.write 0 p)
      Session.step (.flush 0) : M Session Unit) x = res
  exact fun h => h

/-- The command without its opening of the image. -/
theorem writing_safe {name : Petscii} {type : FileType} {pieces : List (List Byte)} (h : Steady s ⟨disk, [], []⟩)
    (hX : ¬ X → ¬ BadTail disk s ∧ ¬ FreeDirectory disk s) :
    SafeRes X ((do
      Session.step (.create name type .linear)
      Session.step (.openWriter 0)
      copyInto 0 pieces : M Session Unit) ⟨disk, [], []⟩).1 := by
  by_cases hx : X
  · exact .inl hx
  obtain ⟨hb, hf⟩ := hX hx
  have h1 := (createFile_safe (X := X) h.standing name type .linear fun _ => ⟨rfl, hb⟩)
  have hsc := (safe_call h (c := .create name type .linear) (by trivial)).1
  rcases hcf : Disk.createFile name type .linear disk with ⟨res, disk'⟩
  rw [hcf] at h1
  cases res with
  | error q =>
    have hstep : Session.step (.create name type .linear) ⟨disk, [], []⟩ = (.error q, ⟨disk', [], []⟩) := by
      show (_ >>= _ : M Session Unit) _ = _
      rw [M.bind_of_error (onDisk_run (x := ⟨disk, [], []⟩) hcf)]
    rw [M.bind_of_error hstep]
    rcases h1.1 with h1 | h1
    · exact .inl h1
    · exact .inr h1.error
  | ok pr =>
    obtain ⟨e, ref⟩ := pr
    have hstep : Session.step (.create name type .linear) ⟨disk, [], []⟩ =
        (.ok (), ⟨disk', [(.linear e, ref)], []⟩) := by
      show (_ >>= _ : M Session Unit) _ = _
      rw [M.bind_of_ok (onDisk_run (x := ⟨disk, [], []⟩) hcf)]
      rfl
    rw [hstep] at hsc
    rw [M.bind_of_ok hstep]
    -- what was created
    obtain ⟨p, b, hcell, hnew⟩ : ∃ p b, disk'.cells[ref]? = some b ∧ NewFile s e ⟨disk'.dev, b⟩ p := by
      unfold Disk.createFile at hcf
      rw [if_neg (by simp)] at hcf
      obtain ⟨_, x1, g1, hcf⟩ := bind_inv hcf
      rw [M.run_lift] at g1
      obtain ⟨g1, rfl⟩ := Prod.mk.inj g1
      have hn : name.length ≤ 16 := by
        unfold checkFilenameValidity at g1
        split at g1
        · cases g1
        · rename_i hle
          simp only [ENTRY_FILENAME_LENGTH] at hle
          omega
      obtain ⟨_, x2, g2, hcf⟩ := bind_inv hcf
      rw [M.run_read] at g2
      obtain ⟨-, rfl⟩ := Prod.mk.inj g2
      obtain ⟨slot, disk1, g3, hcf⟩ := bind_inv hcf
      have hst : Standing disk1 s := by
        have := h.standing.keep (m := Disk.nextFreeDirectoryEntry) keep_nextFreeDirectoryEntry form_nextFree
        rw [g3] at this
        exact this
      have hpl : Placed s slot := by
        have := (nextFree_safe (X := X) h.standing fun _ => hb).2 slot
        rw [g3] at this
        exact this rfl
      obtain ⟨p, hp, haway⟩ := nextFree_away h.standing hf g3
      obtain ⟨r, x4, g4, hcf⟩ := bind_inv hcf
      rw [M.run_read] at g4
      obtain ⟨k4, rfl⟩ := Prod.mk.inj g4
      obtain ⟨hbam, b, -, hcell, ho⟩ := hst.cell k4
      obtain ⟨e', x5, g5, hcf⟩ := bind_inv hcf
      rcases hrun : createIn slot name type ⟨disk1.dev, b⟩ with ⟨res, st⟩
      rw [withBam_run hcell hrun] at g5
      obtain ⟨rfl, rfl⟩ := Prod.mk.inj g5
      have hnew := createIn_new (s := s) ⟨hst.wf, ho.size⟩ hpl hn hp (haway r b hbam hcell) hrun
      obtain ⟨r', x6, g6, hcf⟩ := bind_inv hcf
      rw [M.run_read] at g6
      obtain ⟨k6, rfl⟩ := Prod.mk.inj g6
      obtain ⟨hq, rfl⟩ := Prod.mk.inj hcf
      cases hq
      have hrr : ref = r := by
        have k6 : Disk.bamRef disk1 = .ok ref := k6
        rw [k4] at k6
        cases k6
        rfl
      subst hrr
      refine ⟨p, st.bam, ?_, hnew⟩
      show (disk1.cells.set ref st.bam)[ref]? = _
      rw [List.getElem?_set_self (List.getElem?_eq_some_iff.1 hcell).1]
    have hwf : Wf disk'.dev s := hsc.standing.wf
    have hopen : Session.step (.openWriter 0) ⟨disk', [(.linear e, ref)], []⟩ =
        (.ok (), ⟨disk', [(.linear e, ref)], [(⟨e, e.firstSector, disk'.dev.blk s e.firstSector, true⟩, ref)]⟩) := by
      show (_ >>= _ : M Session Unit) _ = _
      rw [M.bind_of_ok (s' := ⟨disk', [(.linear e, ref)], []⟩) (a := (.linear e, ref)) (by rw [M.run_read]; rfl)]
      show (_ >>= _ : M Session Unit) _ = _
      rw [M.bind_of_ok (s' := ⟨disk', [(.linear e, ref)], []⟩)
        (a := ⟨e, e.firstSector, disk'.dev.blk s e.firstSector, true⟩)
        (by rw [M.run_read]; exact Prod.ext (newWriter (st := ⟨disk'.dev, b⟩) hwf hnew) rfl)]
      rfl
    rw [M.bind_of_ok hopen]
    have hpl : Placed s e := (h1.2 e ref rfl).1
    refine copyInto_safe (s := s) (p := p) ⟨_, ref, b, rfl, hcell, ⟨⟨⟨hwf, ?_⟩, ?_⟩, fun _ => ⟨hnew.position, hnew.away, hnew.used, ?_⟩⟩⟩
    · exact hsc.cells b (List.mem_of_getElem? hcell)
    · exact ⟨hwf.blk_length hnew.valid, ⟨hnew.link.1, by
        show 1 ≤ (byteAt (disk'.dev.blk s e.firstSector) 1).toNat
        rw [hnew.link.2]; decide⟩, hnew.valid, hpl⟩
    · have hs : storedSize disk'.dev s p = 1 := hnew.size
      have := marked_le s.type b
      show storedSize disk'.dev s p + (0 + min _ (marked s.type b)) ≤ 65535
      rw [hs]
      omega

end Cbm
