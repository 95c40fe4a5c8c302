import Verif.Lemmas.Footprint
/-!
# What the operations of a handle change, on any image
-/

namespace Cbm
open Spec

variable {s : Shape} {A A' : Location → Nat → Prop} {G : Location → Prop} {d d' d0 : Device}
  {l : Location} {e : DirectoryEntry} {p : Position} {α β : Type}

/-- Since `d0` only the bytes of `A` were changed, and only sectors of `G` are marked as free. -/
structure Framed (s : Shape) (A : Location → Nat → Prop) (G : Location → Prop) (d0 : Device) (st : St) : Prop where
  wf : Wf st.dev s
  bam : BamSize st.bam s.type
  only : ChangesOnly s A d0 st.dev
  free : ∀ l, isFree st.bam l = true → G l

theorem framed_allocate (l : Location) :
    Safe True (Framed s A G d0) (St.updBam fun b => b.allocate l) (fun _ => Framed s A G d0) (Framed s A G d0) := by
  intro st h
  cases ha : st.bam.allocate l with
  | ok b' =>
    rw [updBam_ok ha]
    exact .inl ⟨(), rfl, h.wf, modifyEntry_size ha h.bam, h.only, fun m hm => h.free m (isFree_allocate ha hm)⟩
  | error q => rw [updBam_error ha]; exact .inr ⟨q, rfl, h, .inl trivial⟩

theorem framed_free (hl : G l) :
    Safe True (Framed s A G d0) (St.updBam fun b => b.free l) (fun _ => Framed s A G d0) (Framed s A G d0) := by
  intro st h
  cases ha : st.bam.free l with
  | ok b' =>
    rw [updBam_ok ha]
    refine .inl ⟨(), rfl, h.wf, modifyEntry_size ha h.bam, h.only, fun m hm => ?_⟩
    rcases isFree_free ha hm with hm | rfl
    · exact h.free m hm
    · exact hl
  | error q => rw [updBam_error ha]; exact .inr ⟨q, rfl, h, .inl trivial⟩

theorem framed_next (prev : Option Location) :
    Safe True (Framed s A G d0) (St.readBam fun b => b.nextFreeBlock prev)
      (fun n st => Framed s A G d0 st ∧ G n ∧ s.Valid n) (Framed s A G d0) :=
  (Safe.read (E := Framed s A G d0) (fun _ _ => .inl trivial) fun _ h => h).post fun n st h =>
    ⟨h.1, h.1.free n (next_valid h.1.bam h.2).2, h.1.wf.valid_of_map (next_valid h.1.bam h.2).1⟩

theorem framed_flushBam (hA : ∀ l j, bamArea s.type l j → A l j) :
    Safe True (Framed s A G d0) St.flushBam (fun _ => Framed s A G d0) (Framed s A G d0) := by
  intro st h
  have hsame : ∀ r d', St.flushBam st = (r, { st with dev := d' }) → Wf d' s → ChangesOnly s A st.dev d' →
      Framed s A G d0 (St.flushBam st).2 := by
    intro r d' hr hw hc
    rw [hr]
    exact ⟨hw, h.bam, h.only.trans hc, h.free⟩
  have key : Framed s A G d0 (St.flushBam st).2 := by
    rcases h.bam.live with hl | hl
    · by_cases hwr : Writable st.dev
      · obtain ⟨d', new, h1, h2, h3⟩ := C07_flush_frame h.wf hwr hl
        have hrun : St.flushBam st = (.ok (), { st with dev := d' }) := by
          unfold St.flushBam
          rw [M.bind_of_ok (m := M.get) (s := st) (s' := st) (a := st) rfl]
          unfold St.onDev
          rw [M.run_zoom, h1]
        rcases flushBam_or h.wf hl with ⟨d2, g1, g2⟩ | g1
        · rw [hrun] at g1
          have : d' = d2 := congrArg (fun x => x.2.dev) g1
          subst this
          exact hsame _ _ hrun g2 ((show ChangesOnly s (bamArea s.type) st.dev d' from ⟨new, h2, h3⟩).mono hA)
        · rw [hrun] at g1
          cases congrArg Prod.fst g1
      · rcases flushBam_or h.wf hl with ⟨d2, g1, g2⟩ | g1
        · exact hsame _ _ g1 g2 (by
            have := keep_flushBam (R := ReadOnlySame) st
            rw [g1] at this
            have hd := this (Classical.not_not.1 hwr)
            rw [show d2 = st.dev from hd]
            exact changesOnly_refl _)
        · rw [g1]; exact h
    · have : St.flushBam st = (fail .invalidBAM, st) := by
        unfold St.flushBam
        rw [M.bind_of_ok (m := M.get) (s := st) (s' := st) (a := st) rfl]
        unfold St.onDev
        rw [M.run_zoom]
        unfold Bam.flush
        rw [M.bind_of_error (s' := st.dev) (e := .err .invalidBAM) (by rw [M.run_lift, hl])]
      rw [this]; exact h
  rcases hr : St.flushBam st with ⟨r, st'⟩
  rw [hr] at key
  cases r with
  | ok u => exact .inl ⟨u, rfl, key⟩
  | error q => exact .inr ⟨q, rfl, key, .inl trivial⟩

/-- Writing a sector. -/
theorem framed_put {f : List Byte → Res (List Byte)} (hk : KeepLen f)
    (hf : ∀ blk n, blk.length = 256 → f blk = .ok n → ∀ j, j < 256 → ¬ A l j → n[j]? = blk[j]?) :
    Safe True (Framed s A G d0) (St.updDev fun d => d.sectorMut l f) (fun _ => Framed s A G d0) (Framed s A G d0) := by
  intro st h
  cases hr : st.dev.sectorMut l f with
  | ok d' =>
    rw [updDev_ok hr]
    obtain ⟨h1, h2⟩ := changesOnly_sectorMut (A := A) h.wf hk (fun hv n hn => hf _ n (h.wf.blk_length hv) hn) hr
    exact .inl ⟨(), rfl, h1, h.bam, h.only.trans h2, h.free⟩
  | error q => rw [updDev_error hr]; exact .inr ⟨q, rfl, h, .inl trivial⟩

/-- Writing a sector of which any byte may change. -/
theorem framed_put_all {f : List Byte → Res (List Byte)} (hk : KeepLen f) (hA : ∀ j, A l j) :
    Safe True (Framed s A G d0) (St.updDev fun d => d.sectorMut l f) (fun _ => Framed s A G d0) (Framed s A G d0) :=
  framed_put hk fun _ _ _ _ _ _ h => absurd (hA _) h

/-! ## Entries -/

theorem writeEntry_inv (hw : Wf d s) (h : d.writeEntry e = .ok d') : ∃ p out, e.position = some p ∧
    s.Valid p.location ∧ p.offset.toNat + 32 ≤ 256 ∧ e.toBytes (slotData d s p) = .ok out ∧ out.length = 32 ∧
    d' = d.put s p.location (splice (d.blk s p.location) p.offset.toNat out) := by
  unfold Device.writeEntry Device.positionedWrite at h
  obtain ⟨p, hp, h⟩ := res_bind_eq_ok.1 h
  have hpos : e.position = some p := by
    unfold DirectoryEntry.pos at hp
    split at hp
    · cases hp; assumption
    · cases hp
  have hwr : Writable d := fun hr => by rw [sectorMut_readOnly hr] at h; cases h
  have hv : s.Valid p.location := Classical.byContradiction fun hv => by
    rw [hw.sectorMut_invalid hwr hv] at h; cases h
  rw [hw.sectorMut_eq hwr hv] at h
  cases hf : (subSlice (d.blk s p.location) p.offset.toNat p.size.toNat >>= fun bytes =>
      e.positionedWrite bytes >>= fun new => (pure (splice (d.blk s p.location) p.offset.toNat new) : Res _)) with
  | error q => rw [hf] at h; cases h
  | ok n =>
    rw [hf] at h
    cases h
    obtain ⟨bytes, h1, hf⟩ := res_bind_eq_ok.1 hf
    obtain ⟨out, h2, hf⟩ := res_bind_eq_ok.1 hf
    cases hf
    unfold subSlice at h1
    split at h1
    · rename_i hle
      cases h1
      unfold DirectoryEntry.positionedWrite at h2
      rw [hp, res_bind_ok] at h2
      split at h2
      · cases h2
      · have hb := hw.blk_length hv
        rw [hb] at hle
        have hs := (toBytes_eq h2).1
        rw [length_slice _ _ _ (by omega)] at hs
        rw [hs] at h2 hle
        obtain ⟨g1, g2, x, g3, g4⟩ := toBytes_eq h2
        refine ⟨p, out, hpos, hv, hle, h2, ?_, rfl⟩
        rw [g4]
        exact slotBytes_length g1 rfl (by simp; omega)
          (length_extraToBytes (length_slice _ _ _ (by rw [g1]; decide)) g3) rfl
    · cases h1

theorem toBytes_get {slot out : List Byte} (h : e.toBytes slot = .ok out) : slot.length = 32 ∧ ∃ x : List Byte,
    ∀ i, out[i]? = if i < 2 then slot[i]? else if i < 5 then
        [e.attributes.toByte, e.firstSector.track, e.firstSector.sector][i - 2]?
      else if i < 0x15 then (e.filename ++ List.replicate (16 - e.filename.length) PADDING_BYTE)[i - 5]?
      else if i < 0x1E then x[i - 0x15]?
      else [UInt8.ofNat (e.fileSize % 256), UInt8.ofNat (e.fileSize / 256)][i - 0x1E]? := by
  obtain ⟨g1, g2, x, g3, g4⟩ := toBytes_eq h
  refine ⟨g1, x, fun i => ?_⟩
  rw [g4]
  exact slotBytes_get g1 rfl (by simp; omega)
          (length_extraToBytes (length_slice _ _ _ (by rw [g1]; decide)) g3) rfl i

/-- Where a slot is written: only bytes of the slot that differ. -/
theorem changesOnly_slot {out : List Byte} (hw : Wf d s) (hv : s.Valid p.location) (ho : p.offset.toNat + 32 ≤ 256)
    (hl : out.length = 32)
    (h : ∀ i, i < 32 → ¬ A p.location (p.offset.toNat + i) → out[i]? = (slotData d s p)[i]?) :
    ChangesOnly s A d (d.put s p.location (splice (d.blk s p.location) p.offset.toNat out)) := by
  have hb := hw.blk_length hv
  refine changesOnly_put hw hv (by rw [length_splice _ _ _ (by omega), hb]) fun j hj ha => ?_
  rw [getElem?_splice _ _ _ _ (by omega)]
  split
  · rfl
  · split
    · rw [h (j - p.offset.toNat) (by omega) (by
        rw [show p.offset.toNat + (j - p.offset.toNat) = j by omega]; exact ha)]
      unfold slotData
      rw [getElem?_slice, if_pos (by omega), show p.offset.toNat + (j - p.offset.toNat) = j by omega]
    · rfl

/-- Any entry: the first two bytes of its slot stay. -/
theorem changesOnly_writeEntry (hw : Wf d s) (h : d.writeEntry e = .ok d') :
    Wf d' s ∧ ChangesOnly s (fun l j => ∃ p, e.position = some p ∧ Field p 2 30 l j) d d' := by
  refine ⟨?_, ?_⟩
  · exact ((keep_writeEntry (R := SameTail) h) s hw).1
  · obtain ⟨p, out, h1, h2, h3, h4, h5, rfl⟩ := writeEntry_inv hw h
    obtain ⟨-, x, hx⟩ := toBytes_get h4
    refine changesOnly_slot hw h2 h3 h5 fun i hi ha => ?_
    rw [hx]
    split
    · rfl
    · exact absurd ⟨p, h1, rfl, by omega, by omega⟩ ha

theorem framed_writeEntry (hA : ∀ p l j, e.position = some p → Field p 2 30 l j → A l j) :
    Safe True (Framed s A G d0) (St.updDev fun d => d.writeEntry e) (fun _ => Framed s A G d0) (Framed s A G d0) := by
  intro st h
  cases hr : st.dev.writeEntry e with
  | ok d' =>
    rw [updDev_ok hr]
    obtain ⟨h1, h2⟩ := changesOnly_writeEntry h.wf hr
    exact .inl ⟨(), rfl, h1, h.bam, h.only.trans (h2.mono fun l j ⟨p, g1, g2⟩ => hA p l j g1 g2), h.free⟩
  | error q => rw [updDev_error hr]; exact .inr ⟨q, rfl, h, .inl trivial⟩

/-- Writing an entry back with another size, or with another name. -/
theorem toBytes_self {slot : List Byte} (h : slot.length = 32) (p : Option Position) :
    (DirectoryEntry.parse32 slot p).toBytes slot = .ok slot := by
  obtain ⟨e, h1, h2⟩ := C23_rewrite_identity slot h p
  unfold DirectoryEntry.parse at h1
  rw [if_pos h] at h1
  cases h1
  exact h2

theorem rewrite_size {slot out : List Byte} {n : Nat} {q : Option Position}
    (h : { DirectoryEntry.parse32 slot q with fileSize := n }.toBytes slot = .ok out) {i : Nat}
    (hi : i < 30) : out[i]? = slot[i]? := by
  obtain ⟨h1, -, x, h3, h4⟩ := toBytes_eq h
  obtain ⟨-, h2', x', h3', h4'⟩ := toBytes_eq (toBytes_self h1 q)
  have hx : x' = x := Except.ok.inj (h3'.symm.trans h3)
  subst hx
  have h9 := length_extraToBytes (length_slice _ _ _ (by rw [h1]; decide)) h3
  have hn : ((DirectoryEntry.parse32 slot q).filename ++
    List.replicate (16 - (DirectoryEntry.parse32 slot q).filename.length) PADDING_BYTE).length = 16 := by simp; omega
  have e1 := slotBytes_get h1 (a := [(DirectoryEntry.parse32 slot q).attributes.toByte, (DirectoryEntry.parse32 slot q).firstSector.track, (DirectoryEntry.parse32 slot q).firstSector.sector])
    (z := [UInt8.ofNat (n % 256), UInt8.ofNat (n / 256)]) rfl hn h9 rfl i
  have e2 := slotBytes_get h1 (a := [(DirectoryEntry.parse32 slot q).attributes.toByte, (DirectoryEntry.parse32 slot q).firstSector.track, (DirectoryEntry.parse32 slot q).firstSector.sector])
    (z := [UInt8.ofNat ((DirectoryEntry.parse32 slot q).fileSize % 256), UInt8.ofNat ((DirectoryEntry.parse32 slot q).fileSize / 256)]) rfl hn h9 rfl i
  rw [← h4'] at e2
  simp only [show i < 0x1E from hi, if_true] at e1 e2
  exact (congrArg (fun l => l[i]?) h4).trans (e1.trans e2.symm)

theorem rewrite_name {slot out : List Byte} {name : Petscii} {q : Option Position} {border : Bool}
    (h : { DirectoryEntry.parse32 slot q with geosBorder := border, filename := name }.toBytes slot = .ok out) {i : Nat}
    (hi : i < 5 ∨ 21 ≤ i) : out[i]? = slot[i]? := by
  obtain ⟨h1, h2, x, h3, h4⟩ := toBytes_eq h
  obtain ⟨-, h2', x', h3', h4'⟩ := toBytes_eq (toBytes_self h1 q)
  have hx : x' = x := Except.ok.inj (h3'.symm.trans h3)
  subst hx
  have h9 := length_extraToBytes (length_slice _ _ _ (by rw [h1]; decide)) h3
  have hn : ((DirectoryEntry.parse32 slot q).filename ++
    List.replicate (16 - (DirectoryEntry.parse32 slot q).filename.length) PADDING_BYTE).length = 16 := by simp; omega
  have hn' : (name ++ List.replicate (16 - name.length) PADDING_BYTE).length = 16 := by
    have : name.length ≤ 16 := h2
    simp; omega
  have e1 := slotBytes_get h1 (a := [(DirectoryEntry.parse32 slot q).attributes.toByte, (DirectoryEntry.parse32 slot q).firstSector.track, (DirectoryEntry.parse32 slot q).firstSector.sector])
    (z := [UInt8.ofNat ((DirectoryEntry.parse32 slot q).fileSize % 256), UInt8.ofNat ((DirectoryEntry.parse32 slot q).fileSize / 256)]) rfl hn' h9 rfl i
  have e2 := slotBytes_get h1 (a := [(DirectoryEntry.parse32 slot q).attributes.toByte, (DirectoryEntry.parse32 slot q).firstSector.track, (DirectoryEntry.parse32 slot q).firstSector.sector])
    (z := [UInt8.ofNat ((DirectoryEntry.parse32 slot q).fileSize % 256), UInt8.ofNat ((DirectoryEntry.parse32 slot q).fileSize / 256)]) rfl hn h9 rfl i
  rw [← h4'] at e2
  refine (congrArg (fun l => l[i]?) h4).trans (e1.trans (Eq.trans ?_ e2.symm))
  rcases hi with hi | hi
  · simp only [hi, if_true]
  · simp only [show ¬ i < 2 by omega, show ¬ i < 5 by omega, show ¬ i < 0x15 by omega, if_false]

/-! ## Writers -/

/-- A writer since `d0`: its block, and what it may change. -/
structure WFramed (s : Shape) (A : Location → Nat → Prop) (G : Location → Prop) (d0 : Device) (p : Position)
    (x : WSt) : Prop where
  st : Framed s A G d0 x.st
  w : WriterOk s x.w
  here : ∀ j, A x.w.location j
  position : x.w.entry.position = some p

/-- Kept whatever the result. -/
def Kept {σ : Type} (I : σ → Prop) (m : M σ α) : Prop := Safe True I m (fun _ => I) I

theorem Kept.onSt {m : M St α} (h : Kept (Framed s A G d0) m) :
    Kept (WFramed s A G d0 p) (ChainWriter.onSt m) := by
  refine Safe.zoom fun x hx => ?_
  refine Safe.weaken h (fun st hst => ?_) (fun _ st hst => ⟨hst, hx.w, hx.here, hx.position⟩)
    fun st hst => ⟨hst, hx.w, hx.here, hx.position⟩
  subst hst
  exact hx.st

/-- A fact of the precondition. -/
theorem Safe.given {σ : Type} {X φ : Prop} {P : σ → Prop} {m : M σ α} {Q : α → σ → Prop} {E : σ → Prop}
    (h : φ → Safe X P m Q E) : Safe X (fun x => P x ∧ φ) m Q E := fun x hx => h hx.2 x hx.1

/-- Not ending with an error only makes it easier. -/
theorem kept_of {σ : Type} {I : σ → Prop} {m : M σ α} (h : ∀ x, I x → I (m x).2) : Kept I m := by
  intro x hx
  have := h x hx
  rcases hr : m x with ⟨r, x'⟩
  rw [hr] at this
  cases r with
  | ok a => exact .inl ⟨a, rfl, this⟩
  | error q => exact .inr ⟨q, rfl, this, .inl trivial⟩

theorem Kept.state {σ : Type} {I : σ → Prop} {m : M σ α} (h : Kept I m) {x : σ} (hx : I x) : I (m x).2 :=
  Safe.kept h hx

theorem wkept_current : Kept (WFramed s A G d0 p) ChainWriter.writeCurrentBlock := by
  refine kept_of fun x h => ?_
  unfold ChainWriter.writeCurrentBlock
  rw [M.bind_of_ok (m := M.get) (s := x) (s' := x) (a := x) rfl]
  exact (Kept.onSt (framed_put_all (KeepLen.copy _) h.here)).state h

theorem wkept_increment (hp : ∀ l j, Field p 30 2 l j → A l j) :
    Kept (WFramed s A G d0 p) ChainWriter.incrementEntryBlocks := by
  refine kept_of fun x h => ?_
  obtain ⟨p', hp', hv, ho, hz⟩ := h.w.entry.position
  have hpp : p' = p := Option.some.inj (hp'.symm.trans h.position)
  subst hpp
  have hread := readEntry_any (d := x.st.dev) h.st.wf hp' hv ho hz
  have hl : (slotData x.st.dev s p').length = 32 := by
    unfold slotData
    rw [length_slice _ _ _ (by rw [h.st.wf.blk_length hv]; exact ho)]
  have hpl : Placed s (entryAt x.st.dev s p') := parse_placed hl hv ho hz
  have hpl' : Placed s { entryAt x.st.dev s p' with fileSize := (entryAt x.st.dev s p').fileSize + 1 } :=
    ⟨hpl.position, hpl.name, hpl.extra⟩
  unfold ChainWriter.incrementEntryBlocks
  rw [M.bind_of_ok (s' := x) (a := entryAt x.st.dev s p') (by rw [M.run_read, hread])]
  rw [modW_bind]
  split
  · rw [modW_bind]
    have hw2 : WriterOk s { x.w with entry :=
      { entryAt x.st.dev s p' with fileSize := (entryAt x.st.dev s p').fileSize + 1 } } :=
      ⟨h.w.block, h.w.tail, h.w.location, hpl'⟩
    cases hr : x.st.dev.writeEntry
        { entryAt x.st.dev s p' with fileSize := (entryAt x.st.dev s p').fileSize + 1 } with
    | ok d' =>
      rw [onSt_run (x := { x with w := _ }) (updDev_ok hr)]
      refine ⟨⟨(changesOnly_writeEntry h.st.wf hr).1, h.st.bam, h.st.only.trans ?_, h.st.free⟩, hw2, h.here, rfl⟩
      obtain ⟨p2, out, h1, h2, h3, h4, h5, rfl⟩ := writeEntry_inv h.st.wf hr
      have : p' = p2 := Option.some.inj h1
      subst this
      refine changesOnly_slot h.st.wf h2 h3 h5 fun i hi ha => ?_
      rcases Nat.lt_or_ge i 30 with hlt | hge
      · exact rewrite_size h4 hlt
      · exact absurd (hp _ _ ⟨rfl, by omega, by omega⟩) ha
    | error q =>
      rw [onSt_run (x := { x with w := _ }) (updDev_error hr)]
      exact ⟨h.st, hw2, h.here, rfl⟩
  · exact ⟨h.st, ⟨h.w.block, h.w.tail, h.w.location, hpl⟩, h.here, rfl⟩

theorem wkept_linkTo {next : Location} (hn : G next) : Kept (WFramed s A G d0 p) (ChainWriter.linkTo next) := by
  refine kept_of fun x h => ?_
  have hput : WFramed s A G d0 p (ChainWriter.onSt (St.updDev fun d =>
      d.sectorMut x.w.location (ChainWriter.writeLocation next)) x).2 :=
    (Kept.onSt (framed_put_all (fun n n' hl hn => by
      unfold ChainWriter.writeLocation at hn
      split at hn
      · cases hn; rw [length_splice _ _ _ (by simp; omega), hl]
      · cases hn) h.here)).state h
  unfold ChainWriter.linkTo
  rcases hr : ChainWriter.onSt (St.updDev fun d => d.sectorMut x.w.location (ChainWriter.writeLocation next)) x with ⟨r, x'⟩
  rw [hr] at hput
  cases r with
  | ok u => exact hput
  | error q =>
    cases q with
    | err y =>
      simp only
      have h2 := (Kept.onSt (p := p) (framed_free (s := s) (A := A) (d0 := d0) hn)).state hput
      rcases hr2 : ChainWriter.onSt (St.updBam fun b => b.free next) x' with ⟨r2, x2⟩
      rw [hr2] at h2
      cases r2 <;> exact h2
    | panic => exact hput
    | diverge => exact hput

theorem wkept_allocateNext (hG : ∀ l j, G l → A l j) (hp : ∀ l j, Field p 30 2 l j → A l j) :
    Safe True (WFramed s A G d0 p) ChainWriter.allocateNextBlock (fun a x => WFramed s A G d0 p x ∧ a = 254)
      (WFramed s A G d0 p) := by
  unfold ChainWriter.allocateNextBlock
  refine Safe.bind wkept_current fun _ => ?_
  refine Safe.bind (Q := fun next x => WFramed s A G d0 p x ∧ G next ∧ s.Valid next) ?_ fun next => ?_
  · refine (Safe.read (E := WFramed s A G d0 p) (fun _ _ => .inl trivial) fun _ h => h).post fun n x h => ?_
    exact ⟨h.1, h.1.st.free n (next_valid h.1.st.bam h.2).2, h.1.st.wf.valid_of_map (next_valid h.1.st.bam h.2).1⟩
  refine Safe.get.bind fun x0 => ?_
  intro x hx
  obtain ⟨⟨h, hn, hv⟩, rfl⟩ := hx
  obtain ⟨fresh, hf1, hf2, hf3, hf4⟩ := freshBlock_ok h.w.block
  rw [M.bind_of_ok (s' := x0) (a := fresh) (by rw [M.run_lift, hf1])]
  rw [modW_bind]
  have key : Safe True (WFramed s A G d0 p) (do
      ChainWriter.onSt (St.updDev fun d => d.sectorMut next (copyFromSlice fresh))
      ChainWriter.onSt (St.updBam fun b => b.allocate next)
      ChainWriter.incrementEntryBlocks
      ChainWriter.linkTo next
      ChainWriter.modW fun w => { w with location := next }
      pure (BLOCK_SIZE - 2) : M WSt Nat) (fun a x => WFramed s A G d0 p x ∧ a = 254) (WFramed s A G d0 p) := by
    refine Safe.bind (Kept.onSt (framed_put_all (KeepLen.copy _) fun j => hG _ _ hn)) fun _ => ?_
    refine Safe.bind (Kept.onSt (framed_allocate _)) fun _ => ?_
    refine Safe.bind (wkept_increment hp) fun _ => ?_
    refine Safe.bind (wkept_linkTo hn) fun _ => ?_
    refine Safe.bind (Q := fun _ => WFramed s A G d0 p) (Safe.modify fun x hx => ?_) fun _ => Safe.pure fun _ h => ⟨h, rfl⟩
    exact ⟨hx.st, ⟨hx.w.block, hx.w.tail, hv, hx.w.entry⟩, fun j => hG _ _ hn, hx.position⟩
  exact key _ ⟨h.st, ⟨hf2, ⟨hf3, by rw [hf4]; decide⟩, h.w.location, h.w.entry⟩, h.here, h.position⟩

theorem writer_tail {w : ChainWriter} (h : WriterOk s w) :
    ChainLink.new w.block = .ok (.tail ((byteAt w.block 1).toNat + 1)) := by
  obtain ⟨t0, t1⟩ := h.tail
  rw [chainLink_new _ (by rw [h.block]; omega), if_pos t0, if_neg (by
    intro e; rw [e] at t1; exact absurd t1 (by decide))]

theorem fillBlock_inv {block bytes block' : List Byte} {o : Nat} (hb : block.length = 256) (ho : 2 ≤ o)
    (h : ChainWriter.fillBlock block o bytes = .ok block') :
    block'.length = 256 ∧ byteAt block' 0 = 0 ∧ 1 ≤ (byteAt block' 1).toNat := by
  unfold ChainWriter.fillBlock at h
  split at h
  · rename_i hle
    have hl : (splice block o bytes).length = 256 := by rw [length_splice _ _ _ hle, hb]
    unfold ChainLink.toBytes at h
    rw [if_neg (by omega)] at h
    simp only at h
    rw [if_pos (by omega)] at h
    cases h
    refine ⟨by rw [length_splice _ _ _ (by simp; omega), hl], by simp [splice, byteAt], ?_⟩
    have : byteAt (splice (splice block o bytes) 0 [0, UInt8.ofNat (o + bytes.length - 1)]) 1 =
        UInt8.ofNat (o + bytes.length - 1) := by simp [splice, byteAt]
    rw [this, UInt8.toNat_ofNat']
    omega
  · cases h

theorem wkept_writeLoop (hG : ∀ l j, G l → A l j) (hp : ∀ l j, Field p 30 2 l j → A l j) :
    ∀ (fuel : Nat) (bs : List Byte), Kept (WFramed s A G d0 p) (ChainWriter.writeLoop fuel bs)
  | fuel, [] => by
    unfold ChainWriter.writeLoop
    exact Safe.pure fun x h => h
  | 0, b :: bs => kept_of fun _ h => h
  | fuel + 1, b :: bs => by
    unfold ChainWriter.writeLoop
    have hroom : Safe True (WFramed s A G d0 p) ChainWriter.room (fun a x => WFramed s A G d0 p x ∧ 2 ≤ a.1)
        (WFramed s A G d0 p) := by
      unfold ChainWriter.room
      refine Safe.get.bind fun x0 => ?_
      intro x hx
      obtain ⟨h, rfl⟩ := hx
      rw [M.bind_of_ok (s' := x0) (a := .tail ((byteAt x0.w.block 1).toNat + 1))
        (by rw [M.run_lift, writer_tail h.w])]
      simp only
      split
      · refine ((wkept_allocateNext hG hp).bind (R := fun (a : Nat × Nat) x => WFramed s A G d0 p x ∧ 2 ≤ a.1) fun a => ?_) x0 h
        exact Safe.pure fun x hx => ⟨hx.1, by rw [hx.2]; decide⟩
      · have := h.w.tail.2
        exact .inl ⟨_, rfl, h, by simp only; omega⟩
    refine Safe.bind hroom fun a => ?_
    rcases a with ⟨offset, remaining⟩
    simp only
    refine Safe.get.bind fun x0 => ?_
    intro x hx
    obtain ⟨⟨h, ho⟩, rfl⟩ := hx
    cases hf : ChainWriter.fillBlock x0.w.block offset ((b :: bs).take (min remaining (b :: bs).length)) with
    | error q =>
      rw [M.bind_of_error (s' := x0) (e := q) (by rw [M.run_lift])]
      exact .inr ⟨_, rfl, h, .inl trivial⟩
    | ok block =>
      rw [M.bind_of_ok (s' := x0) (a := block) (by rw [M.run_lift])]
      rw [modW_bind]
      obtain ⟨h1, h2⟩ := fillBlock_inv h.w.block ho hf
      exact wkept_writeLoop hG hp fuel _ _ ⟨h.st, ⟨h1, h2, h.w.location, h.w.entry⟩, h.here, h.position⟩

theorem wkept_write (hG : ∀ l j, G l → A l j) (hp : ∀ l j, Field p 30 2 l j → A l j) (buf : List Byte) :
    Kept (WFramed s A G d0 p) (ChainWriter.write buf) := by
  unfold ChainWriter.write
  refine Safe.bind (Q := fun _ => WFramed s A G d0 p) (Safe.modify fun x h => ?_) fun _ => ?_
  · exact ⟨h.st, ⟨h.w.block, h.w.tail, h.w.location, h.w.entry⟩, h.here, h.position⟩
  · exact Safe.bind (wkept_writeLoop hG hp _ _) fun _ => Safe.pure fun _ h => h

theorem wkept_flush (hA : ∀ l j, bamArea s.type l j → A l j) : Kept (WFramed s A G d0 p) ChainWriter.flush := by
  refine kept_of fun x h => ?_
  unfold ChainWriter.flush
  rw [M.bind_of_ok (m := M.get) (s := x) (s' := x) (a := x) rfl]
  split
  · have key : Kept (WFramed s A G d0 p) (do
        ChainWriter.writeCurrentBlock
        ChainWriter.onSt St.flushBam
        M.read fun x => x.st.dev.flush
        ChainWriter.modW fun w => { w with dirty := false } : M WSt Unit) := by
      refine Safe.bind wkept_current fun _ => ?_
      refine Safe.bind (Kept.onSt (framed_flushBam hA)) fun _ => ?_
      refine (Safe.read (E := WFramed s A G d0 p) (fun x _ => .inl trivial) fun _ h => h).bind fun _ => ?_
      exact Safe.modify fun x h => ⟨h.1.st, ⟨h.1.w.block, h.1.w.tail, h.1.w.location, h.1.w.entry⟩, h.1.here, h.1.position⟩
    exact key.state h
  · exact h

/-! ## New entries -/

theorem kept_extend {last : Location} (hG : ∀ l j, G l → A l j) (hl : ∀ j, j < 2 → A last j) :
    Safe True (Framed s A G d0) (extendDirectory last)
      (fun e st => Framed s A G d0 st ∧ ∃ p, e.position = some p ∧ G p.location) (Framed s A G d0) := by
  unfold extendDirectory
  refine (framed_next (some last)).bind fun new => ?_
  refine Safe.given fun ⟨hn, hv⟩ => ?_
  · refine Safe.bind (framed_put_all (fun blk n hb hn => ?_) fun j => hG _ _ hn) fun _ => ?_
    · obtain ⟨fresh, h1, h2, -⟩ := freshDirectory_ok hb
      rw [h1] at hn
      cases hn
      exact h2
    refine Safe.bind (Q := fun _ => Framed s A G d0) (kept_of fun st h => h) fun block => ?_
    refine Safe.bind (Q := fun entry st => Framed s A G d0 st ∧ ∃ p, entry.position = some p ∧ G p.location)
      ?_ fun entry => ?_
    · refine (Safe.lift (E := Framed s A G d0) (fun _ _ => .inl trivial) fun _ h => h).post fun e st he =>
        ⟨he.1, ⟨new, 0, UInt8.ofNat ENTRY_SIZE⟩, ?_, hn⟩
      have := he.2
      unfold DirectoryEntry.parse at this
      split at this
      · cases this; rfl
      · cases this
    refine Safe.given fun hpos => ?_
    refine Safe.bind (framed_allocate _) fun _ => Safe.bind (framed_put (fun blk n hb hn => ?_)
      fun blk n hb hn j hj ha => ?_) fun _ => ?_
    · cases hn
      rw [length_splice _ _ _ (by simp [BLOCK_SIZE] at hb ⊢; omega), hb]
    · cases hn
      rw [getElem?_splice _ _ _ _ (by simp)]
      rcases Nat.lt_or_ge j 2 with hlt | hge
      · exact absurd (hl j hlt) ha
      · rw [if_neg (by omega), if_neg (by simp; omega)]
    · exact Safe.pure fun _ h => ⟨h, hpos⟩

theorem kept_newEntry {first : Location} (hn : G first)
    (hA : ∀ p l j, e.position = some p → Field p 2 30 l j → A l j) :
    Kept (Framed s A G d0) (writeNewEntry e first) := by
  refine kept_of fun st h => ?_
  have hw := Kept.state (framed_writeEntry hA) h
  unfold writeNewEntry
  rcases hr : St.updDev (fun d => d.writeEntry e) st with ⟨r, st'⟩
  rw [hr] at hw
  cases r with
  | ok u => exact hw
  | error q =>
    cases q with
    | err y =>
      simp only
      have h2 := Kept.state (framed_free (s := s) (A := A) (d0 := d0) hn) hw
      rcases hr2 : St.updBam (fun b => b.free first) st' with ⟨r2, x2⟩
      rw [hr2] at h2
      cases r2 <;> exact h2
    | panic => exact hw
    | diverge => exact hw

theorem kept_createIn {slot : DirectoryEntry} {name : Petscii} {type : FileType} (hG : ∀ l j, G l → A l j)
    (hA : ∀ p l j, slot.position = some p → Field p 2 30 l j → A l j) :
    Kept (Framed s A G d0) (createIn slot name type) := by
  unfold createIn
  refine (framed_next none).bind fun first => ?_
  refine Safe.given fun ⟨hn, hv⟩ => ?_
  refine Safe.bind (framed_allocate _) fun _ => Safe.bind (framed_put_all (fun blk n hb hn => ?_) fun j => hG _ _ hn)
    fun _ => Safe.bind (kept_newEntry (e := newFileEntry slot name type first) hn hA)
    fun _ => Safe.pure fun _ h => h
  unfold CHAIN_LINK_ZERO ChainLink.toBytes at hn
  rw [if_neg (by simp [BLOCK_SIZE] at hb; omega)] at hn
  cases hn
  rw [length_splice _ _ _ (by simp [BLOCK_SIZE] at hb ⊢; omega), hb]

end Cbm
