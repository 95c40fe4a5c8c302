import Verif.Lemmas.Safe
import Verif.Props.Hazards
/-!
# Writers on any image
-/

namespace Cbm
open Spec

variable {X : Prop} {s : Shape} {p : Position} {k j : Nat} {l next : Location} {d : Device}

/-- What a writer looks like, whatever happened to the disk since it was opened. -/
structure WriterOk (s : Shape) (w : ChainWriter) : Prop where
  block : w.block.length = 256
  tail : byteAt w.block 0 = 0 ∧ 1 ≤ (byteAt w.block 1).toNat
  location : s.Valid w.location
  entry : Placed s w.entry

/-- A writer on an image. -/
structure WSound (s : Shape) (x : WSt) : Prop where
  st : Sound s x.st
  w : WriterOk s x.w

/-- The slot of the entry is out of the way, and its counter has room for `j` more, and then for `k` more or
for as many as there are free sectors. -/
structure Guard (s : Shape) (p : Position) (k j : Nat) (x : WSt) : Prop where
  position : x.w.entry.position = some p
  away : p.location ≠ x.w.location
  used : isFree x.st.bam p.location = false
  room : storedSize x.st.dev s p + (j + min k (marked s.type x.st.bam)) ≤ 65535

/-- Sound, and guarded unless excused. -/
def Guarded (X : Prop) (s : Shape) (p : Position) (k j : Nat) (x : WSt) : Prop :=
  WSound s x ∧ (¬ X → Guard s p k j x)

theorem modW_bind {α : Type} (f : ChainWriter → ChainWriter) (m : Unit → M WSt α) (x : WSt) :
    (ChainWriter.modW f >>= m) x = m () { x with w := f x.w } := rfl

theorem storedSize_congr {d d' : Device} (h : d'.blk s p.location = d.blk s p.location) :
    storedSize d' s p = storedSize d s p := by
  unfold storedSize entryAt slotData
  rw [h]

theorem Guard.valid {x : WSt} (h : Guard s p k j x) (hw : WSound s x) :
    s.Valid p.location ∧ p.offset.toNat + 32 ≤ 256 ∧ p.size = 32 := by
  obtain ⟨p', h1, h2⟩ := hw.w.entry.position
  have : p' = p := Option.some.inj (h1.symm.trans h.position)
  subst this
  exact h2

/-- Writing a sector other than the one with the entry. -/
theorem Guarded.put {x : WSt} {n : List Byte} (h : Guarded X s p k j x) (hv : s.Valid l) (hn : n.length = 256)
    (hne : ¬ X → p.location ≠ l) : Guarded X s p k j { x with st := { x.st with dev := x.st.dev.put s l n } } := by
  refine ⟨⟨⟨h.1.st.wf.put hv hn, h.1.st.bam⟩, h.1.w⟩, fun hX => ?_⟩
  obtain ⟨h1, h2, h3, h4⟩ := h.2 hX
  refine ⟨h1, h2, h3, ?_⟩
  show storedSize (x.st.dev.put s l n) s p + (j + min k (marked s.type x.st.bam)) ≤ 65535
  rw [storedSize_congr (h.1.st.wf.blk_put_other hv ((h.2 hX).valid h.1).1 (hne hX) hn)]
  exact h4

theorem safe_put {f : List Byte → Res (List Byte)} (hne : ¬ X → p.location ≠ l)
    (hf : ∀ blk : List Byte, blk.length = 256 → ∃ n, f blk = .ok n ∧ n.length = 256) :
    Safe X (Guarded X s p k j) (ChainWriter.onSt (St.updDev fun d => d.sectorMut l f))
      (fun _ => Guarded X s p k j) (WSound s) := by
  intro x h
  rcases sectorMut_returns h.1.st.wf (l := l) (f := f) fun hv => hf _ (h.1.st.wf.blk_length hv) with
    ⟨n, hv, -, hn, h1, -⟩ | ⟨y, h1⟩
  · rw [onSt_run (updDev_ok h1)]
    exact .inl ⟨(), rfl, h.put hv hn hne⟩
  · rw [onSt_run (updDev_error h1)]
    exact .inr ⟨_, rfl, h.1, .inr ⟨y, rfl⟩⟩

theorem safe_put_free {f : List Byte → Res (List Byte)} (hne : ¬ X → p.location ≠ l)
    (hf : ∀ blk : List Byte, blk.length = 256 → ∃ n, f blk = .ok n ∧ n.length = 256) :
    Safe X (fun x => Guarded X s p k j x ∧ isFree x.st.bam next = true)
      (ChainWriter.onSt (St.updDev fun d => d.sectorMut l f))
      (fun _ x => Guarded X s p k j x ∧ isFree x.st.bam next = true) (WSound s) := by
  refine (((safe_put hne hf).pre (P' := fun x => Guarded X s p k j x ∧ isFree x.st.bam next = true) fun x h => h.1).frame
    (I := fun x => isFree x.st.bam next = true) fun x h => ?_).weaken (fun _ h => h) (fun _ _ h => h) fun _ h => h.1
  have : (ChainWriter.onSt (St.updDev fun d => d.sectorMut l f) x).2.st.bam = x.st.bam := by
    cases hr : x.st.dev.sectorMut l f with
    | ok d => rw [onSt_run (updDev_ok hr)]
    | error q => rw [onSt_run (updDev_error hr)]
  rw [this]
  exact h.2

theorem copy_ok {src : List Byte} (h : src.length = 256) :
    ∀ blk : List Byte, blk.length = 256 → ∃ n, copyFromSlice src blk = .ok n ∧ n.length = 256 := by
  intro blk hb
  refine ⟨src, ?_, h⟩
  unfold copyFromSlice
  rw [if_pos (by omega)]

theorem safe_writeCurrent : Safe X (Guarded X s p k j) ChainWriter.writeCurrentBlock
    (fun _ => Guarded X s p k j) (WSound s) := by
  intro x h
  unfold ChainWriter.writeCurrentBlock
  rw [M.bind_of_ok (m := M.get) (s := x) (s' := x) (a := x) rfl]
  refine safe_put (p := p) (k := k) (j := j) (l := x.w.location) ?_ (copy_ok h.1.w.block) x h
  exact fun hX => (h.2 hX).away

/-- The counter of the entry. -/
theorem safe_increment : Safe X (Guarded X s p k (j + 1)) ChainWriter.incrementEntryBlocks
    (fun _ => Guarded X s p k j) (WSound s) := by
  intro x h
  obtain ⟨p', hp', hv, ho, hz⟩ := h.1.w.entry.position
  have hread := readEntry_any (d := x.st.dev) h.1.st.wf hp' hv ho hz
  have hl : (slotData x.st.dev s p').length = 32 := by
    unfold slotData
    rw [length_slice _ _ _ (by rw [h.1.st.wf.blk_length hv]; exact ho)]
  have hpl : Placed s (entryAt x.st.dev s p') := parse_placed hl hv ho hz
  have hpl' : Placed s { entryAt x.st.dev s p' with fileSize := (entryAt x.st.dev s p').fileSize + 1 } :=
    ⟨hpl.position, hpl.name, hpl.extra⟩
  unfold ChainWriter.incrementEntryBlocks
  rw [M.bind_of_ok (s' := x) (a := entryAt x.st.dev s p') (by rw [M.run_read, hread])]
  rw [modW_bind]
  have hw1 : WSound s { x with w := { x.w with entry := entryAt x.st.dev s p' } } :=
    ⟨h.1.st, h.1.w.block, h.1.w.tail, h.1.w.location, hpl⟩
  split
  · rename_i hlt
    rw [modW_bind]
    have hw2 : WSound s { x with w := { x.w with entry :=
      { entryAt x.st.dev s p' with fileSize := (entryAt x.st.dev s p').fileSize + 1 } } } :=
      ⟨h.1.st, h.1.w.block, h.1.w.tail, h.1.w.location, hpl'⟩
    rcases writeEntry_returns (d := x.st.dev) (p := p') h.1.st.wf hpl' rfl with
      ⟨out, h1, h2, -, -, h3, h4⟩ | h1
    · rw [onSt_run (x := { x with w := _ }) (updDev_ok h3)]
      refine .inl ⟨(), rfl, ⟨⟨h4, h.1.st.bam⟩, hw2.w⟩, fun hX => ?_⟩
      obtain ⟨g1, g2, g3, g4⟩ := h.2 hX
      have hpp : p' = p := Option.some.inj (hp'.symm.trans g1)
      subst hpp
      refine ⟨rfl, g2, g3, ?_⟩
      show storedSize (x.st.dev.put s p'.location (splice (x.st.dev.blk s p'.location) p'.offset.toNat out)) s p' +
        (j + min k (marked s.type x.st.bam)) ≤ 65535
      have hslot : slotData (x.st.dev.put s p'.location (splice (x.st.dev.blk s p'.location) p'.offset.toNat out)) s p' = out := by
        unfold slotData
        have hbl := h.1.st.wf.blk_length hv
        rw [h.1.st.wf.blk_put_same hv (by rw [length_splice _ _ _ (by omega), hbl])]
        exact slice_splice_same' _ _ _ _ h1.symm (by omega)
      have hnew : storedSize (x.st.dev.put s p'.location (splice (x.st.dev.blk s p'.location) p'.offset.toNat out)) s p' =
          storedSize x.st.dev s p' + 1 := by
        have hsz : (entryAt x.st.dev s p').fileSize = storedSize x.st.dev s p' := rfl
        unfold storedSize
        rw [show entryAt (x.st.dev.put s p'.location (splice (x.st.dev.blk s p'.location) p'.offset.toNat out)) s p' =
          DirectoryEntry.parse32 out (some p') by unfold entryAt; rw [hslot]]
        have hlo : byteAt out 0x1E = UInt8.ofNat (((entryAt x.st.dev s p').fileSize + 1) % 256) := by
          have := congrArg (fun l => byteAt l 0) h2
          simpa [slice, byteAt] using this
        have hhi : byteAt out 0x1F = UInt8.ofNat (((entryAt x.st.dev s p').fileSize + 1) / 256) := by
          have := congrArg (fun l => byteAt l 1) h2
          simpa [slice, byteAt] using this
        show (byteAt out 0x1F).toNat * 256 + (byteAt out 0x1E).toNat = _
        rw [hlo, hhi, UInt8.toNat_ofNat', UInt8.toNat_ofNat']
        omega
      rw [hnew]
      omega
    · rw [onSt_run (x := { x with w := _ }) (updDev_error h1)]
      exact .inr ⟨_, rfl, hw2, .inr ⟨_, rfl⟩⟩
  · rename_i hge
    refine .inr ⟨_, rfl, hw1, ?_⟩
    by_cases hX : X
    · exact .inl hX
    · exfalso
      obtain ⟨g1, -, -, g4⟩ := h.2 hX
      have hpp : p' = p := Option.some.inj (hp'.symm.trans g1)
      subst hpp
      unfold storedSize at g4
      omega

theorem countP_flip {α : Type} [DecidableEq α] {f g : α → Bool} {q : α} (hq : f q = true)
    (hg : ∀ x, g x = if x = q then false else f x) : ∀ {l : List α}, l.Nodup → q ∈ l →
    l.countP f = l.countP g + 1
  | [], _, h => by cases h
  | x :: l, hn, h => by
    rw [List.nodup_cons] at hn
    rw [List.countP_cons, List.countP_cons, hg x]
    by_cases hx : x = q
    · subst hx
      have : l.countP f = l.countP g := by
        refine List.countP_congr fun y hy => ?_
        have hne : y ≠ x := fun e => hn.1 (e ▸ hy)
        rw [hg y, if_neg hne]
      rw [if_pos rfl, hq, this]
      simp
    · have := countP_flip hq hg hn.2 ((List.mem_cons.1 h).resolve_left fun e => hx e.symm)
      rw [if_neg hx, this]
      omega

theorem allSectors_nodup (ty : DiskType) (n : Nat) : (allSectors ty n).Nodup := by
  refine (C39_enumeration_exact ty n).1.imp ?_
  rintro a c hac rfl
  omega

/-- Allocating a free sector. -/
theorem marked_take {ty : DiskType} {b b' : Bam} (hv : ValidLoc ty (bamTracks ty) l) (hf : isFree b l = true)
    (h : ∀ t n, freeAt b' t n = if t = l.track.toNat ∧ n = l.sector.toNat then false else freeAt b t n) :
    marked ty b = marked ty b' + 1 := by
  unfold marked
  refine countP_flip (q := (l.track.toNat, l.sector.toNat)) hf (fun x => ?_) (allSectors_nodup _ _)
    (mem_allSectors.2 ⟨hv.1, hv.2.1, hv.2.2⟩)
  rw [h]
  rcases x with ⟨t, n⟩
  simp only [Prod.mk.injEq]

/-- Taking the block out of the BAM. -/
theorem safe_take (hv : ValidLoc s.type (bamTracks s.type) next) :
    Safe X (fun x => Guarded X s p (k + 1) j x ∧ isFree x.st.bam next = true)
      (ChainWriter.onSt (St.updBam fun b => b.allocate next))
      (fun _ => Guarded X s p k (j + 1)) (WSound s) := by
  rintro x ⟨h, hfree⟩
  have hm : InMap s.type next := hv.inBam
  rcases h.1.st.bam.live with hlive | hdead
  · obtain ⟨b', hb', hf⟩ := allocate_ok hlive hm
    rw [onSt_run (updBam_ok hb')]
    refine .inl ⟨(), rfl, ⟨⟨h.1.st.wf, hf.of.size⟩, h.1.w⟩, fun hX => ?_⟩
    obtain ⟨g1, g2, g3, g4⟩ := h.2 hX
    refine ⟨g1, g2, ?_, ?_⟩
    · show freeAt b' _ _ = false
      rw [hf.free]
      split
      · rfl
      · exact g3
    · have := marked_take hv hfree hf.free
      show storedSize x.st.dev s p + (j + 1 + min k (marked s.type b')) ≤ 65535
      omega
  · have : x.st.bam.allocate next = fail .invalidBAM := modify_invalid hdead
    rw [onSt_run (st := x.st) (r := fail .invalidBAM) (by
      unfold St.updBam; exact M.update_error (by simp only [this]; rfl))]
    exact .inr ⟨_, rfl, h.1, .inr ⟨_, rfl⟩⟩

theorem safe_linkTo (hm : InMap s.type next) :
    Safe X (Guarded X s p k j) (ChainWriter.linkTo next) (fun _ => Guarded X s p k j) (WSound s) := by
  intro x h
  have hput := safe_put (X := X) (s := s) (p := p) (k := k) (j := j) (l := x.w.location)
    (f := ChainWriter.writeLocation next) (fun hX => (h.2 hX).away) (fun blk hb => by
      refine ⟨splice blk 0 [next.track, next.sector], ?_, ?_⟩
      · unfold ChainWriter.writeLocation
        rw [if_pos (by omega)]
      · rw [length_splice _ _ _ (by simp; omega), hb]) x h
  unfold ChainWriter.linkTo
  rcases hr : ChainWriter.onSt (St.updDev fun d => d.sectorMut x.w.location (ChainWriter.writeLocation next)) x with ⟨r, x'⟩
  rw [hr] at hput
  rcases hput with ⟨u, h1, h2⟩ | ⟨q, h1, h2, h3⟩
  · cases h1
    exact .inl ⟨(), rfl, h2⟩
  · cases h1
    cases q with
    | err y =>
      simp only
      have hfree := safe_free (X := X) (s := s) (l := next) (fun _ => hm) x'.st h2.st
      rcases hr2 : St.updBam (fun b => b.free next) x'.st with ⟨r2, st2⟩
      rw [hr2] at hfree
      rw [onSt_run hr2]
      rcases hfree with ⟨u, g1, g2⟩ | ⟨q, g1, g2, g3⟩
      · cases g1
        exact .inr ⟨_, rfl, ⟨g2, h2.w⟩, .inr ⟨y, rfl⟩⟩
      · cases g1
        exact .inr ⟨_, rfl, ⟨g2, h2.w⟩, g3⟩
    | panic => exact .inr ⟨_, rfl, h2, h3⟩
    | diverge => exact .inr ⟨_, rfl, h2, h3⟩

theorem safe_allocateNext : Safe X (Guarded X s p (k + 1) j) ChainWriter.allocateNextBlock
    (fun a x => Guarded X s p k j x ∧ a = 254 ∧ byteAt x.w.block 1 = 1) (WSound s) := by
  unfold ChainWriter.allocateNextBlock
  refine safe_writeCurrent.bind fun _ => ?_
  refine Safe.bind (Q := fun next x => Guarded X s p (k + 1) j x ∧ ValidLoc s.type (bamTracks s.type) next ∧
    (¬ X → p.location ≠ next) ∧ isFree x.st.bam next = true) ?_ fun next => ?_
  · intro x h
    rw [M.run_read]
    have hr := next_returns h.1.st.bam none nofun
    cases hn : x.st.bam.nextFreeBlock none with
    | ok n =>
      obtain ⟨h1, h2⟩ := next_valid h.1.st.bam hn
      refine .inl ⟨n, rfl, h, h1, fun hX e => ?_, h2⟩
      have := (h.2 hX).used
      rw [e, h2] at this
      cases this
    | error q =>
      rw [hn] at hr
      exact .inr ⟨q, rfl, h.1, SafeRes.error (.inr hr)⟩
  refine Safe.get.bind fun x0 => ?_
  intro x hx
  obtain ⟨⟨h, hnv, hne, hnf⟩, rfl⟩ := hx
  have hm : InMap s.type next := hnv.inBam
  obtain ⟨fresh, hf1, hf2, hf3, hf4⟩ := freshBlock_ok h.1.w.block
  rw [M.bind_of_ok (s' := x0) (a := fresh) (by rw [M.run_lift, hf1])]
  rw [modW_bind]
  have h' : Guarded X s p (k + 1) j { x0 with w := { x0.w with block := fresh } } :=
    ⟨⟨h.1.st, hf2, ⟨hf3, by rw [hf4]; decide⟩, h.1.w.location, h.1.w.entry⟩, fun hX =>
      ⟨(h.2 hX).position, (h.2 hX).away, (h.2 hX).used, (h.2 hX).room⟩⟩
  have hv : s.Valid next := h.1.st.wf.valid_of_map hnv
  have key : Safe X (fun x => (Guarded X s p (k + 1) j x ∧ isFree x.st.bam next = true) ∧ x.w.block = fresh) (do
      ChainWriter.onSt (St.updDev fun d => d.sectorMut next (copyFromSlice fresh))
      ChainWriter.onSt (St.updBam fun b => b.allocate next)
      ChainWriter.incrementEntryBlocks
      ChainWriter.linkTo next
      ChainWriter.modW fun w => { w with location := next }
      pure (BLOCK_SIZE - 2) : M WSt Nat)
      (fun a x => Guarded X s p k j x ∧ a = 254 ∧ byteAt x.w.block 1 = 1) (WSound s) := by
    have keepBlock : ∀ {m : M WSt Unit} {P : WSt → Prop} {Q : WSt → Prop}, Safe X P m (fun _ => Q) (WSound s) →
        (∀ x, (m x).2.w.block = x.w.block) →
        Safe X (fun x => P x ∧ x.w.block = fresh) m (fun _ x => Q x ∧ x.w.block = fresh) (WSound s) := by
      intro m P Q hm hk
      exact ((hm.pre (P' := fun x => P x ∧ x.w.block = fresh) fun x h => h.1).frame
        (I := fun x => x.w.block = fresh) fun x h => (hk x).trans h.2).weaken (fun _ h => h) (fun _ _ h => h)
          fun _ h => h.1
    have hon : ∀ (m : M St Unit) x, (ChainWriter.onSt m x).2.w.block = x.w.block := by
      intro m x
      unfold ChainWriter.onSt
      rw [M.run_zoom]
    refine (keepBlock (safe_put_free hne (copy_ok hf2)) (hon _)).bind fun _ => ?_
    refine (keepBlock (safe_take hnv) (hon _)).bind fun _ => ?_
    refine (keepBlock safe_increment fun x => ?_).bind fun _ => ?_
    · unfold ChainWriter.incrementEntryBlocks
      cases hr : x.st.dev.readEntry x.w.entry with
      | error q => rw [M.bind_of_error (s' := x) (e := q) (by rw [M.run_read, hr])]
      | ok e =>
        rw [M.bind_of_ok (s' := x) (a := e) (by rw [M.run_read, hr])]
        rw [modW_bind]
        split
        · rw [modW_bind]
          exact hon _ _
        · rfl
    refine (keepBlock (safe_linkTo hm) fun x => ?_).bind fun _ => ?_
    · unfold ChainWriter.linkTo
      have h1 := hon (St.updDev fun d => d.sectorMut x.w.location (ChainWriter.writeLocation next)) x
      rcases hr : ChainWriter.onSt (St.updDev fun d => d.sectorMut x.w.location (ChainWriter.writeLocation next)) x with ⟨r, x'⟩
      rw [hr] at h1
      cases r with
      | ok u => exact h1
      | error q =>
        cases q with
        | err y =>
          simp only
          have h2 := hon (St.updBam fun b => b.free next) x'
          rcases hr2 : ChainWriter.onSt (St.updBam fun b => b.free next) x' with ⟨r2, x2⟩
          rw [hr2] at h2
          cases r2 <;> exact h2.trans h1
        | panic => exact h1
        | diverge => exact h1
    refine Safe.bind (Q := fun _ x => Guarded X s p k j x ∧ x.w.block = fresh) (Safe.modify fun x hx => ?_) fun _ => ?_
    · refine ⟨⟨⟨hx.1.1.st, hx.1.1.w.block, hx.1.1.w.tail, hv, hx.1.1.w.entry⟩, fun hX => ?_⟩, hx.2⟩
      exact ⟨(hx.1.2 hX).position, hne hX, (hx.1.2 hX).used, (hx.1.2 hX).room⟩
    · refine Safe.pure fun x hx => ⟨hx.1, rfl, ?_⟩
      rw [hx.2]
      exact hf4
  exact key _ ⟨⟨h', hnf⟩, rfl⟩

/-- How many blocks the rest of the buffer can need. -/
def blocksFor (m : Nat) : Nat := (m + 253) / 254

theorem safe_writeLoop : ∀ (fuel : Nat) (bs : List Byte), bs.length ≤ fuel →
    Safe X (Guarded X s p (blocksFor bs.length + k) 0) (ChainWriter.writeLoop fuel bs) (fun _ => Guarded X s p k 0)
      (WSound s)
  | fuel, [], _ => by
    unfold ChainWriter.writeLoop
    exact Safe.pure fun x h => by simpa [blocksFor] using h
  | 0, b :: bs, h => by simp at h
  | fuel + 1, b :: bs, hle => by
    unfold ChainWriter.writeLoop
    -- what is left after a pass
    have ih := fun n => safe_writeLoop fuel ((b :: bs).drop n)
    intro x h
    -- the room in the block
    have hroom : Safe X (Guarded X s p (blocksFor (b :: bs).length + k) 0) ChainWriter.room
        (fun a x => ∃ m, a = (m + 1, 255 - m) ∧ 1 ≤ m ∧ m < 255 ∧ (byteAt x.w.block 1).toNat = m ∧
          Guarded X s p (blocksFor ((b :: bs).drop (min (255 - m) (b :: bs).length)).length + k) 0 x) (WSound s) := by
      unfold ChainWriter.room
      refine Safe.get.bind fun x0 => ?_
      intro x hx
      obtain ⟨h, rfl⟩ := hx
      obtain ⟨t0, t1⟩ := h.1.w.tail
      have hlink : ChainLink.new x0.w.block = .ok (.tail ((byteAt x0.w.block 1).toNat + 1)) := by
        rw [chainLink_new _ (by rw [h.1.w.block]; omega), if_pos t0, if_neg (by
          intro e; rw [e] at t1; exact absurd t1 (by decide))]
      rw [M.bind_of_ok (s' := x0) (a := .tail ((byteAt x0.w.block 1).toNat + 1)) (by rw [M.run_lift, hlink])]
      have hb := (byteAt x0.w.block 1).toNat_lt
      simp only [List.length_drop]
      split
      · rename_i hfull
        have hk : blocksFor (b :: bs).length + k =
            blocksFor ((b :: bs).length - min 254 (b :: bs).length) + k + 1 := by
          unfold blocksFor
          have : 1 ≤ (b :: bs).length := by simp
          omega
        rw [hk] at h
        refine (safe_allocateNext.bind (R := fun a x => ∃ m, a = (m + 1, 255 - m) ∧ 1 ≤ m ∧ m < 255 ∧
          (byteAt x.w.block 1).toNat = m ∧
          Guarded X s p (blocksFor ((b :: bs).length - min (255 - m) (b :: bs).length) + k) 0 x) fun a => ?_) x0 h
        refine Safe.pure fun x hx => ?_
        obtain ⟨g1, rfl, g3⟩ := hx
        exact ⟨1, rfl, by omega, by omega, by rw [g3]; rfl, g1⟩
      · rename_i hfull
        have hfull : (byteAt x0.w.block 1).toNat + 1 ≠ 256 := hfull
        refine .inl ⟨_, rfl, (byteAt x0.w.block 1).toNat, ?_, t1, by omega, rfl, h.1, fun hX => ?_⟩
        · show ((byteAt x0.w.block 1).toNat + 1, 256 - ((byteAt x0.w.block 1).toNat + 1)) = _
          congr 1
          omega
        · obtain ⟨g1, g2, g3, g4⟩ := h.2 hX
          refine ⟨g1, g2, g3, ?_⟩
          have : blocksFor ((b :: bs).length - min (255 - (byteAt x0.w.block 1).toNat) (b :: bs).length) ≤
              blocksFor (b :: bs).length := by
            unfold blocksFor; omega
          show storedSize x0.st.dev s p + (0 + min _ (marked s.type x0.st.bam)) ≤ _
          omega
    refine (hroom.bind (R := fun _ => Guarded X s p k 0) fun a => ?_) x h
    rcases a with ⟨offset, remaining⟩
    simp only
    refine Safe.get.bind fun x0 => ?_
    intro x hx
    obtain ⟨⟨m, hm, m1, m2, m3, h⟩, rfl⟩ := hx
    cases hm
    have htl : ((b :: bs).take (min (255 - m) (b :: bs).length)).length = min (255 - m) (b :: bs).length := by
      rw [List.length_take]; omega
    obtain ⟨block, hb1, hb2, hb3, hb4, -⟩ := fillBlock_ok (block := x0.w.block) (m := m)
      (bytes := (b :: bs).take (min (255 - m) (b :: bs).length)) h.1.w.block m1 (by rw [htl]; omega)
    rw [M.bind_of_ok (s' := x0) (a := block) (by rw [M.run_lift, hb1])]
    rw [modW_bind]
    refine ih _ ?_ _ ?_
    · simp only [List.length_drop, List.length_cons] at hle ⊢
      omega
    · exact ⟨⟨h.1.st, hb2, ⟨hb3, Nat.le_trans m1 (by rw [hb4]; exact Nat.le_add_right _ _)⟩, h.1.w.location, h.1.w.entry⟩, fun hX =>
        ⟨(h.2 hX).position, (h.2 hX).away, (h.2 hX).used, (h.2 hX).room⟩⟩

theorem safe_write (buf : List Byte) : Safe X (Guarded X s p (blocksFor buf.length + k) 0) (ChainWriter.write buf)
    (fun _ => Guarded X s p k 0) (WSound s) := by
  unfold ChainWriter.write
  refine Safe.bind (Q := fun _ => Guarded X s p (blocksFor buf.length + k) 0) (Safe.modify fun x h => ?_) fun _ => ?_
  · exact ⟨⟨h.1.st, h.1.w.block, h.1.w.tail, h.1.w.location, h.1.w.entry⟩, fun hX =>
      ⟨(h.2 hX).position, (h.2 hX).away, (h.2 hX).used, (h.2 hX).room⟩⟩
  · exact (safe_writeLoop _ _ (Nat.le_refl _)).bind fun _ => Safe.pure fun _ h => h

theorem deviceFlush_returns (d : Device) : Returns d.flush := by
  unfold Device.flush Image.checkWritability Image.flush
  cases d.image.kind <;> exact ⟨nofun, nofun⟩

/-- Flushing never panics. -/
theorem safe_flush : Safe X (WSound s) ChainWriter.flush (fun _ => WSound s) (WSound s) := by
  unfold ChainWriter.flush
  refine Safe.get.bind fun x0 => ?_
  intro x hx
  obtain ⟨h, rfl⟩ := hx
  split
  · have hcur : Safe X (WSound s) ChainWriter.writeCurrentBlock (fun _ => WSound s) (WSound s) := by
      intro x h
      unfold ChainWriter.writeCurrentBlock
      rw [M.bind_of_ok (m := M.get) (s := x) (s' := x) (a := x) rfl]
      rcases sectorMut_returns h.st.wf (l := x.w.location) (f := copyFromSlice x.w.block) fun hv =>
          copy_ok h.w.block _ (h.st.wf.blk_length hv) with ⟨n, hv, -, hn, h1, h2⟩ | ⟨y, h1⟩
      · rw [onSt_run (updDev_ok h1)]
        exact .inl ⟨(), rfl, ⟨h2, h.st.bam⟩, h.w⟩
      · rw [onSt_run (updDev_error h1)]
        exact .inr ⟨_, rfl, h, .inr ⟨y, rfl⟩⟩
    have key : Safe X (WSound s) (do
        ChainWriter.writeCurrentBlock
        ChainWriter.onSt St.flushBam
        M.read fun x => x.st.dev.flush
        ChainWriter.modW fun w => { w with dirty := false } : M WSt Unit) (fun _ => WSound s) (WSound s) := by
      refine hcur.bind fun _ => ?_
      refine Safe.bind (Q := fun _ => WSound s) ?_ fun _ => ?_
      · intro x h
        have hf := safe_flushBam (X := X) x.st h.st
        rcases hr : St.flushBam x.st with ⟨r, st'⟩
        rw [hr] at hf
        rw [onSt_run hr]
        rcases hf with ⟨u, g1, g2⟩ | ⟨q, g1, g2, g3⟩
        · exact .inl ⟨u, g1, g2, h.w⟩
        · exact .inr ⟨q, g1, ⟨g2, h.w⟩, g3⟩
      refine (Safe.read (E := WSound s) (fun x _ => .inr (deviceFlush_returns _)) fun _ h => h).bind fun _ => ?_
      exact Safe.modify fun x h => ⟨h.1.st, h.1.w.block, h.1.w.tail, h.1.w.location, h.1.w.entry⟩
    exact key x0 h
  · exact .inl ⟨(), rfl, h⟩

/-- What opening a writer gives. -/
theorem tailLoop_ok (hw : Wf d s) : ∀ (fuel : Nat) {start : Location} {loc : Location} {block : List Byte},
    s.Valid start → tailLoop d fuel start (d.blk s start) = .ok (loc, block) →
    s.Valid loc ∧ block = d.blk s loc ∧ byteAt block 0 = 0 ∧ 1 ≤ (byteAt block 1).toNat
  | 0, _, _, _, _, h => by cases h
  | fuel + 1, start, loc, block, hv, h => by
    unfold tailLoop at h
    rw [chainLink_new _ (by rw [hw.blk_length hv]; omega)] at h
    split at h
    · rename_i h0
      split at h
      · cases h
      · rename_i h1
        cases h
        refine ⟨hv, rfl, h0, ?_⟩
        have : (byteAt (d.blk s start) 1).toNat ≠ 0 := fun e => h1 (UInt8.toNat.inj (by simpa using e))
        omega
    · rw [res_bind_ok] at h
      simp only at h
      obtain ⟨bl, hb, h⟩ := res_bind_eq_ok.1 h
      by_cases hv' : s.Valid (linkBytes (d.blk s start))
      · rw [hw.sector hv'] at hb
        cases hb
        exact tailLoop_ok hw fuel hv' h
      · rw [hw.sector_invalid hv'] at hb; cases hb

theorem writer_ok {e : DirectoryEntry} {w : ChainWriter} (hw : Wf d s) (he : Placed s e)
    (h : ChainWriter.new d e l = .ok w) : WriterOk s w := by
  unfold ChainWriter.new at h
  obtain ⟨bl, hb, h⟩ := res_bind_eq_ok.1 h
  by_cases hv : s.Valid l
  · rw [hw.sector hv] at hb
    cases hb
    obtain ⟨⟨loc, block⟩, ht, h⟩ := res_bind_eq_ok.1 h
    cases h
    obtain ⟨h1, h2, h3⟩ := tailLoop_ok hw _ hv ht
    exact ⟨by rw [h2]; exact hw.blk_length h1, h3, h1, he⟩
  · rw [hw.sector_invalid hv] at hb; cases hb

end Cbm
