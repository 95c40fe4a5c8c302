import Verif.Lemmas.FootprintDisk
import Verif.Spec.Territory
/-!
# Chains that stay within a territory
-/

namespace Cbm
open Spec

/-- The directory as it was at the start: its sectors, and the last of those that are not `Own`, with the
second byte of its link. -/
structure Zone (s : Shape) (Own : Location → Prop) where
  has : Location → Prop
  ends : Location → Byte → Prop
  inside : ∀ l n, ends l n → has l
  apart : ∀ l n, ends l n → ¬ Own l
  valid : ∀ l n, ends l n → s.Valid l

instance {s : Shape} {Own : Location → Prop} : CoeFun (Zone s Own) fun _ => Location → Prop := ⟨Zone.has⟩

variable {s : Shape} {A : Location → Nat → Prop} {G Own H H' P S : Location → Prop} {Dir : Zone s Own} {d d' : Device}
  {l m start : Location} {e : DirectoryEntry} {α : Type}

/-- The link of a sector. -/
def Next (d : Device) (s : Shape) (l m : Location) : Prop :=
  s.Valid l ∧ byteAt (d.blk s l) 0 ≠ 0 ∧ linkBytes (d.blk s l) = m

theorem closed_path (hc : ∀ l m, P l → Next d s l m → P m) : ∀ {ls : List Location} {start : Location},
    Path d s start ls l → P start → P l
  | [], start, h, hs => by
    have := h.start
    simp at this
    rw [this]
    exact hs
  | a :: ls, start, h, hs => by
    have ha : a = start := by
      have := h.start
      simpa using this
    subst ha
    have hn := h.nodup
    rw [List.nodup_cons] at hn
    obtain ⟨b, hb⟩ : ∃ b, (ls ++ [l]).head? = some b := by cases ls <;> exact ⟨_, rfl⟩
    have hl : linkBytes (d.blk s a) = b ∧ Linked d s (ls ++ [l]) := by
      have := h.linked
      cases ls with
      | nil => cases hb; exact this
      | cons c ls => cases hb; exact this
    refine closed_path hc (start := b) ⟨fun x hx => h.valid x (by simp [hx]), hn.2,
      fun x hx => h.onward x (by simp [hx]), hl.2, hb⟩ (hc a b hs ⟨h.valid a (by simp), h.onward a (by simp), hl.1⟩)

theorem leads_refl (start : Location) : LeadsTo d s start start :=
  ⟨[], ⟨fun _ h => (by cases h), List.nodup_nil, fun _ h => (by cases h), trivial, rfl⟩⟩

theorem leads_next (h : LeadsTo d s start l) (hn : Next d s l m) : LeadsTo d s start m := by
  have hext : ∀ ls, l ∉ ls → Path d s start ls l → LeadsTo d s start m := by
    intro ls hl hp
    refine ⟨ls ++ [l], ⟨fun x hx => ?_, ?_, fun x hx => ?_, ?_, ?_⟩⟩
    · rcases List.mem_append.1 hx with hx | hx
      · exact hp.valid x hx
      · rw [List.mem_singleton.1 hx]; exact hn.1
    · rw [List.nodup_append]
      refine ⟨hp.nodup, by simp, fun a ha b hb => ?_⟩
      rw [List.mem_singleton.1 hb]
      rintro rfl
      exact hl ha
    · rcases List.mem_append.1 hx with hx | hx
      · exact hp.onward x hx
      · rw [List.mem_singleton.1 hx]; exact hn.2.1
    · rw [List.append_assoc]
      exact linked_append_cons.2 ⟨hp.linked, hn.2.2, trivial⟩
    · have := hp.start
      cases ls with
      | nil => simpa using this
      | cons a ls => simpa using this
  obtain ⟨ls, hp⟩ := h
  by_cases hl : l ∈ ls
  · obtain ⟨a, c, rfl⟩ := List.append_of_mem hl
    refine hext a (fun ha => ?_) hp.cut
    have := hp.nodup
    rw [List.nodup_append] at this
    exact this.2.2 l ha l (by simp) rfl
  · exact hext ls hl hp

/-- Chains do not lead out of `S`, and the directory not out of `Dir` and `S`. -/
structure Shut (d : Device) (s : Shape) (Dir : Zone s Own) (S : Location → Prop) : Prop where
  data : ∀ l m, S l → Next d s l m → S m
  dir : ∀ l m, Dir l → Next d s l m → Dir m ∨ S m
  tail : ∀ l n, Dir.ends l n → byteAt (d.blk s l) 0 = 0 → byteAt (d.blk s l) 1 = n

theorem Shut.leads (h : Shut d s Dir S) (hs : S start) (hl : LeadsTo d s start l) : S l := by
  obtain ⟨ls, hp⟩ := hl
  exact closed_path h.data hp hs

theorem Shut.leadsDir (h : Shut d s Dir S) (hs : Dir start) (hl : LeadsTo d s start l) : Dir l ∨ S l := by
  obtain ⟨ls, hp⟩ := hl
  refine closed_path (P := fun l => Dir l ∨ S l) (fun a b ha hn => ?_) hp (.inl hs)
  rcases ha with ha | ha
  · exact h.dir a b ha hn
  · exact .inr (h.data a b ha hn)

/-- A sector was marked as the last of its chain, or linked to a sector of `S`; the other links are as they were. -/
theorem Shut.change (h : Shut d s Dir S) (hc : ∀ l m, (S l ∨ Dir l) → Next d' s l m → Next d s l m ∨ S m)
    (ht : ∀ l n, Dir.ends l n → byteAt (d'.blk s l) 0 = 0 →
      byteAt (d.blk s l) 0 = 0 ∧ byteAt (d'.blk s l) 1 = byteAt (d.blk s l) 1) :
    Shut d' s Dir S := by
  refine ⟨fun l m hl hn => ?_, fun l m hl hn => ?_, fun l n he h0 => ?_⟩
  · rcases hc l m (.inl hl) hn with hn | hn
    · exact h.data l m hl hn
    · exact hn
  · rcases hc l m (.inr hl) hn with hn | hn
    · exact h.dir l m hl hn
    · exact .inr hn
  · obtain ⟨h1, h2⟩ := ht l n he h0
    rw [h2]
    exact h.tail l n he h1

theorem same_byte {j : Nat} (h : SameBut s A d.image.bytes d'.image.bytes) (hv : s.Valid l) (hj : j < 256)
    (ha : ¬ A l j) : byteAt (d'.blk s l) j = byteAt (d.blk s l) j := by
  have := h.2.1 l j hv hj ha
  have e : ∀ d : Device, (d.blk s l)[j]? = d.image.bytes[256 * sectorNumber s.type l + j]? := by
    intro d
    show (slice _ _ _)[j]? = _
    rw [getElem?_slice, if_pos hj]
  unfold byteAt
  rw [List.getD_eq_getElem?_getD, List.getD_eq_getElem?_getD, e, e, this]

theorem same_next (h : SameBut s A d.image.bytes d'.image.bytes) (h0 : ¬ A l 0) (h1 : ¬ A l 1)
    (hn : Next d' s l m) : Next d s l m := by
  obtain ⟨hv, n1, n2⟩ := hn
  have e0 := same_byte h hv (by decide) h0
  have e1 := same_byte h hv (by decide) h1
  refine ⟨hv, by rw [← e0]; exact n1, ?_⟩
  rw [← n2]
  unfold linkBytes
  rw [e0, e1]

/-! ## The shared state -/

/-- The map has no sectors free but `Own`; from the sectors `H` chains do not lead out of `Own`. -/
structure Fence (s : Shape) (Own : Location → Prop) (Dir : Zone s Own) (H : Location → Prop) (st : St) : Prop where
  wf : Wf st.dev s
  bam : BamSize st.bam s.type
  free : ∀ l, isFree st.bam l = true → Own l
  shut : ∃ S : Location → Prop, (∀ l, H l → S l) ∧ (∀ l, S l → Own l) ∧ Shut st.dev s Dir S

theorem Fence.mono {st : St} (h : Fence s Own Dir H st) (hH : ∀ l, H' l → H l) : Fence s Own Dir H' st := by
  obtain ⟨S, h1, h2, h3⟩ := h.shut
  exact ⟨h.wf, h.bam, h.free, S, fun l hl => h1 l (hH l hl), h2, h3⟩

theorem fence_allocate (l : Location) : Kept (Fence s Own Dir H) (St.updBam fun b => b.allocate l) := by
  refine kept_of fun st h => ?_
  cases ha : st.bam.allocate l with
  | ok b' =>
    rw [updBam_ok ha]
    exact ⟨h.wf, modifyEntry_size ha h.bam, fun m hm => h.free m (isFree_allocate ha hm), h.shut⟩
  | error q => rw [updBam_error ha]; exact h

theorem fence_free (hl : Own l) : Kept (Fence s Own Dir H) (St.updBam fun b => b.free l) := by
  refine kept_of fun st h => ?_
  cases ha : st.bam.free l with
  | ok b' =>
    rw [updBam_ok ha]
    refine ⟨h.wf, modifyEntry_size ha h.bam, fun m hm => ?_, h.shut⟩
    rcases isFree_free ha hm with hm | rfl
    · exact h.free m hm
    · exact hl
  | error q => rw [updBam_error ha]; exact h

theorem fence_next (prev : Option Location) :
    Safe True (Fence s Own Dir H) (St.readBam fun b => b.nextFreeBlock prev)
      (fun n st => Fence s Own Dir H st ∧ Own n ∧ s.Valid n) (Fence s Own Dir H) :=
  (Safe.read (E := Fence s Own Dir H) (fun _ _ => .inl trivial) fun _ h => h).post fun n st h =>
    ⟨h.1, h.1.free n (next_valid h.1.bam h.2).2, h.1.wf.valid_of_map (next_valid h.1.bam h.2).1⟩

/-- Writing bytes that are not links. -/
theorem Fence.other {st st' : St} (h : Fence s Own Dir H st) (hw : Wf st'.dev s) (hb : st'.bam = st.bam)
    (hc : ChangesOnly s A st.dev st'.dev) (hA : ∀ l j, (Own l ∨ Dir l) → j < 2 → ¬ A l j) :
    Fence s Own Dir H st' := by
  obtain ⟨S, h1, h2, h3⟩ := h.shut
  refine ⟨hw, by rw [hb]; exact h.bam, by rw [hb]; exact h.free, S, h1, h2, h3.change (fun l m hl hn => .inl ?_) fun l n hl h0 => ?_⟩
  · have hl : Own l ∨ Dir l := hl.imp (h2 l) id
    exact same_next hc.last (hA l 0 hl (by decide)) (hA l 1 hl (by decide)) hn
  · have hv := Dir.valid l n hl
    have hd := Dir.inside l n hl
    rw [same_byte hc.last hv (by decide) (hA l 0 (.inr hd) (by decide))] at h0
    exact ⟨h0, same_byte hc.last hv (by decide) (hA l 1 (.inr hd) (by decide))⟩

theorem fence_flushBam (hA : ∀ l j, (Own l ∨ Dir l) → ¬ bamArea s.type l j) : Kept (Fence s Own Dir H) St.flushBam := by
  refine kept_of fun st h => ?_
  have := Kept.state (framed_flushBam (G := fun l => isFree st.bam l = true) fun _ _ h => h)
    (⟨h.wf, h.bam, changesOnly_refl _, fun _ h => h⟩ : Framed s (bamArea s.type) _ st.dev st)
  have hb : (St.flushBam st).2.bam = st.bam := by
    unfold St.flushBam St.onDev
    rfl
  exact h.other this.wf hb this.only fun l j hl _ => hA l j hl

/-- Storing a sector: what it is afterwards. -/
theorem sectorMut_inv {f : List Byte → Res (List Byte)} (hw : Wf d s) (hk : KeepLen f)
    (h : d.sectorMut l f = .ok d') : s.Valid l ∧ ∃ n, f (d.blk s l) = .ok n ∧ n.length = 256 ∧ Wf d' s ∧
      d'.blk s l = n ∧ ∀ m, s.Valid m → m ≠ l → d'.blk s m = d.blk s m := by
  by_cases hwr : Writable d
  · by_cases hv : s.Valid l
    · rw [hw.sectorMut_eq hwr hv] at h
      cases hn : f (d.blk s l) with
      | error e => rw [hn] at h; cases h
      | ok n =>
        rw [hn] at h
        cases h
        have hlen : n.length = 256 := hk _ _ (hw.blk_length hv) hn
        exact ⟨hv, n, rfl, hlen, hw.put hv hlen, hw.blk_put_same hv hlen,
          fun m hm hne => hw.blk_put_other hv hm hne hlen⟩
    · rw [hw.sectorMut_invalid hwr hv] at h; cases h
  · rw [sectorMut_readOnly' hwr] at h; cases h

/-- Storing a sector that is the last of its chain. -/
theorem fence_putTail {f : List Byte → Res (List Byte)} (hk : KeepLen f) (hl : Own l)
    (hf : ∀ blk n, blk.length = 256 → f blk = .ok n → byteAt n 0 = 0) :
    Safe True (Fence s Own Dir H) (St.updDev fun d => d.sectorMut l f)
      (fun _ => Fence s Own Dir (fun m => H m ∨ m = l)) (Fence s Own Dir H) := by
  intro st h
  cases hr : st.dev.sectorMut l f with
  | ok d' =>
    rw [updDev_ok hr]
    obtain ⟨hv, n, h1, h2, h3, h4, h5⟩ := sectorMut_inv h.wf hk hr
    obtain ⟨S, g1, g2, g3⟩ := h.shut
    have htail := hf _ n (h.wf.blk_length hv) h1
    have hnext : ∀ a m, Next d' s a m → a ≠ l ∧ Next st.dev s a m := by
      rintro a m ⟨k1, k2, k3⟩
      have hne : a ≠ l := by
        rintro rfl
        rw [h4] at k2
        exact k2 htail
      rw [h5 a k1 hne] at k2 k3
      exact ⟨hne, k1, k2, k3⟩
    refine .inl ⟨(), rfl, h3, h.bam, h.free, fun m => S m ∨ m = l, fun m hm => hm.imp (g1 m) id,
      fun m hm => hm.elim (g2 m) fun e => e ▸ hl, fun a m ha hn => ?_, fun a m ha hn => ?_, fun a n ha h0 => ?_⟩
    · obtain ⟨hne, hn⟩ := hnext a m hn
      exact .inl (g3.data a m (ha.resolve_right hne) hn)
    · obtain ⟨hne, hn⟩ := hnext a m hn
      exact (g3.dir a m ha hn).imp id .inl
    · have hne : a ≠ l := fun e => Dir.apart a n ha (e ▸ hl)
      have hv := Dir.valid a n ha
      replace h0 : byteAt (d'.blk s a) 0 = 0 := h0
      show byteAt (d'.blk s a) 1 = n
      rw [h5 a hv hne] at h0 ⊢
      exact g3.tail a n ha h0
  | error q => rw [updDev_error hr]; exact .inr ⟨q, rfl, h, .inl trivial⟩

/-- Linking a sector to one from which chains do not lead out. -/
theorem fence_link {f : List Byte → Res (List Byte)} {next : Location} (hk : KeepLen f) (hn : H next) (hvn : s.Valid next)
    (hf : ∀ blk n, blk.length = 256 → f blk = .ok n → linkBytes n = next) :
    Kept (Fence s Own Dir H) (St.updDev fun d => d.sectorMut l f) := by
  refine kept_of fun st h => ?_
  cases hr : st.dev.sectorMut l f with
  | ok d' =>
    rw [updDev_ok hr]
    obtain ⟨hv, n, h1, h2, h3, h4, h5⟩ := sectorMut_inv h.wf hk hr
    obtain ⟨S, g1, g2, g3⟩ := h.shut
    refine ⟨h3, h.bam, h.free, S, g1, g2, g3.change ?_ fun a n' ha h0 => ?_⟩
    · rintro a m ha ⟨k1, k2, k3⟩
      by_cases hne : a = l
      · subst hne
        rw [h4, hf _ n (h.wf.blk_length hv) h1] at k3
        subst k3
        exact .inr (g1 _ hn)
      · rw [h5 a k1 hne] at k2 k3
        exact .inl ⟨k1, k2, k3⟩
    · replace h0 : byteAt (d'.blk s a) 0 = 0 := h0
      show _ ∧ byteAt (d'.blk s a) 1 = _
      by_cases hne : a = l
      · subst hne
        exfalso
        rw [h4] at h0
        have : (linkBytes n).track = 0 := h0
        rw [hf _ n (h.wf.blk_length hv) h1] at this
        have h6 := hvn.1
        rw [this] at h6
        exact absurd h6 (by decide)
      · have hv' := Dir.valid a n' ha
        rw [h5 a hv' hne] at h0 ⊢
        exact ⟨h0, rfl⟩
  | error q => rw [updDev_error hr]; exact h

theorem field_link {p : Position} {o n j : Nat} (h : Field p (o + 2) n l j) : 2 ≤ j := by
  have := h.2.1
  omega

theorem fence_writeEntry : Kept (Fence s Own Dir H) (St.updDev fun d => d.writeEntry e) := by
  refine kept_of fun st h => ?_
  cases hr : st.dev.writeEntry e with
  | ok d' =>
    rw [updDev_ok hr]
    obtain ⟨h1, h2⟩ := changesOnly_writeEntry h.wf hr
    refine h.other h1 rfl h2 fun l j _ hj => ?_
    rintro ⟨p, -, hp⟩
    have := hp.2.1
    omega
  | error q => rw [updDev_error hr]; exact h

/-! ## Writers -/

/-- A writer of which the chain does not lead out. -/
structure WFence (s : Shape) (Own : Location → Prop) (Dir : Zone s Own) (H : Location → Prop) (x : WSt) : Prop where
  st : Fence s Own Dir (fun l => H l ∨ l = x.w.location) x.st
  w : WriterOk s x.w

theorem WFence.own {x : WSt} (h : WFence s Own Dir H x) : Own x.w.location := by
  obtain ⟨S, h1, h2, -⟩ := h.st.shut
  exact h2 _ (h1 _ (.inr rfl))

theorem Kept.onFence {m : M St α} (h : ∀ H : Location → Prop, Kept (Fence s Own Dir H) m) :
    Kept (WFence s Own Dir H) (ChainWriter.onSt m) := by
  refine Safe.zoom fun x hx => ?_
  refine Safe.weaken (h fun l => H l ∨ l = x.w.location) (fun st hst => ?_) (fun _ st hst => ⟨hst, hx.w⟩)
    fun st hst => ⟨hst, hx.w⟩
  subst hst
  exact hx.st

theorem fence_current : Kept (WFence s Own Dir H) ChainWriter.writeCurrentBlock := by
  refine kept_of fun x h => ?_
  unfold ChainWriter.writeCurrentBlock
  rw [M.bind_of_ok (m := M.get) (s := x) (s' := x) (a := x) rfl]
  have hp := fence_putTail (s := s) (Own := Own) (Dir := Dir) (H := fun l => H l ∨ l = x.w.location)
    (f := copyFromSlice x.w.block) (KeepLen.copy _) h.own (fun blk n hb hn => by
      unfold copyFromSlice at hn
      split at hn
      · cases hn; exact h.w.tail.1
      · cases hn)
  rcases hr : St.updDev (fun d => d.sectorMut x.w.location (copyFromSlice x.w.block)) x.st with ⟨r, st'⟩
  rw [onSt_run hr]
  have := hp x.st h.st
  rw [hr] at this
  rcases this with ⟨a, -, k⟩ | ⟨q, -, k, -⟩
  · exact ⟨k.mono fun l hl => .inl hl, h.w⟩
  · exact ⟨k, h.w⟩

theorem fence_increment : Kept (WFence s Own Dir H) ChainWriter.incrementEntryBlocks := by
  refine kept_of fun x h => ?_
  obtain ⟨p', hp', hv, ho, hz⟩ := h.w.entry.position
  have hread := readEntry_any (d := x.st.dev) h.st.wf hp' hv ho hz
  have hl : (slotData x.st.dev s p').length = 32 := by
    unfold slotData
    rw [length_slice _ _ _ (by rw [h.st.wf.blk_length hv]; exact ho)]
  have hpl : Placed s (entryAt x.st.dev s p') := parse_placed hl hv ho hz
  have hpl' : Placed s { entryAt x.st.dev s p' with fileSize := (entryAt x.st.dev s p').fileSize + 1 } :=
    ⟨hpl.position, hpl.name, hpl.extra⟩
  unfold ChainWriter.incrementEntryBlocks
  rw [M.bind_of_ok (s' := x) (a := entryAt x.st.dev s p') (by rw [M.run_read, hread])]
  rw [modW_bind]
  split
  · rw [modW_bind]
    exact (Kept.onFence fun H => fence_writeEntry).state ⟨h.st, ⟨h.w.block, h.w.tail, h.w.location, hpl'⟩⟩
  · exact ⟨h.st, ⟨h.w.block, h.w.tail, h.w.location, hpl⟩⟩

theorem fence_linkTo {next : Location} (hn : H next) (hvn : s.Valid next) : Kept (WFence s Own Dir H) (ChainWriter.linkTo next) := by
  refine kept_of fun x h => ?_
  have hown : Own next := by
    obtain ⟨S, h1, h2, -⟩ := h.st.shut
    exact h2 _ (h1 _ (.inl hn))
  have hput : WFence s Own Dir H (ChainWriter.onSt (St.updDev fun d =>
      d.sectorMut x.w.location (ChainWriter.writeLocation next)) x).2 := by
    have := Kept.state (fence_link (s := s) (Own := Own) (Dir := Dir) (H := fun l => H l ∨ l = x.w.location)
      (l := x.w.location) (next := next) (f := ChainWriter.writeLocation next) (fun n n' hl hn => by
        unfold ChainWriter.writeLocation at hn
        split at hn
        · cases hn; rw [length_splice _ _ _ (by simp; omega), hl]
        · cases hn) (.inl hn) hvn fun blk n hb hn => by
          unfold ChainWriter.writeLocation at hn
          split at hn
          · cases hn; simp [linkBytes, splice, byteAt]
          · cases hn) h.st
    rw [onSt_run (x := x) (r := (St.updDev (fun d => d.sectorMut x.w.location (ChainWriter.writeLocation next)) x.st).1)
      (st := (St.updDev (fun d => d.sectorMut x.w.location (ChainWriter.writeLocation next)) x.st).2) rfl]
    exact ⟨this, h.w⟩
  unfold ChainWriter.linkTo
  rcases hr : ChainWriter.onSt (St.updDev fun d => d.sectorMut x.w.location (ChainWriter.writeLocation next)) x with ⟨r, x'⟩
  rw [hr] at hput
  cases r with
  | ok u => exact hput
  | error q =>
    cases q with
    | err y =>
      simp only
      have h2 := (Kept.onFence fun H => fence_free (s := s) (Dir := Dir) (H := H) hown).state hput
      rcases hr2 : ChainWriter.onSt (St.updBam fun b => b.free next) x' with ⟨r2, x2⟩
      rw [hr2] at h2
      cases r2 <;> exact h2
    | panic => exact hput
    | diverge => exact hput

theorem WFence.mono {x : WSt} (h : WFence s Own Dir H x) (hH : ∀ l, H' l → H l) : WFence s Own Dir H' x :=
  ⟨h.st.mono fun l hl => hl.imp (hH l) id, h.w⟩

theorem fence_allocateNext : Safe True (WFence s Own Dir H) ChainWriter.allocateNextBlock
    (fun a x => WFence s Own Dir H x ∧ a = 254) (WFence s Own Dir H) := by
  unfold ChainWriter.allocateNextBlock
  refine Safe.bind fence_current fun _ => ?_
  refine Safe.bind (Q := fun next x => WFence s Own Dir H x ∧ Own next ∧ s.Valid next) ?_ fun next => ?_
  · refine (Safe.read (E := WFence s Own Dir H) (fun _ _ => .inl trivial) fun _ h => h).post fun n x h => ?_
    exact ⟨h.1, h.1.st.free n (next_valid h.1.st.bam h.2).2, h.1.st.wf.valid_of_map (next_valid h.1.st.bam h.2).1⟩
  refine Safe.get.bind fun x0 => ?_
  intro x hx
  obtain ⟨⟨h, hn, hv⟩, rfl⟩ := hx
  obtain ⟨fresh, hf1, hf2, hf3, hf4⟩ := freshBlock_ok h.w.block
  rw [M.bind_of_ok (s' := x0) (a := fresh) (by rw [M.run_lift, hf1])]
  rw [modW_bind]
  have hback : ∀ y, WFence s Own Dir (fun l => H l ∨ l = next) y → WFence s Own Dir H y :=
    fun y hy => hy.mono fun l hl => .inl hl
  have key : Safe True (WFence s Own Dir H) (do
      ChainWriter.onSt (St.updDev fun d => d.sectorMut next (copyFromSlice fresh))
      ChainWriter.onSt (St.updBam fun b => b.allocate next)
      ChainWriter.incrementEntryBlocks
      ChainWriter.linkTo next
      ChainWriter.modW fun w => { w with location := next }
      pure (BLOCK_SIZE - 2) : M WSt Nat) (fun a x => WFence s Own Dir H x ∧ a = 254) (WFence s Own Dir H) := by
    refine Safe.bind (Q := fun _ => WFence s Own Dir (fun l => H l ∨ l = next)) ?_ fun _ => ?_
    · refine Safe.zoom fun y hy => ?_
      refine Safe.weaken (fence_putTail (H := fun l => H l ∨ l = y.w.location) (KeepLen.copy _) hn
        fun blk n hb hn => ?_) (fun st hst => ?_) (fun _ st hst => ⟨hst.mono fun l hl => ?_, hy.w⟩)
        fun st hst => ⟨hst, hy.w⟩
      · unfold copyFromSlice at hn
        split at hn
        · cases hn; exact hf3
        · cases hn
      · subst hst
        exact hy.st
      · rcases hl with (hl | hl) | hl
        · exact .inl (.inl hl)
        · exact .inr hl
        · exact .inl (.inr hl)
    refine Safe.weaken (P := WFence s Own Dir (fun l => H l ∨ l = next)) ?_ (fun _ h => h) (fun a y hy => hy) hback
    refine Safe.bind (Kept.onFence fun H => fence_allocate _) fun _ => ?_
    refine Safe.bind fence_increment fun _ => ?_
    refine Safe.bind (fence_linkTo (.inr rfl) hv) fun _ => ?_
    refine Safe.bind (Q := fun _ => WFence s Own Dir H) (Safe.modify fun y hy => ?_) fun _ =>
      Safe.pure fun _ h => ⟨h, rfl⟩
    exact ⟨hy.st.mono fun l hl => .inl hl, ⟨hy.w.block, hy.w.tail, hv, hy.w.entry⟩⟩
  exact key _ ⟨h.st, ⟨hf2, ⟨hf3, by rw [hf4]; decide⟩, h.w.location, h.w.entry⟩⟩

theorem fence_writeLoop : ∀ (fuel : Nat) (bs : List Byte), Kept (WFence s Own Dir H) (ChainWriter.writeLoop fuel bs)
  | fuel, [] => by
    unfold ChainWriter.writeLoop
    exact Safe.pure fun x h => h
  | 0, b :: bs => kept_of fun _ h => h
  | fuel + 1, b :: bs => by
    unfold ChainWriter.writeLoop
    have hroom : Safe True (WFence s Own Dir H) ChainWriter.room (fun a x => WFence s Own Dir H x ∧ 2 ≤ a.1)
        (WFence s Own Dir H) := by
      unfold ChainWriter.room
      refine Safe.get.bind fun x0 => ?_
      intro x hx
      obtain ⟨h, rfl⟩ := hx
      rw [M.bind_of_ok (s' := x0) (a := .tail ((byteAt x0.w.block 1).toNat + 1))
        (by rw [M.run_lift, writer_tail h.w])]
      simp only
      split
      · refine (fence_allocateNext.bind (R := fun (a : Nat × Nat) x => WFence s Own Dir H x ∧ 2 ≤ a.1) fun a => ?_) x0 h
        exact Safe.pure fun x hx => ⟨hx.1, by rw [hx.2]; decide⟩
      · have := h.w.tail.2
        exact .inl ⟨_, rfl, h, by simp only; omega⟩
    refine Safe.bind hroom fun a => ?_
    rcases a with ⟨offset, remaining⟩
    simp only
    refine Safe.get.bind fun x0 => ?_
    intro x hx
    obtain ⟨⟨h, ho⟩, rfl⟩ := hx
    cases hf : ChainWriter.fillBlock x0.w.block offset ((b :: bs).take (min remaining (b :: bs).length)) with
    | error q =>
      rw [M.bind_of_error (s' := x0) (e := q) (by rw [M.run_lift])]
      exact .inr ⟨_, rfl, h, .inl trivial⟩
    | ok block =>
      rw [M.bind_of_ok (s' := x0) (a := block) (by rw [M.run_lift])]
      rw [modW_bind]
      obtain ⟨h1, h2⟩ := fillBlock_inv h.w.block ho hf
      exact fence_writeLoop fuel _ _ ⟨h.st, ⟨h1, h2, h.w.location, h.w.entry⟩⟩

theorem fence_write (buf : List Byte) : Kept (WFence s Own Dir H) (ChainWriter.write buf) := by
  unfold ChainWriter.write
  refine Safe.bind (Q := fun _ => WFence s Own Dir H) (Safe.modify fun x h => ?_) fun _ => ?_
  · exact ⟨h.st, ⟨h.w.block, h.w.tail, h.w.location, h.w.entry⟩⟩
  · exact Safe.bind (fence_writeLoop _ _) fun _ => Safe.pure fun _ h => h

theorem fence_flush (hA : ∀ l j, (Own l ∨ Dir l) → ¬ bamArea s.type l j) :
    Kept (WFence s Own Dir H) ChainWriter.flush := by
  refine kept_of fun x h => ?_
  unfold ChainWriter.flush
  rw [M.bind_of_ok (m := M.get) (s := x) (s' := x) (a := x) rfl]
  split
  · have key : Kept (WFence s Own Dir H) (do
        ChainWriter.writeCurrentBlock
        ChainWriter.onSt St.flushBam
        M.read fun x => x.st.dev.flush
        ChainWriter.modW fun w => { w with dirty := false } : M WSt Unit) := by
      refine Safe.bind fence_current fun _ => ?_
      refine Safe.bind (Kept.onFence fun H => fence_flushBam hA) fun _ => ?_
      refine (Safe.read (E := WFence s Own Dir H) (fun x _ => .inl trivial) fun _ h => h).bind fun _ => ?_
      exact Safe.modify fun x h => ⟨h.1.st, ⟨h.1.w.block, h.1.w.tail, h.1.w.location, h.1.w.entry⟩⟩
    exact key.state h
  · exact h

/-- Where a new writer starts. -/
theorem tailLoop_leads (hw : Wf d s) : ∀ (fuel : Nat) {l l' : Location} {block' : List Byte},
    s.Valid l → tailLoop d fuel l (d.blk s l) = .ok (l', block') → LeadsTo d s start l → LeadsTo d s start l'
  | 0, _, _, _, _, h, _ => by cases h
  | fuel + 1, l, l', block', hv, h, hl => by
    simp only [tailLoop] at h
    obtain ⟨link, h1, h2⟩ := res_bind_eq_ok.1 h
    rw [chainLink_new _ (by rw [hw.blk_length hv]; omega)] at h1
    cases link with
    | next m =>
      simp only at h2
      obtain ⟨block, h3, h4⟩ := res_bind_eq_ok.1 h2
      have hm : Next d s l m := by
        split at h1
        · split at h1 <;> cases h1
        · rename_i h0
          cases h1
          exact ⟨hv, h0, rfl⟩
      obtain ⟨hvm, hblk⟩ : s.Valid m ∧ block = d.blk s m := by
        by_cases hvm : s.Valid m
        · rw [hw.sector hvm] at h3
          cases h3
          exact ⟨hvm, rfl⟩
        · rw [hw.sector_invalid hvm] at h3
          cases h3
      subst hblk
      exact tailLoop_leads hw fuel hvm h4 (leads_next hl hm)
    | tail n =>
      cases h2
      exact hl

theorem writer_leads {f : File} {w : ChainWriter} (hw : Wf d s) (h : f.writer d = .ok w) :
    LeadsTo d s f.entry.firstSector w.location ∧ w.entry = f.entry := by
  have key : ∀ e, ChainWriter.new d e e.firstSector = .ok w → LeadsTo d s e.firstSector w.location ∧ w.entry = e := by
    intro e h
    unfold ChainWriter.new at h
    obtain ⟨block, h1, h⟩ := res_bind_eq_ok.1 h
    obtain ⟨⟨l', b'⟩, h2, h⟩ := res_bind_eq_ok.1 h
    cases h
    refine ⟨?_, rfl⟩
    by_cases hv : s.Valid e.firstSector
    · rw [hw.sector hv] at h1
      cases h1
      exact tailLoop_leads hw _ hv h2 (leads_refl _)
    · rw [hw.sector_invalid hv] at h1
      cases h1
  cases f with
  | linear e => exact key e h
  | relative g => cases h
  | geosSequential g =>
    unfold File.writer at h
    simp only at h
    split at h <;> cases h
  | geosVLIR g =>
    unfold File.writer at h
    simp only at h
    split at h <;> cases h

/-! ## New entries -/

theorem fence_extend {last : Location} : Kept (Fence s Own Dir H) (extendDirectory last) := by
  unfold extendDirectory
  refine (fence_next (some last)).bind fun new => ?_
  refine Safe.given fun ⟨hn, hv⟩ => ?_
  refine Safe.bind (fence_putTail (fun blk n hb hn => ?_) hn fun blk n hb hn => ?_) fun _ => ?_
  · obtain ⟨fresh, h1, h2, -⟩ := freshDirectory_ok hb
    rw [h1] at hn
    cases hn
    exact h2
  · obtain ⟨fresh, h1, h2, h3, -⟩ := freshDirectory_ok hb
    rw [h1] at hn
    cases hn
    exact h3
  refine Safe.weaken (P := Fence s Own Dir (fun l => H l ∨ l = new))
    (Q := fun _ => Fence s Own Dir (fun l => H l ∨ l = new)) (E := Fence s Own Dir (fun l => H l ∨ l = new)) ?_
    (fun _ h => h) (fun _ y hy => hy.mono fun l hl => .inl hl) (fun y hy => hy.mono fun l hl => .inl hl)
  refine Safe.bind (Q := fun _ => Fence s Own Dir (fun l => H l ∨ l = new)) (kept_of fun st h => h) fun block => ?_
  refine Safe.bind (Q := fun _ => Fence s Own Dir (fun l => H l ∨ l = new)) (kept_of fun st h => h) fun entry => ?_
  refine Safe.bind (fence_allocate _) fun _ => Safe.bind (fence_link (next := new) (fun blk n hb hn => ?_) (.inr rfl) hv
    fun blk n hb hn => ?_) fun _ => Safe.pure fun _ h => h
  · cases hn
    rw [length_splice _ _ _ (by simp [BLOCK_SIZE] at hb ⊢; omega), hb]
  · cases hn
    simp [linkBytes, splice, byteAt]

theorem fence_newEntry {first : Location} (hn : Own first) : Kept (Fence s Own Dir H) (writeNewEntry e first) := by
  refine kept_of fun st h => ?_
  have hw := Kept.state (fence_writeEntry (e := e)) h
  unfold writeNewEntry
  rcases hr : St.updDev (fun d => d.writeEntry e) st with ⟨r, st'⟩
  rw [hr] at hw
  cases r with
  | ok u => exact hw
  | error q =>
    cases q with
    | err y =>
      simp only
      have h2 := Kept.state (fence_free (s := s) (Dir := Dir) (H := H) hn) hw
      rcases hr2 : St.updBam (fun b => b.free first) st' with ⟨r2, x2⟩
      rw [hr2] at h2
      cases r2 <;> exact h2
    | panic => exact hw
    | diverge => exact hw

theorem fence_createIn {slot : DirectoryEntry} {name : Petscii} {type : FileType} :
    Safe True (Fence s Own Dir H) (createIn slot name type)
      (fun e => Fence s Own Dir (fun l => H l ∨ l = e.firstSector)) (Fence s Own Dir H) := by
  unfold createIn
  refine (fence_next none).bind fun first => ?_
  refine Safe.given fun ⟨hn, hv⟩ => ?_
  refine Safe.bind (fence_allocate _) fun _ => Safe.bind (fence_putTail (fun blk n hb hn => ?_) hn fun blk n hb hn => ?_)
    fun _ => ?_
  · unfold CHAIN_LINK_ZERO ChainLink.toBytes at hn
    rw [if_neg (by simp [BLOCK_SIZE] at hb; omega)] at hn
    cases hn
    rw [length_splice _ _ _ (by simp [BLOCK_SIZE] at hb ⊢; omega), hb]
  · unfold CHAIN_LINK_ZERO ChainLink.toBytes at hn
    rw [if_neg (by omega)] at hn
    cases hn
    simp [splice, byteAt]
  · refine Safe.weaken (P := Fence s Own Dir (fun l => H l ∨ l = first))
      (Q := fun (e : DirectoryEntry) st => Fence s Own Dir (fun l => H l ∨ l = first) st ∧ e.firstSector = first)
      (E := Fence s Own Dir (fun l => H l ∨ l = first)) ?_
      (fun _ h => h) (fun e y hy => hy.1.mono fun l hl => hl.imp id fun h => h.trans hy.2) (fun y hy => hy.mono fun l hl => .inl hl)
    exact Safe.bind (fence_newEntry hn) fun _ => Safe.pure fun _ h => ⟨h, rfl⟩

/-! ## Disks -/

/-- From the sectors `H` chains do not lead out of `Own`. -/
def Enclosed (d : Device) (s : Shape) (Own : Location → Prop) (Dir : Zone s Own) (H : Location → Prop) : Prop :=
  ∃ S : Location → Prop, (∀ l, H l → S l) ∧ (∀ l, S l → Own l) ∧ Shut d s Dir S

theorem Enclosed.mono (h : Enclosed d s Own Dir H) (hH : ∀ l, H' l → H l) : Enclosed d s Own Dir H' := by
  obtain ⟨S, h1, h2, h3⟩ := h
  exact ⟨S, fun l hl => h1 l (hH l hl), h2, h3⟩

theorem Enclosed.other (h : Enclosed d s Own Dir H) (hc : ChangesOnly s A d d')
    (hA : ∀ l j, (Own l ∨ Dir l) → j < 2 → ¬ A l j) : Enclosed d' s Own Dir H := by
  obtain ⟨S, h1, h2, h3⟩ := h
  refine ⟨S, h1, h2, h3.change (fun l m hl hn => .inl ?_) fun l n hl h0 => ?_⟩
  · have hl : Own l ∨ Dir l := hl.imp (h2 l) id
    exact same_next hc.last (hA l 0 hl (by decide)) (hA l 1 hl (by decide)) hn
  · have hv := Dir.valid l n hl
    have hd := Dir.inside l n hl
    rw [same_byte hc.last hv (by decide) (hA l 0 (.inr hd) (by decide))] at h0
    exact ⟨h0, same_byte hc.last hv (by decide) (hA l 1 (.inr hd) (by decide))⟩

theorem nextFree_fence {disk : Disk} {r : Nat} {b : Bam} (hr : disk.bam = some r)
    (hc : disk.cells[r]? = some b) (hF : Fence s Own Dir H ⟨disk.dev, b⟩) :
    ∃ st, (Disk.nextFreeDirectoryEntry disk).2 = disk.withSt r st ∧ Fence s Own Dir H st := by
  have hsame : ∀ q, (Disk.nextFreeDirectoryEntry disk) = (q, disk) →
      ∃ st, (Disk.nextFreeDirectoryEntry disk).2 = disk.withSt r st ∧ Fence s Own Dir H st := by
    intro q hq
    exact ⟨⟨disk.dev, b⟩, by rw [hq, withSt_self hc], hF⟩
  cases hf : disk.format with
  | none =>
    refine hsame (.error (.err .unformatted)) ?_
    unfold Disk.nextFreeDirectoryEntry
    rw [M.bind_of_ok (m := M.get) (s := disk) (s' := disk) (a := disk) rfl]
    rw [M.bind_of_error (s' := disk) (e := .err .unformatted)
      (by rw [M.run_lift]; unfold Disk.diskFormat; rw [hf])]
  | some f =>
    have hrun : ∀ res, scanFree (chainItems disk.dev f.firstDirectoryLocation) f.firstDirectoryLocation = res →
        Disk.nextFreeDirectoryEntry disk = match res with
          | .error q => (.error q, disk)
          | .ok (.inl e) => (.ok e, disk)
          | .ok (.inr t) => Disk.withBam r (extendDirectory t) disk := by
      intro res hs
      unfold Disk.nextFreeDirectoryEntry
      rw [M.bind_of_ok (m := M.get) (s := disk) (s' := disk) (a := disk) rfl]
      rw [M.bind_of_ok (s' := disk) (a := f) (by rw [M.run_lift]; unfold Disk.diskFormat; rw [hf])]
      cases res with
      | error q => rw [M.bind_of_error (s' := disk) (e := q) (by rw [M.run_lift, hs])]
      | ok y =>
        rw [M.bind_of_ok (s' := disk) (a := y) (by rw [M.run_lift, hs])]
        cases y with
        | inl e => rfl
        | inr t =>
          show (_ >>= _ : M Disk _) disk = _
          rw [M.bind_of_ok (s' := disk) (a := r) (by rw [M.run_lift]; unfold Disk.bamRef; rw [hr])]
    cases hs : scanFree (chainItems disk.dev f.firstDirectoryLocation) f.firstDirectoryLocation with
    | error q => exact hsame _ (hrun _ hs)
    | ok y =>
      have hn := hrun _ hs
      cases y with
      | inl e => exact hsame _ hn
      | inr t =>
        simp only at hn
        have hext := Kept.state (fence_extend (last := t)) hF
        rcases hx : extendDirectory t ⟨disk.dev, b⟩ with ⟨res, st⟩
        rw [withBam_run hc hx] at hn
        rw [hx] at hext
        exact ⟨st, by rw [hn], hext⟩

/-- Creating a file. -/
theorem create_fence {disk : Disk} (h : Standing disk s) (name : Petscii) (type : FileType) (scheme : Scheme)
    (hE : Enclosed disk.dev s Own Dir H)
    (hF : ∀ (r : Nat) b, disk.cells[r]? = some b → Fence s Own Dir H ⟨disk.dev, b⟩) :
    Enclosed (Disk.createFile name type scheme disk).2.dev s Own Dir H ∧
    ∀ e ref, (Disk.createFile name type scheme disk).1 = .ok (e, ref) →
      Enclosed (Disk.createFile name type scheme disk).2.dev s Own Dir (fun l => H l ∨ l = e.firstSector) ∧
      ∀ p l j, e.position = some p → Field p 2 30 l j → NewEntry disk s l j := by
  have hfail : ∀ q, Disk.createFile name type scheme disk = (.error q, disk) →
      Enclosed (Disk.createFile name type scheme disk).2.dev s Own Dir H ∧
      ∀ e ref, (Disk.createFile name type scheme disk).1 = .ok (e, ref) →
      Enclosed (Disk.createFile name type scheme disk).2.dev s Own Dir (fun l => H l ∨ l = e.firstSector) ∧
      ∀ p l j, e.position = some p → Field p 2 30 l j → NewEntry disk s l j := by
    intro q hq
    rw [hq]
    exact ⟨hE, fun e ref he => by cases he⟩
  by_cases hsch : scheme ≠ .linear
  · refine hfail .panic ?_
    unfold Disk.createFile
    rw [if_pos hsch]
    rfl
  · have hdef : Disk.createFile name type scheme disk = (do
        M.lift (checkFilenameValidity name)
        M.read fun d => d.checkFilenameAvailability name
        let slot ← Disk.nextFreeDirectoryEntry
        let ref ← M.read Disk.bamRef
        let entry ← Disk.withBam ref (createIn slot name type)
        let ref ← M.read Disk.bamRef
        pure (entry, ref) : M Disk (DirectoryEntry × Nat)) disk := by
      unfold Disk.createFile
      rw [if_neg hsch]
    cases h1 : checkFilenameValidity name with
    | error q => exact hfail q (by rw [hdef, M.bind_of_error (s' := disk) (e := q) (by rw [M.run_lift, h1])])
    | ok u =>
      rw [M.bind_of_ok (s' := disk) (a := u) (by rw [M.run_lift, h1])] at hdef
      cases h2 : disk.checkFilenameAvailability name with
      | error q => exact hfail q (by rw [hdef, M.bind_of_error (s' := disk) (e := q) (by rw [M.run_read, h2])])
      | ok u =>
        rw [M.bind_of_ok (s' := disk) (a := u) (by rw [M.run_read, h2])] at hdef
        cases hr : disk.bam with
        | none =>
          have hn := nextFree_none hr
          rcases hnf : Disk.nextFreeDirectoryEntry disk with ⟨res, disk1⟩
          rw [hnf] at hn
          replace hn : disk1 = disk := hn
          subst hn
          cases res with
          | error q => exact hfail q (by rw [hdef, M.bind_of_error hnf])
          | ok slot =>
            refine hfail (.err .unformatted) ?_
            rw [hdef, M.bind_of_ok hnf]
            rw [M.bind_of_error (s' := disk1) (e := .err .unformatted)
              (by rw [M.run_read]; unfold Disk.bamRef; rw [hr])]
        | some r =>
          obtain ⟨b, hc, -⟩ := h.bam r hr
          obtain ⟨st0, g0, -, g3⟩ := nextFree_framed h hr hc
          obtain ⟨st, g1, g2⟩ := nextFree_fence hr hc (hF r b hc)
          rcases hnf : Disk.nextFreeDirectoryEntry disk with ⟨res, disk1⟩
          rw [hnf] at g1 g3
          replace g1 : disk1 = disk.withSt r st := g1
          subst g1
          have hlt := (List.getElem?_eq_some_iff.1 hc).1
          cases res with
          | error q =>
            rw [hdef, M.bind_of_error hnf]
            exact ⟨g2.shut, fun e ref he => by cases he⟩
          | ok slot =>
            rw [M.bind_of_ok hnf] at hdef
            have hr1 : (disk.withSt r st).bam = some r := hr
            rw [M.bind_of_ok (s' := disk.withSt r st) (a := r) (by rw [M.run_read]; unfold Disk.bamRef; rw [hr1])] at hdef
            have hc1 : (disk.withSt r st).cells[r]? = some st.bam := List.getElem?_set_self hlt
            have g4 := fence_createIn (slot := slot) (name := name) (type := type) st g2
            have hpos : ∀ e st2, createIn slot name type st = (.ok e, st2) → e.position = slot.position := by
              intro e st2 he
              unfold createIn at he
              obtain ⟨first, s1, -, he⟩ := bind_inv he
              obtain ⟨-, s2, -, he⟩ := bind_inv he
              obtain ⟨-, s3, -, he⟩ := bind_inv he
              obtain ⟨-, s4, -, he⟩ := bind_inv he
              cases he
              rfl
            rcases hcr : createIn slot name type st with ⟨res2, st2⟩
            rw [hcr] at g4
            have hrun := withBam_run (r := r) (disk := disk.withSt r st) (m := createIn slot name type) hc1 hcr
            cases res2 with
            | error q =>
              rw [hdef, M.bind_of_error hrun]
              rcases g4 with ⟨a, k, -⟩ | ⟨q', -, k, -⟩
              · cases k
              · exact ⟨k.shut, fun e ref he => by cases he⟩
            | ok e =>
              rw [hdef, M.bind_of_ok hrun]
              have hr2 : ((disk.withSt r st).withSt r st2).bam = some r := hr
              rw [M.bind_of_ok (s' := (disk.withSt r st).withSt r st2) (a := r)
                (by rw [M.run_read]; unfold Disk.bamRef; rw [hr2])]
              rcases g4 with ⟨a, k, g4⟩ | ⟨q', k, -⟩
              · cases k
                refine ⟨(g4.mono fun l hl => .inl hl).shut, fun e' ref he => ?_⟩
                cases he
                exact ⟨g4.shut, fun p l j hp => g3 slot rfl p l j (hpos e st2 hcr ▸ hp)⟩
              · cases k

end Cbm
