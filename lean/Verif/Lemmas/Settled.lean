import Verif.Lemmas.Listed
import Verif.Props.Relative
/-!
# Deleting through any handle: it returns, or a sector has no entry in the BAM
-/

namespace Cbm
open Spec

variable {d : Device} {s : Shape} {b : Bam} {st : St} {e : DirectoryEntry} {l : Location} {P Q : Prop}

/-- The action keeps the image and the BAM in order, or reports an error, or panics, which it
does only if `P` fails. -/
def Settled (s : Shape) (P : Prop) (m : M St Unit) : Prop :=
  ∀ st, Wf st.dev s → BamOf st.bam s.type →
    ((m st).1 = .ok () ∧ Wf (m st).2.dev s ∧ BamOf (m st).2.bam s.type) ∨
    (∃ y, (m st).1 = fail y) ∨ (¬ P ∧ (m st).1 = .error .panic)

theorem Settled.seq {m : M St Unit} {k : Unit → M St Unit} (h1 : Settled s P m) (h2 : Settled s P (k ())) :
    Settled s P (m >>= k) := by
  intro st hw hb
  rcases hm : m st with ⟨r, st'⟩
  have := h1 st hw hb
  rw [hm] at this
  rcases this with ⟨hr, w, o⟩ | ⟨y, hr⟩ | ⟨hn, hr⟩
  · cases hr
    rw [M.bind_of_ok hm]
    exact h2 st' w o
  · cases hr
    rw [M.bind_of_error hm]
    exact .inr (.inl ⟨y, rfl⟩)
  · cases hr
    rw [M.bind_of_error hm]
    exact .inr (.inr ⟨hn, rfl⟩)

theorem settled_pure : Settled s P (pure ()) := fun _ hw hb => .inl ⟨rfl, hw, hb⟩

theorem settled_forEach {α : Type} {f : α → M St Unit} : ∀ (xs : List α),
    (∀ x ∈ xs, Settled s P (f x)) → Settled s P (M.forEach xs f)
  | [], _ => settled_pure
  | x :: xs, h => by
    have ih := settled_forEach xs fun y hy => h y (List.mem_cons_of_mem _ hy)
    exact (h x (by simp)).seq (k := fun _ => M.forEach xs f) ih

/-- Freeing a sector that cannot be in the BAM panics. -/
theorem free_far (hb : BamOf b s.type)
    (h : ¬ ((1 ≤ l.track.toNat ∧ l.track.toNat ≤ bamTracks s.type) ∧ l.sector.toNat < 64)) :
    b.free l = .error .panic := by
  by_cases hi : l.track.toNat = 0 ∨ bamTracks s.type < l.track.toNat
  · exact free_off hb hi
  · unfold Bam.free Bam.modifyEntry
    rw [checkValidity_ok hb, res_bind_ok, subU_ok (by omega), res_bind_ok]
    unfold indexRes
    rw [List.getElem?_eq_getElem (by rw [hb.length]; omega), res_bind_ok]
    unfold BamEntry.free
    show ((if l.sector.toNat < 64 then _ else rpanic) >>= _) = _
    rw [if_neg (by omega)]
    rfl

/-- Freeing one sector, if its sector number can be in a BAM entry. -/
theorem settled_free
    (hP : P → (1 ≤ l.track.toNat ∧ l.track.toNat ≤ bamTracks s.type) ∧ l.sector.toNat < 64) :
    Settled s P (St.updBam fun b => b.free l) := by
  intro st hw hb
  by_cases ht : (1 ≤ l.track.toNat ∧ l.track.toNat ≤ bamTracks s.type) ∧ l.sector.toNat < 64
  · obtain ⟨b', hb', hf⟩ := free_ok (l := l) hb ⟨ht.1.1, ht.1.2, ht.2⟩
    left
    rw [updBam_ok hb']
    exact ⟨rfl, hw, hf.of⟩
  · right; right
    refine ⟨fun p => ht (hP p), ?_⟩
    have : st.bam.free l = .error .panic := free_far hb ht
    unfold St.updBam
    rw [M.update_error (e := .panic) (by simp only [this]; rfl)]

/-- Freeing a chain. -/
theorem settled_removeChain (hP : P → s.tracks ≤ bamTracks s.type) (l : Location) :
    Settled s P (removeChain l) := by
  intro st hw hb
  rcases locations_or (disk := ⟨s.type.format, st.dev, none, none, none, []⟩) hw l with
    ⟨locs, content, hl, hh, hc⟩ | ⟨y, hy, -⟩
  · have hlocs := chainLocations_chain hw hc hh
    by_cases hoff : ∃ l ∈ locs, bamTracks s.type < l.track.toNat
    · right; right
      refine ⟨fun p => ?_, ?_⟩
      · obtain ⟨x, hx, hlt⟩ := hoff
        have := (hc.valid x hx).2.1
        have := hP p
        omega
      · obtain ⟨b', hf⟩ := freeAll_off st.dev locs hb hc.valid hoff
        unfold removeChain
        rw [M.bind_of_ok (s := st) (s' := st) (a := locs) (by rw [readDev_run, hlocs])]
        rw [M.bind_of_error hf]
    · obtain ⟨b1, r1, -, o1, -, -⟩ := freeAll_ok st.dev locs (b := st.bam) hb fun x hx =>
        ⟨(hc.valid x hx).1, Nat.le_of_not_lt fun h => hoff ⟨x, hx, h⟩, (hc.valid x hx).2.2⟩
      unfold removeChain
      rw [M.bind_of_ok (s := st) (s' := st) (a := locs) (by rw [readDev_run, hlocs])]
      rw [M.bind_of_ok (s' := ⟨st.dev, b1⟩) (a := ()) r1]
      rcases flushBam_or (st := ⟨st.dev, b1⟩) hw o1 with ⟨d2, r2, w2⟩ | r2
      · left; rw [r2]; exact ⟨rfl, w2, o1⟩
      · right; left; rw [r2]; exact ⟨_, rfl⟩
  · right; left
    unfold removeChain
    rw [M.bind_of_error (s' := st) (e := .err y) (by rw [readDev_run]; rw [show chainLocations st.dev l = fail y from hy])]
    exact ⟨y, rfl⟩

/-- What an entry of a listing of any kind has to write back. -/
theorem InSlot.writable {p : Position} (h : InSlot d s e p) (hw : Wf d s) :
    e.position = some p ∧ e.filename.length ≤ 16 ∧
      ∀ old : List Byte, old.length = 9 → ∃ x, e.extra.toBytes old = .ok x := by
  obtain ⟨border, rfl⟩ := h.entry
  have hl : (slotData d s p).length = 32 := by
    unfold slotData
    rw [length_slice _ _ _ (by rw [hw.blk_length h.valid]; exact h.fits)]
  refine ⟨rfl, ?_, ?_⟩
  · refine Nat.le_trans (fromPadded_length _ _) ?_
    simp only [slice, List.length_take, ENTRY_FILENAME_LENGTH]
    omega
  · intro old ho
    simp only [entryAt, DirectoryEntry.parse32]
    have h9 : (slice (slotData d s p) ENTRY_EXTRA_OFFSET EXTRA_SIZE).length = 9 :=
      length_slice _ _ _ (by rw [hl]; decide)
    generalize slice (slotData d s p) ENTRY_EXTRA_OFFSET EXTRA_SIZE = xs at h9 ⊢
    cases entryScheme (slotData d s p) with
    | linear =>
      refine ⟨xs, ?_⟩
      show copyFromSlice xs old = _
      unfold copyFromSlice
      rw [if_pos (by rw [h9, ho])]
    | relative =>
      simp only [Extra.fromBytes, Extra.toBytes]
      rw [if_pos (by simp only [List.length_drop]; omega)]
      exact ⟨_, rfl⟩
    | geosSequential => exact ⟨_, rfl⟩
    | geosVLIR => exact ⟨_, rfl⟩

/-- Writing back an entry of any kind: done, or refused because the image is read-only. -/
theorem writeEntry_any {p : Position} (hw : Wf st.dev s) (hp : e.position = some p) (hv : s.Valid p.location)
    (hf : p.offset.toNat + 32 ≤ 256) (hz : p.size = 32)
    (hn : e.filename.length ≤ 16)
    (hx : ∀ old : List Byte, old.length = 9 → ∃ x, e.extra.toBytes old = .ok x) :
    (∃ u, ((St.updDev fun d => d.writeEntry e) st).1 = .ok u) ∨
      ∃ y, ((St.updDev fun d => d.writeEntry e) st).1 = fail y := by
  by_cases hwr : Writable st.dev
  · left
    have hl := hw.blk_length hv
    have hsz : p.size.toNat = 32 := by rw [hz]; rfl
    have hpos : e.pos = .ok p := by unfold DirectoryEntry.pos; rw [hp]
    have h1 : subSlice (st.dev.blk s p.location) p.offset.toNat p.size.toNat =
        .ok (slice (st.dev.blk s p.location) p.offset.toNat 32) := by
      unfold subSlice
      rw [hsz, if_pos (by omega)]
    have h2 : (slice (st.dev.blk s p.location) p.offset.toNat 32).length = 32 :=
      length_slice _ _ _ (by omega)
    obtain ⟨x, h3⟩ := hx (slice (slice (st.dev.blk s p.location) p.offset.toNat 32) 0x15 9)
      (length_slice _ _ _ (by rw [h2]; decide))
    have h4 := toBytes_ok h2 hn h3
    generalize slotBytes _ _ _ _ _ = out at h4
    have h5 : st.dev.writeEntry e =
        .ok (st.dev.put s p.location (splice (st.dev.blk s p.location) p.offset.toNat out)) := by
      unfold Device.writeEntry Device.positionedWrite
      rw [hpos, res_bind_ok]
      refine hw.sectorMut_ok hwr hv ?_
      rw [h1, res_bind_ok]
      unfold DirectoryEntry.positionedWrite
      rw [hpos, res_bind_ok, if_neg (by rw [h2, hsz]; decide), h4]
      rfl
    rw [updDev_ok h5]
    exact ⟨_, rfl⟩
  · right
    refine ⟨.readOnly, ?_⟩
    have : st.dev.writeEntry e = fail .readOnly := by
      unfold Device.writeEntry Device.positionedWrite
      have hpos : e.pos = .ok p := by unfold DirectoryEntry.pos; rw [hp]
      rw [hpos, res_bind_ok]
      exact sectorMut_readOnly' hwr _ _
    unfold St.updDev
    rw [M.update_error (e := .err .readOnly) (by simp only [this]; rfl)]


/-- The blocks of an opened file are freed, unless one of them has no entry in the BAM. -/
theorem settled_freeBlocks {f : File} {p : Position} (hw : Wf d s) (hp : InSlot d s e p)
    (hf : File.fromEntry d e = .ok f) (hP : P → s.tracks ≤ bamTracks s.type)
    (hI : P → ∀ g, e.extra = .geos g → ¬ (g.infoBlock.track = 0 ∧ g.infoBlock.sector = 0) →
      (1 ≤ g.infoBlock.track.toNat ∧ g.infoBlock.track.toNat ≤ bamTracks s.type) ∧
        g.infoBlock.sector.toNat < 64) :
    f.entry = e ∧ Settled s P f.freeBlocks := by
  have hgeos : ∀ g : GEOSFile, (e.scheme = .geosSequential ∨ e.scheme = .geosVLIR) →
      GEOSFile.new d e = .ok g → g.entry = e ∧ Settled s P (File.geosSequential g).freeBlocks := by
    intro g hs hg
    have hent : g.entry = e := by
      unfold GEOSFile.new at hg
      obtain ⟨v, -, hg⟩ := res_bind_eq_ok.1 hg
      split at hg
      · obtain ⟨bl, -, hg⟩ := res_bind_eq_ok.1 hg
        cases hg; rfl
      · cases hg; rfl
    refine ⟨hent, ?_⟩
    obtain ⟨x, hx⟩ : ∃ x, e.extra = .geos x := by
      obtain ⟨border, he⟩ := hp.entry
      rw [he] at hs ⊢
      simp only [entryAt, DirectoryEntry.parse32] at hs ⊢
      rcases hs with hs | hs <;> rw [hs] <;> exact ⟨_, rfl⟩
    unfold File.freeBlocks
    refine Settled.seq (k := fun _ => _) (settled_removeChain hP _) ?_
    have hlift : ∀ (k : Option Location → M St Unit),
        (∀ o, g.entry.infoLocation = .ok o → Settled s P (k o)) →
        Settled s P (M.lift g.entry.infoLocation >>= k) := by
      intro k hk st hw hb
      have : ∃ o, g.entry.infoLocation = .ok o := by
        unfold DirectoryEntry.infoLocation
        rw [hent, hx]
        exact ⟨_, rfl⟩
      obtain ⟨o, ho⟩ := this
      rw [M.bind_of_ok (s' := st) (a := o) (by rw [M.run_lift, ho])]
      exact hk o ho st hw hb
    refine hlift _ fun o ho => ?_
    have hrec : Settled s P (match g.vlir with
        | some records => M.forEach (records.filterMap id) removeChain
        | none => pure ()) := by
      split
      · exact settled_forEach _ fun l _ => settled_removeChain hP l
      · exact settled_pure
    cases o with
    | none => exact hrec
    | some l =>
      refine Settled.seq (k := fun _ => _) (settled_free fun p => ?_) hrec
      unfold DirectoryEntry.infoLocation at ho
      rw [hent, hx] at ho
      simp only at ho
      split at ho
      · cases ho
      · rename_i hn
        cases ho
        exact hI p x hx hn
  unfold File.fromEntry at hf
  split at hf
  · cases hf
    exact ⟨rfl, settled_removeChain hP _⟩
  · obtain ⟨g, hg, hf⟩ := res_bind_eq_ok.1 hf
    cases hf
    have hx : ∃ ex, e.extra = .relative ex := by
      unfold RelativeFile.new at hg
      split at hg
      · rename_i ex h; exact ⟨ex, h⟩
      · cases hg
    obtain ⟨ex, hx⟩ := hx
    obtain ⟨side, data, size, hside, -, -, -, rfl⟩ := (C42_open_iff hw hx g).1 hg
    obtain ⟨content, hc⟩ := hside.chain
    refine ⟨rfl, ?_⟩
    unfold File.freeBlocks
    refine Settled.seq (k := fun _ => _) (settled_removeChain hP _)
      (settled_forEach _ fun l hl => settled_free fun p => ?_)
    have hv := hc.valid l hl
    have := (show ValidLoc s.type (bamTracks s.type) l from
      ⟨hv.1, Nat.le_trans hv.2.1 (hP p), hv.2.2⟩).inBam
    exact ⟨⟨this.1, this.2.1⟩, this.2.2⟩
  · rename_i hs
    obtain ⟨g, hg, hf⟩ := res_bind_eq_ok.1 hf
    cases hf
    exact hgeos g (.inl hs) hg
  · rename_i hs
    obtain ⟨g, hg, hf⟩ := res_bind_eq_ok.1 hf
    cases hf
    exact hgeos g (.inr hs) hg

end Cbm
