import Verif.Lemmas.WriteLoop
import Verif.Lemmas.FootprintOps
import Verif.Lemmas.SafeWriter
import Verif.Props.Rename
/-!
# A writer at the end of a chain, whatever else is on the disk
-/

namespace Cbm
open Spec

variable {d d' d0 : Device} {s : Shape} {b b0 : Bam} {p : Position} {locs0 locs : List Location}
  {content : List Byte} {x x' : WSt}

/-- What is known of the disk when the writer is opened: where its directory slot is, which sectors the file has, and
that none of these are free or hold the map. -/
structure Paper (s : Shape) (d0 : Device) (b0 : Bam) (p : Position) (locs0 : List Location) : Prop where
  valid : s.Valid p.location
  fits : p.offset.toNat + 32 ≤ 256
  size : p.size = 32
  slotTaken : isFree b0 p.location = false
  slotOut : p.location ∉ locs0
  slotMap : ∀ j, ¬ bamArea s.type p.location j
  taken : ∀ l ∈ locs0, isFree b0 l = false
  locsMap : ∀ l ∈ locs0, ∀ j, ¬ bamArea s.type l j
  freeMap : ∀ l, ValidLoc s.type (bamTracks s.type) l → isFree b0 l = true → ∀ j, ¬ bamArea s.type l j
  count : (entryAt d0 s p).fileSize ≤ locs0.length

/-- The writer has been at work since the disk was `d0` with the map `b0` and the file had the sectors `locs0`. Now it
has `locs`, and `content` once the block in memory is written. -/
structure Inked (s : Shape) (d0 : Device) (b0 : Bam) (p : Position) (locs0 locs : List Location) (content : List Byte)
    (x : WSt) : Prop where
  wf : Wf x.st.dev s
  writable : Writable x.st.dev
  bam : BamOf x.st.bam s.type
  even : Consistent b0 s.type → Consistent x.st.bam s.type
  free : ∀ l, isFree x.st.bam l = true ↔ isFree b0 l = true ∧ l ∉ locs
  grown : locs0 <+: locs
  fresh : ∀ l ∈ locs, l ∈ locs0 ∨ ValidLoc s.type (bamTracks s.type) l ∧ isFree b0 l = true
  chain : ∃ stale, IsChain x.st.dev s locs stale ∧ (x.w.dirty = false → stale = content)
  frame : ∀ l j, s.Valid l → l ∉ locs → ¬ Field p 30 2 l j → ¬ bamArea s.type l j →
    (x.st.dev.blk s l)[j]? = (d0.blk s l)[j]?
  size : (entryAt x.st.dev s p).fileSize + locs0.length = (entryAt d0 s p).fileSize + locs.length
  slot : x.w.entry.position = some p
  len : x.w.block.length = 256
  tail0 : byteAt x.w.block 0 = 0
  tail1 : 1 ≤ (byteAt x.w.block 1).toNat
  content : ∃ init, locs = init ++ [x.w.location] ∧
    content = payload x.st.dev s init ++ slice x.w.block 2 ((byteAt x.w.block 1).toNat - 1)

theorem entryAt_same (h : d'.blk s p.location = d.blk s p.location) : entryAt d' s p = entryAt d s p := by
  unfold entryAt slotData
  rw [h]

theorem Inked.slotOut (h : Inked s d0 b0 p locs0 locs content x) (hp : Paper s d0 b0 p locs0) : p.location ∉ locs := by
  intro hm
  rcases h.fresh _ hm with h1 | ⟨-, h1⟩
  · exact hp.slotOut h1
  · rw [hp.slotTaken] at h1
    cases h1

theorem Inked.valid (h : Inked s d0 b0 p locs0 locs content x) : ∀ l ∈ locs, s.Valid l := by
  obtain ⟨stale, hc, -⟩ := h.chain
  exact hc.valid

theorem Inked.nodup (h : Inked s d0 b0 p locs0 locs content x) : locs.Nodup := by
  obtain ⟨stale, hc, -⟩ := h.chain
  exact hc.nodup

theorem Inked.map (h : Inked s d0 b0 p locs0 locs content x) (hp : Paper s d0 b0 p locs0) :
    ∀ l ∈ locs, ∀ j, ¬ bamArea s.type l j := by
  intro l hl
  rcases h.fresh _ hl with h1 | ⟨h1, h2⟩
  · exact hp.locsMap l h1
  · exact hp.freeMap l h1 h2

theorem byte_ne_zero {v : Byte} (h : 1 ≤ v.toNat) : v ≠ 0 := by
  rintro rfl
  cases h

/-! ## Writing the block -/

theorem Inked.current (h : Inked s d0 b0 p locs0 locs content x) (hp : Paper s d0 b0 p locs0) :
    ChainWriter.writeCurrentBlock x =
      (.ok (), ⟨x.w, { x.st with dev := x.st.dev.put s x.w.location x.w.block }⟩) ∧
    (x.st.dev.put s x.w.location x.w.block).blk s x.w.location = x.w.block ∧
    IsChain (x.st.dev.put s x.w.location x.w.block) s locs content ∧
    ∀ dirty, Inked s d0 b0 p locs0 locs content
      ⟨{ x.w with dirty := dirty }, { x.st with dev := x.st.dev.put s x.w.location x.w.block }⟩ := by
  obtain ⟨w, st⟩ := x
  obtain ⟨init, hi, hcont⟩ := h.content
  obtain ⟨stale, hc, -⟩ := h.chain
  have hlv : s.Valid w.location := h.valid _ (by rw [hi]; simp)
  have hlen := h.len
  have hsame := h.wf.blk_put_same hlv hlen
  have hother : ∀ l, s.Valid l → l ≠ w.location → (st.dev.put s w.location w.block).blk s l = st.dev.blk s l :=
    fun l hv hne => h.wf.blk_put_other hlv hv hne hlen
  have hinit : ∀ l ∈ init, l ≠ w.location := by
    have := h.nodup
    rw [hi, List.nodup_append] at this
    exact fun l hl => this.2.2 l hl _ (by simp)
  have hpay : payload (st.dev.put s w.location w.block) s init = payload st.dev s init :=
    payload_frame fun l hl => hother l (h.valid l (by rw [hi]; simp [hl])) (hinit l hl)
  have hch : IsChain (st.dev.put s w.location w.block) s locs content := by
    rw [hi] at hc ⊢
    have := hc.rewriteLast (d' := st.dev.put s w.location w.block)
      (fun l hl => hother l (hc.valid l (by simp [hl])) (hinit l hl)) (by rw [hsame]; exact h.tail0)
      (by rw [hsame]; exact byte_ne_zero h.tail1)
    rw [hsame, ← hcont] at this
    exact this
  refine ⟨?_, hsame, hch, fun dirty => ⟨h.wf.put hlv hlen, h.writable.put _, h.bam, h.even, h.free, h.grown, h.fresh,
    ⟨_, hch, fun _ => rfl⟩, ?_, ?_, h.slot, h.len, h.tail0, h.tail1, init, hi, ?_⟩⟩
  · unfold ChainWriter.writeCurrentBlock
    rw [M.bind_of_ok (m := M.get) (s := (⟨w, st⟩ : WSt)) (s' := ⟨w, st⟩) (a := ⟨w, st⟩) rfl]
    refine onSt_run (x := ⟨w, st⟩) (updDev_ok (h.wf.sectorMut_ok h.writable hlv ?_))
    unfold copyFromSlice
    rw [if_pos (by rw [h.wf.blk_length hlv]; exact hlen)]
  · intro l j hv hl hf ha
    rw [hother l hv (by rintro rfl; exact hl (by rw [hi]; simp))]
    exact h.frame l j hv hl hf ha
  · rw [entryAt_same (hother _ hp.valid fun he => h.slotOut hp (by rw [hi, he]; simp))]
    exact h.size
  · rw [hpay]
    exact hcont

/-! ## The size in the directory entry -/

theorem increment_run (hw : Wf x.st.dev s) (hwr : Writable x.st.dev) (hp : x.w.entry.position = some p)
    (hv : s.Valid p.location) (ho : p.offset.toNat + 32 ≤ 256) (hz : p.size = 32)
    (hs : (entryAt x.st.dev s p).fileSize + 1 < 65536) :
    ∃ e d', ChainWriter.incrementEntryBlocks x = (.ok (), ⟨{ x.w with entry := e }, { x.st with dev := d' }⟩) ∧
      e.position = some p ∧ Wf d' s ∧ Writable d' ∧
      (∀ l j, s.Valid l → ¬ Field p 30 2 l j → (d'.blk s l)[j]? = (x.st.dev.blk s l)[j]?) ∧
      (entryAt d' s p).fileSize = (entryAt x.st.dev s p).fileSize + 1 := by
  have hread := readEntry_any (d := x.st.dev) hw hp hv ho hz
  have hb := hw.blk_length hv
  have hl : (slotData x.st.dev s p).length = 32 := by
    unfold slotData
    rw [length_slice _ _ _ (by rw [hb]; exact ho)]
  have hpl : Placed s (entryAt x.st.dev s p) := parse_placed hl hv ho hz
  have hpl' : Placed s { entryAt x.st.dev s p with fileSize := (entryAt x.st.dev s p).fileSize + 1 } :=
    ⟨hpl.position, hpl.name, hpl.extra⟩
  obtain ⟨d', hd'⟩ := writeEntry_done hw hwr hpl'
  have hwf' := (changesOnly_writeEntry hw hd').1
  have hwr' : Writable d' := by
    have := (keep_writeEntry (R := SameShape) hd').kind
    unfold Writable
    rw [this]
    exact hwr
  refine ⟨{ entryAt x.st.dev s p with fileSize := (entryAt x.st.dev s p).fileSize + 1 }, d', ?_, rfl, hwf', hwr', ?_⟩
  · unfold ChainWriter.incrementEntryBlocks
    rw [M.bind_of_ok (s' := x) (a := entryAt x.st.dev s p) (by rw [M.run_read, hread])]
    rw [modW_bind, if_pos hs, modW_bind]
    exact onSt_run (x := { x with w := _ }) (updDev_ok hd')
  · obtain ⟨p2, out, h1, h2, h3, h4, h5, rfl⟩ := writeEntry_inv hw hd'
    have : p = p2 := Option.some.inj h1
    subst this
    have hlen : (splice (x.st.dev.blk s p.location) p.offset.toNat out).length = 256 := by
      rw [length_splice _ _ _ (by omega), hb]
    have hslot : slotData (x.st.dev.put s p.location (splice (x.st.dev.blk s p.location) p.offset.toNat out)) s p = out := by
      unfold slotData
      rw [hw.blk_put_same hv hlen]
      exact slice_splice_same' _ _ _ _ h5.symm (by omega)
    constructor
    · intro l j hlv hj
      rw [hw.blk_put hv hlv hlen]
      split
      · rename_i heq
        subst heq
        rw [getElem?_splice _ _ _ _ (by omega)]
        split
        · rfl
        · split
          · rename_i g1 g2
            rw [rewrite_size h4 (i := j - p.offset.toNat) (by
              rcases Nat.lt_or_ge j (p.offset.toNat + 30) with h | h
              · omega
              · exact absurd ⟨rfl, by omega, by omega⟩ hj)]
            unfold slotData
            rw [getElem?_slice, if_pos (by omega), show p.offset.toNat + (j - p.offset.toNat) = j by omega]
          · rfl
      · rfl
    · obtain ⟨-, y, hy⟩ := toBytes_get h4
      have b30 : byteAt out 30 = UInt8.ofNat (((entryAt x.st.dev s p).fileSize + 1) % 256) := by
        unfold byteAt
        rw [List.getD_eq_getElem?_getD, hy]
        rfl
      have b31 : byteAt out 31 = UInt8.ofNat (((entryAt x.st.dev s p).fileSize + 1) / 256) := by
        unfold byteAt
        rw [List.getD_eq_getElem?_getD, hy]
        rfl
      unfold entryAt at b30 b31 hs ⊢
      rw [hslot]
      generalize (DirectoryEntry.parse32 (slotData x.st.dev s p) (some p)).fileSize = n at *
      show (byteAt out 0x1F).toNat * 256 + (byteAt out 0x1E).toNat = n + 1
      rw [b30, b31, UInt8.toNat_ofNat', UInt8.toNat_ofNat']
      omega

/-! ## Taking another block -/

theorem Inked.allocate (h : Inked s d0 b0 p locs0 locs content x) (hp : Paper s d0 b0 p locs0)
    (hfull : (byteAt x.w.block 1).toNat = 255) (hd : x.w.dirty = true) :
    (∃ y x', ChainWriter.allocateNextBlock x = (.error y, x') ∧ Inked s d0 b0 p locs0 locs content x' ∧
      x'.w.dirty = true ∧ x'.st.bam.nextFreeBlock none = .error y) ∨
    ∃ next x', ChainWriter.allocateNextBlock x = (.ok 254, x') ∧ Inked s d0 b0 p locs0 (locs ++ [next]) content x' ∧
      x'.w.dirty = true ∧ (byteAt x'.w.block 1).toNat = 1 := by
  obtain ⟨hcur, hblk, hch, hink⟩ := h.current hp
  have h1 := hink x.w.dirty
  obtain ⟨w, st⟩ := x
  simp only at hcur hblk hch h1 hfull hd
  obtain ⟨init, hi, hcont⟩ := h1.content
  simp only at hi hcont
  have hlv : s.Valid w.location := h.valid _ (by rw [hi]; simp)
  unfold ChainWriter.allocateNextBlock
  rw [M.bind_of_ok hcur]
  generalize hd1 : st.dev.put s w.location w.block = d1 at *
  cases hnf : st.bam.nextFreeBlock none with
  | error y =>
    refine .inl ⟨y, ⟨w, { st with dev := d1 }⟩, ?_, h1, hd, hnf⟩
    rw [M.bind_of_error (m := M.read fun x => x.st.bam.nextFreeBlock none)
      (s := (⟨w, { st with dev := d1 }⟩ : WSt)) (s' := ⟨w, { st with dev := d1 }⟩) (e := y)
      (by rw [M.run_read]; exact congrArg (·, _) hnf)]
  | ok next =>
    right
    obtain ⟨hnv, hnfree, -, -⟩ := C08_result_valid h.bam none hnf
    have hns := h1.wf.valid_of_map hnv
    obtain ⟨hn0, hnl⟩ := (h.free next).1 hnfree
    have hnew : next ≠ w.location := by rintro rfl; exact hnl (by rw [hi]; simp)
    have hnp : next ≠ p.location := by
      rintro rfl
      rw [hp.slotTaken] at hn0
      cases hn0
    have hwp : w.location ≠ p.location := fun he => h.slotOut hp (by rw [hi, ← he]; simp)
    rw [M.bind_of_ok (m := M.read fun x => x.st.bam.nextFreeBlock none)
      (s := (⟨w, { st with dev := d1 }⟩ : WSt)) (s' := ⟨w, { st with dev := d1 }⟩) (a := next)
      (by rw [M.run_read]; exact congrArg (·, _) hnf)]
    rw [M.bind_of_ok (m := M.get) (s := (⟨w, { st with dev := d1 }⟩ : WSt))
      (s' := ⟨w, { st with dev := d1 }⟩) (a := ⟨w, { st with dev := d1 }⟩) rfl]
    obtain ⟨fresh, hfr, fl, f0, f1⟩ := freshBlock_ok h.len
    simp only []
    rw [M.bind_of_ok (m := M.lift (ChainWriter.freshBlock w.block))
      (s := (⟨w, { st with dev := d1 }⟩ : WSt)) (s' := ⟨w, { st with dev := d1 }⟩) (a := fresh)
      (by rw [M.run_lift, hfr])]
    rw [M.bind_of_ok (m := ChainWriter.modW _) (s := (⟨w, { st with dev := d1 }⟩ : WSt))
      (s' := ⟨{ w with block := fresh }, { st with dev := d1 }⟩) (a := ()) rfl]
    rw [M.bind_of_ok (onSt_run (x := ⟨{ w with block := fresh }, { st with dev := d1 }⟩)
      (updDev_ok (d' := d1.put s next fresh) (h1.wf.sectorMut_ok h1.writable hns (by
        unfold copyFromSlice
        rw [if_pos (by rw [fl, h1.wf.blk_length hns])]))))]
    have ho2 : ∀ l, s.Valid l → l ≠ next → (d1.put s next fresh).blk s l = d1.blk s l :=
      fun l hl hne => h1.wf.blk_put_other hns hl hne fl
    have hs2 : (d1.put s next fresh).blk s next = fresh := h1.wf.blk_put_same hns fl
    have hw2 : Wf (d1.put s next fresh) s := h1.wf.put hns fl
    have hwr2 : Writable (d1.put s next fresh) := h1.writable.put _
    generalize d1.put s next fresh = d2 at *
    obtain ⟨b3, hb3, hfl⟩ := allocate_ok h.bam hnv.inBam
    rw [M.bind_of_ok (onSt_run (x := ⟨{ w with block := fresh }, { st with dev := d2 }⟩) (updBam_ok (b' := b3) hb3))]
    have he2 : entryAt d2 s p = entryAt d1 s p := entryAt_same (ho2 _ hp.valid hnp.symm)
    have hsize := h1.size
    simp only at hsize
    have hbound : (locs ++ [next]).length ≤ 3200 := by
      refine Nat.le_trans (nodup_valid_length (s := s) _ ?_ ?_) (sectors_le h.wf.shape)
      · refine List.nodup_append.2 ⟨h.nodup, by simp, ?_⟩
        intro a ha c hc hac
        rw [List.mem_singleton.1 hc] at hac
        exact hnl (hac ▸ ha)
      · intro l hl
        rcases List.mem_append.1 hl with hl | hl
        · exact h.valid l hl
        · rw [List.mem_singleton.1 hl]
          exact hns
    rw [List.length_append, List.length_cons, List.length_nil] at hbound
    have hcount := hp.count
    obtain ⟨e3, d3, r3, p3, hw3, hwr3, ho3, hz3⟩ := increment_run (x := ⟨{ w with block := fresh }, ⟨d2, b3⟩⟩) hw2 hwr2 h.slot
      hp.valid hp.fits hp.size (by
        show (entryAt d2 s p).fileSize + 1 < 65536
        rw [he2]
        omega)
    simp only at ho3 hz3 r3
    rw [M.bind_of_ok r3]
    have ho3' : ∀ l, s.Valid l → l ≠ p.location → d3.blk s l = d2.blk s l := fun l hl hne =>
      List.ext_getElem? fun j => ho3 l j hl fun hf => hne hf.1
    have hvl3 : d3.blk s w.location = w.block := by
      rw [ho3' _ hlv hwp, ho2 _ hlv hnew.symm]
      exact hblk
    have hvn3 : d3.blk s next = fresh := by rw [ho3' _ hns hnp, hs2]
    have hnewl : (splice w.block 0 [next.track, next.sector]).length = 256 := by
      rw [length_splice _ _ _ (by rw [h.len]; simp), h.len]
    have hlink : d3.sectorMut w.location (ChainWriter.writeLocation next) =
        .ok (d3.put s w.location (splice w.block 0 [next.track, next.sector])) := by
      refine hw3.sectorMut_ok hwr3 hlv ?_
      unfold ChainWriter.writeLocation
      rw [hvl3, if_pos (by rw [h.len]; omega)]
    have hlt3 : ChainWriter.linkTo next ⟨{ w with block := fresh, entry := e3 }, ⟨d3, b3⟩⟩ =
        (.ok (), ⟨{ w with block := fresh, entry := e3 },
          ⟨d3.put s w.location (splice w.block 0 [next.track, next.sector]), b3⟩⟩) := by
      unfold ChainWriter.linkTo
      rw [onSt_run (x := ⟨{ w with block := fresh, entry := e3 }, ⟨d3, b3⟩⟩) (updDev_ok hlink)]
    rw [M.bind_of_ok hlt3]
    rw [M.bind_of_ok (m := ChainWriter.modW _)
      (s' := ⟨{ w with block := fresh, entry := e3, location := next },
        ⟨d3.put s w.location (splice w.block 0 [next.track, next.sector]), b3⟩⟩) (a := ()) rfl]
    have ho4 : ∀ l, s.Valid l → l ≠ w.location →
        (d3.put s w.location (splice w.block 0 [next.track, next.sector])).blk s l = d3.blk s l :=
      fun l hl hne => hw3.blk_put_other hlv hl hne hnewl
    have hs4 := hw3.blk_put_same hlv hnewl
    have hw4 := hw3.put hlv hnewl
    have hwr4 : Writable (d3.put s w.location (splice w.block 0 [next.track, next.sector])) := hwr3.put _
    generalize d3.put s w.location (splice w.block 0 [next.track, next.sector]) = d4 at *
    have hinit : ∀ l ∈ init, l ≠ w.location := by
      have := h.nodup
      rw [hi, List.nodup_append] at this
      exact fun l hl => this.2.2 l hl _ (by simp)
    have hin : ∀ l ∈ init, l ∈ locs := fun l hl => by rw [hi]; simp [hl]
    have hall : ∀ l ∈ init, d4.blk s l = d1.blk s l := fun l hl => by
      have hv := h.valid l (hin l hl)
      rw [ho4 l hv (hinit l hl), ho3' l hv (fun he => h.slotOut hp (he ▸ hin l hl)),
        ho2 l hv (fun he => hnl (he ▸ hin l hl))]
    have hchain : IsChain d4 s (locs ++ [next]) content := by
      rw [hi] at hch ⊢
      refine hch.extend h1.wf ?_ hall ?_ ?_ ?_ hns (by rw [← hi]; exact hnl)
      · rw [hblk, byte_eq_iff]; exact hfull
      · rw [hs4, hblk]
      · rw [ho4 _ hns hnew, hvn3]; exact f0
      · rw [ho4 _ hns hnew, hvn3]; exact f1
    have hone : (byteAt fresh 1).toNat = 1 := by rw [f1]; rfl
    refine ⟨next, _, rfl, ?_, hd, hone⟩
    refine ⟨hw4, hwr4, hfl.of, fun hc => hfl.consistent (h.even hc) hnv, fun l => ?_, h.grown.trans (List.prefix_append _ _), fun l hl => ?_, ⟨_, hchain, fun _ => rfl⟩,
      fun l j hv hl hf ha => ?_, ?_, p3, fl, f0, by rw [hone]; exact Nat.le_refl _, locs, rfl, ?_⟩
    · show freeAt b3 _ _ = _ ↔ _
      rw [hfl.free, List.mem_append, List.mem_singleton]
      by_cases hln : l = next
      · rw [if_pos (by rw [hln]; exact ⟨rfl, rfl⟩)]
        simp [hln]
      · rw [if_neg fun ⟨g1, g2⟩ => hln (loc_ext g1 g2)]
        have := h.free l
        unfold isFree at this
        rw [this]
        simp [hln, isFree]
    · rcases List.mem_append.1 hl with hl | hl
      · exact h.fresh l hl
      · rw [List.mem_singleton.1 hl]
        exact .inr ⟨hnv, hn0⟩
    · rw [List.mem_append, List.mem_singleton] at hl
      have hl1 : l ∉ locs := fun g => hl (.inl g)
      show (d4.blk s l)[j]? = _
      rw [ho4 l hv (by rintro rfl; exact hl1 (by rw [hi]; simp)), ho3 l j hv hf, ho2 l hv fun g => hl (.inr g)]
      exact h1.frame l j hv hl1 hf ha
    · show (entryAt d4 s p).fileSize + _ = _
      rw [entryAt_same (ho4 _ hp.valid hwp.symm), hz3, he2, List.length_append, List.length_cons, List.length_nil]
      omega
    · show content = payload d4 s locs ++ slice fresh 2 ((byteAt fresh 1).toNat - 1)
      obtain ⟨i2, t2, g1, -, -, g4⟩ := hchain.last
      obtain ⟨rfl, g5⟩ := List.append_inj' g1 rfl
      obtain rfl : next = t2 := by simpa using g5
      rw [ho4 _ hns hnew, hvn3] at g4
      exact g4

/-! ## Writing and flushing -/

theorem Inked.fill (h : Inked s d0 b0 p locs0 locs content x) (hd : x.w.dirty = true) {bytes block' : List Byte}
    (hl : block'.length = 256) (h0 : byteAt block' 0 = 0)
    (h1 : (byteAt block' 1).toNat = (byteAt x.w.block 1).toNat + bytes.length)
    (hs : slice block' 2 ((byteAt x.w.block 1).toNat + bytes.length - 1) =
      slice x.w.block 2 ((byteAt x.w.block 1).toNat - 1) ++ bytes) :
    Inked s d0 b0 p locs0 locs (content ++ bytes) { x with w := { x.w with block := block' } } := by
  obtain ⟨init, hi, hc⟩ := h.content
  obtain ⟨stale, hch, -⟩ := h.chain
  refine ⟨h.wf, h.writable, h.bam, h.even, h.free, h.grown, h.fresh, ⟨stale, hch, fun hf => ?_⟩, h.frame, h.size, h.slot, hl, h0,
    ?_, init, hi, ?_⟩
  · rw [show ({ x.w with block := block' } : ChainWriter).dirty = x.w.dirty from rfl, hd] at hf
    cases hf
  · show 1 ≤ (byteAt block' 1).toNat
    have := h.tail1
    omega
  · show _ = _ ++ slice block' 2 ((byteAt block' 1).toNat - 1)
    rw [h1, hs, hc, List.append_assoc]

/-- What writing `bs` comes to: some of the bytes, all of them if it succeeds, were added to the file; it fails only if
there is no free block left. -/
structure Penned (s : Shape) (d0 : Device) (b0 : Bam) (p : Position) (locs0 : List Location) (content bs : List Byte)
    (r : Res Unit) (x : WSt) (locs : List Location) (n : Nat) : Prop where
  here : Inked s d0 b0 p locs0 locs (content ++ bs.take n) x
  dirty : x.w.dirty = true
  done : r = .ok () → n = bs.length
  failed : ∀ y, r = .error y → x.st.bam.nextFreeBlock none = .error y

theorem Inked.loop (hp : Paper s d0 b0 p locs0) : ∀ (fuel : Nat) (bs : List Byte) {x : WSt} {locs : List Location}
    {content : List Byte}, Inked s d0 b0 p locs0 locs content x → x.w.dirty = true → bs.length ≤ fuel →
    ∃ r x' locs' n, ChainWriter.writeLoop fuel bs x = (r, x') ∧ Penned s d0 b0 p locs0 content bs r x' locs' n := by
  have nil_case : ∀ {x : WSt} {locs : List Location} {content : List Byte}, Inked s d0 b0 p locs0 locs content x →
      x.w.dirty = true → Penned s d0 b0 p locs0 content [] (.ok ()) x locs 0 := fun h hd =>
    ⟨by simpa using h, hd, fun _ => rfl, nofun⟩
  intro fuel
  induction fuel with
  | zero =>
    intro bs x locs content h hd hf
    have : bs = [] := List.eq_nil_of_length_eq_zero (by omega)
    subst this
    exact ⟨_, _, locs, 0, rfl, nil_case h hd⟩
  | succ fuel ih =>
    intro bs x locs content h hd hf
    cases bs with
    | nil => exact ⟨_, _, locs, 0, rfl, nil_case h hd⟩
    | cons b1 bs =>
      have key : ∀ {x : WSt} {locs : List Location}, Inked s d0 b0 p locs0 locs content x → x.w.dirty = true →
          (byteAt x.w.block 1).toNat < 255 →
          ∃ r x' locs' n, afterRoom fuel (b1 :: bs) ((byteAt x.w.block 1).toNat + 1,
              256 - ((byteAt x.w.block 1).toNat + 1)) x = (r, x') ∧
            Penned s d0 b0 p locs0 content (b1 :: bs) r x' locs' n := by
        intro x locs h hd hlt
        have ht := h.tail1
        generalize hn : min (256 - ((byteAt x.w.block 1).toNat + 1)) (b1 :: bs).length = n
        have hn1 : 1 ≤ n := by rw [← hn, List.length_cons]; omega
        have hn2 : n ≤ (b1 :: bs).length := by rw [← hn]; omega
        have hn3 : (byteAt x.w.block 1).toNat + n ≤ 255 := by omega
        have htl : ((b1 :: bs).take n).length = n := by rw [List.length_take]; omega
        obtain ⟨block', e1, e2, e3, e4, e5⟩ := fillBlock_ok (bytes := (b1 :: bs).take n) h.len
          (m := (byteAt x.w.block 1).toNat) ht (by rw [htl]; omega)
        have h' := h.fill hd (bytes := (b1 :: bs).take n) e2 e3 e4 e5
        obtain ⟨r, x', locs', m, hrun, hres⟩ := ih ((b1 :: bs).drop n) h' hd (by rw [List.length_drop]; omega)
        have hcat : content ++ (b1 :: bs).take n ++ ((b1 :: bs).drop n).take m =
            content ++ (b1 :: bs).take (n + m) := by
          rw [List.append_assoc, ← List.take_add]
        refine ⟨r, x', locs', n + m, ?_, ?_⟩
        · unfold afterRoom
          simp only [hn]
          rw [M.bind_of_ok (m := M.get) (s := x) (s' := x) (a := x) rfl]
          rw [M.bind_of_ok (m := M.lift _) (s := x) (s' := x) (a := block')
            (by rw [M.run_lift]; exact congrArg (·, _) e1)]
          rw [M.bind_of_ok (m := ChainWriter.modW _) (s := x)
            (s' := { x with w := { x.w with block := block' } }) (a := ()) rfl]
          exact hrun
        · obtain ⟨a1, a2, a3, a4⟩ := hres
          rw [hcat] at a1
          refine ⟨a1, a2, fun hr => ?_, a4⟩
          rw [a3 hr, List.length_drop]
          omega
      rw [writeLoop_succ]
      have hlink : ChainLink.new x.w.block = .ok (.tail ((byteAt x.w.block 1).toNat + 1)) := by
        rw [chainLink_new _ (by rw [h.len]; omega), if_pos h.tail0, if_neg (byte_ne_zero h.tail1)]
      by_cases hfull : (byteAt x.w.block 1).toNat = 255
      · have hroom : ∀ r x', ChainWriter.allocateNextBlock x = (r, x') →
            ChainWriter.room x = (r.map fun n => (256 - n, n), x') := by
          intro r x' hr
          unfold ChainWriter.room
          rw [M.bind_of_ok (m := M.get) (s := x) (s' := x) (a := x) rfl]
          rw [M.bind_of_ok (m := M.lift _) (s := x) (s' := x)
            (a := ChainLink.tail ((byteAt x.w.block 1).toNat + 1))
            (by rw [M.run_lift]; exact congrArg (·, _) hlink)]
          simp only [hfull]
          rw [if_pos (by trivial)]
          cases r with
          | ok n => rw [M.bind_of_ok hr]; rfl
          | error e => rw [M.bind_of_error hr]; rfl
        rcases h.allocate hp hfull hd with ⟨y, x', hrun, h', hd', hy⟩ | ⟨next, x', hrun, h', hd', h1⟩
        · refine ⟨_, _, locs, 0, M.bind_of_error (hroom _ _ hrun), by simpa using h', hd', nofun, ?_⟩
          intro y' hy'
          cases hy'
          exact hy
        · obtain ⟨r, x2, locs', n, hrun2, hres⟩ := key h' hd' (by omega)
          refine ⟨r, x2, locs', n, ?_, hres⟩
          rw [M.bind_of_ok (hroom _ _ hrun)]
          rw [h1] at hrun2
          exact hrun2
      · have hlt : (byteAt x.w.block 1).toNat < 255 := by
          have := (byteAt x.w.block 1).toNat_lt
          omega
        have hroom : ChainWriter.room x =
            (.ok ((byteAt x.w.block 1).toNat + 1, 256 - ((byteAt x.w.block 1).toNat + 1)), x) := by
          unfold ChainWriter.room
          rw [M.bind_of_ok (m := M.get) (s := x) (s' := x) (a := x) rfl]
          rw [M.bind_of_ok (m := M.lift _) (s := x) (s' := x)
            (a := ChainLink.tail ((byteAt x.w.block 1).toNat + 1))
            (by rw [M.run_lift]; exact congrArg (·, _) hlink)]
          simp only []
          rw [if_neg (by simp only [BLOCK_SIZE]; omega)]
          rfl
        obtain ⟨r, x', locs', n, hrun, hres⟩ := key h hd hlt
        exact ⟨r, x', locs', n, by rw [M.bind_of_ok hroom]; exact hrun, hres⟩

theorem Inked.write (h : Inked s d0 b0 p locs0 locs content x) (hp : Paper s d0 b0 p locs0) (buf : List Byte) :
    ∃ r x' locs' n, ChainWriter.write buf x = (r.map fun _ => buf.length, x') ∧
      Penned s d0 b0 p locs0 content buf r x' locs' n := by
  obtain ⟨stale, hch, -⟩ := h.chain
  have h' : Inked s d0 b0 p locs0 locs content { x with w := { x.w with dirty := true } } :=
    ⟨h.wf, h.writable, h.bam, h.even, h.free, h.grown, h.fresh, ⟨stale, hch, fun hf => by cases hf⟩, h.frame, h.size, h.slot, h.len,
      h.tail0, h.tail1, h.content⟩
  obtain ⟨r, x', locs', n, hrun, hres⟩ := Inked.loop hp buf.length buf h' rfl (Nat.le_refl _)
  refine ⟨r, x', locs', n, ?_, hres⟩
  unfold ChainWriter.write
  rw [M.bind_of_ok (m := ChainWriter.modW _) (s := x) (s' := { x with w := { x.w with dirty := true } }) (a := ()) rfl]
  cases r with
  | ok u => rw [M.bind_of_ok hrun]; rfl
  | error e => rw [M.bind_of_error hrun]; rfl

theorem flushBam_frame {st : St} (hw : Wf st.dev s) (hwr : Writable st.dev) (hb : BamOf st.bam s.type) :
    ∃ d', St.flushBam st = (.ok (), { st with dev := d' }) ∧ Wf d' s ∧ Writable d' ∧
      ∀ l j, s.Valid l → ¬ bamArea s.type l j → (d'.blk s l)[j]? = (st.dev.blk s l)[j]? := by
  obtain ⟨ws, r, o, -, hfr, -⟩ := flush_writes hb hw hwr
  have hrun : St.flushBam st = (.ok (), { st with dev := st.dev.puts s ws }) := by
    unfold St.flushBam
    rw [M.bind_of_ok (m := M.get) (s := st) (s' := st) (a := st) rfl]
    unfold St.onDev
    rw [M.run_zoom, r]
  refine ⟨_, hrun, hw.puts o, ?_, fun l j hv ha => ?_⟩
  · have := (keep_flushBam (R := SameShape) st).kind
    rw [hrun] at this
    unfold Writable
    rw [show (st.dev.puts s ws).image.kind = st.dev.image.kind from this]
    exact hwr
  · have := hfr ws.length l j hv fun hin => ha (inSections_area _ _ _ hin)
    rwa [List.take_length] at this

theorem flushBam_synced {st : St} (hw : Wf st.dev s) (hwr : Writable st.dev) (hb : BamOf st.bam s.type)
    (hc : Consistent st.bam s.type) {d' : Device} (h : St.flushBam st = (.ok (), { st with dev := d' })) :
    Synced d' s st.bam := by
  obtain ⟨ws, r, o, hh, -, -⟩ := flush_writes hb hw hwr
  have hrun : St.flushBam st = (.ok (), { st with dev := st.dev.puts s ws }) := by
    unfold St.flushBam
    rw [M.bind_of_ok (m := M.get) (s := st) (s' := st) (a := st) rfl]
    unfold St.onDev
    rw [M.run_zoom, r]
  rw [hrun] at h
  obtain rfl : st.dev.puts s ws = d' := congrArg (fun z : Res Unit × St => z.2.dev) h
  exact read_of_holds (hw.puts o) hb hc.fits hh _ rfl

theorem Inked.flush (h : Inked s d0 b0 p locs0 locs content x) (hp : Paper s d0 b0 p locs0) :
    ∃ x', ChainWriter.flush x = (.ok (), x') ∧ Inked s d0 b0 p locs0 locs content x' ∧ x'.w.dirty = false ∧
      x'.st.bam = x.st.bam ∧ (Consistent b0 s.type → (x.w.dirty = false → Synced x.st.dev s x.st.bam) →
        Synced x'.st.dev s x'.st.bam) := by
  unfold ChainWriter.flush
  rw [M.bind_of_ok (m := M.get) (s := x) (s' := x) (a := x) rfl]
  cases hd : x.w.dirty with
  | false => exact ⟨x, rfl, h, hd, rfl, fun _ hs => hs rfl⟩
  | true =>
    rw [if_pos rfl]
    obtain ⟨hcur, -, hch, hink⟩ := h.current hp
    have h1 := hink false
    rw [M.bind_of_ok hcur]
    obtain ⟨w, st⟩ := x
    simp only at hcur hch h1 ⊢
    generalize st.dev.put s w.location w.block = d1 at *
    obtain ⟨d2, hrun, hw2, hwr2, hfr⟩ := flushBam_frame (st := ⟨d1, st.bam⟩) h1.wf h1.writable h1.bam
    simp only at hfr
    rw [M.bind_of_ok (onSt_run (x := ⟨w, ⟨d1, st.bam⟩⟩) hrun)]
    rw [M.bind_of_ok (m := M.read fun x : WSt => x.st.dev.flush) (s := ⟨w, d2, st.bam⟩)
      (s' := ⟨w, d2, st.bam⟩) (a := ())
      (by rw [M.run_read]; exact congrArg (·, _) (device_flush hwr2))]
    have hsame : ∀ l, s.Valid l → (∀ j, ¬ bamArea s.type l j) → d2.blk s l = d1.blk s l := fun l hv ha =>
      List.ext_getElem? fun j => hfr l j hv (ha j)
    have hl : ∀ l ∈ locs, d2.blk s l = d1.blk s l := fun l hl => hsame l (h.valid l hl) (h.map hp l hl)
    obtain ⟨init, hi, hc⟩ := h1.content
    refine ⟨_, rfl, ⟨hw2, hwr2, h1.bam, h1.even, h1.free, h1.grown, h1.fresh, ⟨_, hch.frame hl, fun _ => rfl⟩, fun l j hv hl hf ha => ?_,
      ?_, h1.slot, h1.len, h1.tail0, h1.tail1, init, hi, ?_⟩, rfl, rfl, fun hc _ =>
        flushBam_synced (st := ⟨d1, st.bam⟩) h1.wf h1.writable h1.bam (h1.even hc) hrun⟩
    · exact (hfr l j hv ha).trans (h1.frame l j hv hl hf ha)
    · show (entryAt d2 s p).fileSize + _ = _
      rw [entryAt_same (hsame _ hp.valid hp.slotMap)]
      exact h1.size
    · show _ = payload d2 s init ++ _
      rw [payload_frame fun l hm => hl l (by rw [hi]; simp [hm])]
      exact hc

/-! ## Opening -/

theorem Inked.start {data : List Byte} {e : DirectoryEntry} (hw : Wf d0 s) (hwr : Writable d0) (hb : BamOf b0 s.type)
    (hp : Paper s d0 b0 p locs0) (hc : IsChain d0 s locs0 data) (hs : locs0.head? = some e.firstSector)
    (he : e.position = some p) :
    ∃ w, ChainWriter.new d0 e e.firstSector = .ok w ∧ w.dirty = true ∧ Inked s d0 b0 p locs0 locs0 data ⟨w, d0, b0⟩ := by
  obtain ⟨init, t, hl, h0, h1, hdata⟩ := hc.last
  have htv : s.Valid t := hc.valid t (by rw [hl]; simp)
  have hfv : s.Valid e.firstSector := hc.valid _ (List.mem_of_mem_head? hs)
  have hlen := Nat.le_trans (nodup_valid_length _ hc.nodup hc.valid) (sectors_le hw.shape)
  refine ⟨⟨e, t, d0.blk s t, true⟩, ?_, rfl, hw, hwr, hb, id, fun l => ⟨fun h => ⟨h, fun hm => ?_⟩, And.left⟩, List.prefix_refl _,
    fun l hm => .inl hm, ⟨_, hc, nofun⟩, fun _ _ _ _ _ _ => rfl, rfl, he, hw.blk_length htv, h0, ?_, init, hl, hdata⟩
  · unfold ChainWriter.new
    rw [hw.sector hfv, res_bind_ok]
    have hlk := hc.linked
    rw [hl] at hlk hs hlen
    rw [tailLoop_chain hw init t chainFuel e.firstSector hs hlk (fun l hm => hc.valid l (hl ▸ hm)) h0 h1
      (by simp at hlen; show _ < 65537; omega)]
    rfl
  · rw [hp.taken l hm] at h
    cases h
  · have : (byteAt (d0.blk s t) 1).toNat ≠ 0 := fun e => h1 (UInt8.toNat_inj.1 e)
    show 1 ≤ (byteAt (d0.blk s t) 1).toNat
    omega

end Cbm
