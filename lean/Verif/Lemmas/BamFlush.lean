import Verif.Lemmas.Bam
import Verif.Lemmas.Puts
/-!
# Writing the BAM to the image and reading it back
-/

namespace Cbm
open Spec

theorem foldRes_append {α β : Type} (f : β → α → Res β) (xs ys : List α) (b : β) :
    foldRes f (xs ++ ys) b = (foldRes f xs b >>= foldRes f ys) := by
  induction xs generalizing b with
  | nil => rfl
  | cons x t ih =>
    simp only [List.cons_append, foldRes]
    cases f b x with
    | error e => rfl
    | ok a => simp only [res_bind_ok]; exact ih a

/-- A loop that copies equally long pieces to regularly spaced offsets. -/
theorem render_spec (src : Nat → List Byte) (g : List Byte → Nat → Res (List Byte))
    (o st sz n : Nat) (block : List Byte)
    (hg : ∀ (b : List Byte) i, i < n → b.length = block.length →
      g b i = .ok (splice b (o + i * st) (src i)))
    (hsz : ∀ i, i < n → (src i).length = sz) (hst : sz ≤ st)
    (hb : ∀ i, i < n → o + i * st + sz ≤ block.length) :
    ∃ block', foldRes g (List.range n) block = .ok block' ∧ block'.length = block.length ∧
      (∀ i, i < n → slice block' (o + i * st) sz = src i) ∧
      (∀ j, (∀ i, i < n → j < o + i * st ∨ o + i * st + sz ≤ j) → block'[j]? = block[j]?) := by
  induction n with
  | zero => exact ⟨block, rfl, rfl, by omega, by simp⟩
  | succ n ih =>
    obtain ⟨b1, h1, h2, h3, h4⟩ := ih (fun b i hi => hg b i (by omega))
      (fun i hi => hsz i (by omega)) (fun i hi => hb i (by omega))
    have hbn := hb n (by omega)
    have hsn := hsz n (by omega)
    refine ⟨splice b1 (o + n * st) (src n), ?_, ?_, ?_, ?_⟩
    · rw [List.range_succ, foldRes_append, h1, res_bind_ok]
      simp only [foldRes]
      rw [hg b1 n (by omega) h2]
      rfl
    · rw [length_splice _ _ _ (by omega), h2]
    · intro i hi
      by_cases hin : i = n
      · subst hin
        exact slice_splice_same' _ _ _ _ hsn.symm (by omega)
      · rw [slice_splice_disjoint _ _ _ _ _ (by omega), h3 i (by omega)]
        left
        have : (i + 1) * st ≤ n * st := Nat.mul_le_mul_right _ (by omega)
        rw [Nat.add_mul] at this; omega
    · intro j hj
      have := hj n (by omega)
      rw [getElem?_splice _ _ _ _ (by omega), ← h4 j (fun i hi => hj i (by omega))]
      repeat' split
      all_goals first | rfl | omega

/-- What the code needs of a BAM section. -/
structure SectionOK (ty : DiskType) (sec : BamSection) : Prop where
  validBitmap : ValidLoc ty (bamTracks ty) sec.bitmapLocation
  validFree : ValidLoc ty (bamTracks ty) sec.freeLocation
  tracks : 1 ≤ sec.tracks
  size8 : sec.bitmapSize ≤ 8
  sizeStride : sec.bitmapSize ≤ sec.bitmapStride
  stride : 1 ≤ sec.freeStride
  bitmapEnd : sec.bitmapOffset + (sec.tracks - 1) * sec.bitmapStride + sec.bitmapSize ≤ 256
  freeEnd : sec.freeOffset + (sec.tracks - 1) * sec.freeStride + 1 ≤ 256
  apart : sec.bitmapLocation = sec.freeLocation → ∀ i, i < sec.tracks → ∀ k, k < sec.tracks →
    sec.freeOffset + i * sec.freeStride < sec.bitmapOffset + k * sec.bitmapStride ∨
    sec.bitmapOffset + k * sec.bitmapStride + sec.bitmapSize ≤
      sec.freeOffset + i * sec.freeStride

/-- The byte belongs to the section. -/
def InSection (sec : BamSection) (l : Location) (j : Nat) : Prop :=
  (l = sec.bitmapLocation ∧ ∃ i, i < sec.tracks ∧ sec.bitmapOffset + i * sec.bitmapStride ≤ j ∧
    j < sec.bitmapOffset + i * sec.bitmapStride + sec.bitmapSize) ∨
  (l = sec.freeLocation ∧ ∃ i, i < sec.tracks ∧ j = sec.freeOffset + i * sec.freeStride)

theorem section_ok_d64 : ∀ sec ∈ D64.BAM_FORMAT, SectionOK .d64 sec := by
  intro sec h
  simp only [D64.BAM_FORMAT, List.mem_singleton] at h
  subst h
  constructor <;> decide

theorem section_ok_d71 : ∀ sec ∈ D71.BAM_FORMAT, SectionOK .d71 sec := by
  intro sec h
  simp only [D71.BAM_FORMAT, List.mem_cons, List.not_mem_nil, or_false] at h
  rcases h with rfl | rfl
  · constructor <;> decide
  · constructor <;> decide

theorem section_ok_d81 : ∀ sec ∈ D81.BAM_FORMAT, SectionOK .d81 sec := by
  intro sec h
  simp only [D81.BAM_FORMAT, List.mem_cons, List.not_mem_nil, or_false] at h
  rcases h with rfl | rfl
  · constructor <;> decide
  · constructor <;> decide

theorem section_ok (ty : DiskType) : ∀ sec ∈ ty.format.bam, SectionOK ty sec := by
  cases ty
  · exact section_ok_d64
  · exact section_ok_d71
  · exact section_ok_d81

theorem bamTracks_le_tracks {s : Shape} (h : s ∈ shapes) : bamTracks s.type ≤ s.tracks := by
  revert s h; decide

theorem Spec.Wf.bam_valid {d : Device} {s : Shape} (h : Wf d s) {l : Location}
    (hl : ValidLoc s.type (bamTracks s.type) l) : s.Valid l :=
  ⟨hl.1, Nat.le_trans hl.2.1 (bamTracks_le_tracks h.shape), hl.2.2⟩

/-- The section on the image holds the entries from `prev` on. -/
def Holds (d : Device) (s : Shape) (entries : List BamEntry) (prev : Nat) (sec : BamSection) :
    Prop :=
  ∀ i, i < sec.tracks → ∃ e, entries[prev + i]? = some e ∧
    slice (d.blk s sec.bitmapLocation) (sec.bitmapOffset + i * sec.bitmapStride) sec.bitmapSize
      = writeBitmap sec.bitmapSize e.sectorMap ∧
    (d.blk s sec.freeLocation)[sec.freeOffset + i * sec.freeStride]? = some e.freeSectors

theorem index_bound {sec : BamSection} {i a b : Nat} (h : i < sec.tracks) :
    a + i * b ≤ a + (sec.tracks - 1) * b := by
  have := Nat.mul_le_mul_right b (show i ≤ sec.tracks - 1 by omega)
  omega

theorem renderBitmaps_ok {ty : DiskType} {sec : BamSection} (hs : SectionOK ty sec)
    {entries : List BamEntry} {prev : Nat} (he : prev + sec.tracks ≤ entries.length)
    {block : List Byte} (hb : block.length = 256) :
    ∃ block', renderBitmaps entries sec prev block = .ok block' ∧ block'.length = 256 ∧
      (∀ i, i < sec.tracks → ∃ e, entries[prev + i]? = some e ∧
        slice block' (sec.bitmapOffset + i * sec.bitmapStride) sec.bitmapSize
          = writeBitmap sec.bitmapSize e.sectorMap) ∧
      (∀ j, (∀ i, i < sec.tracks → j < sec.bitmapOffset + i * sec.bitmapStride ∨
        sec.bitmapOffset + i * sec.bitmapStride + sec.bitmapSize ≤ j) →
        block'[j]? = block[j]?) := by
  have hbound : ∀ i, i < sec.tracks →
      sec.bitmapOffset + i * sec.bitmapStride + sec.bitmapSize ≤ block.length := by
    intro i hi
    have := index_bound (a := sec.bitmapOffset) (b := sec.bitmapStride) hi
    have := hs.bitmapEnd; omega
  obtain ⟨b', h1, h2, h3, h4⟩ := render_spec
    (fun i => writeBitmap sec.bitmapSize
      ((entries[prev + i]?).map BamEntry.sectorMap |>.getD 0)) (fun block i => do
    let e ← indexRes entries (prev + i)
    let offset := sec.bitmapOffset + i * sec.bitmapStride
    if offset + sec.bitmapSize ≤ block.length
    then return splice block offset (writeBitmap sec.bitmapSize e.sectorMap)
    else rpanic) sec.bitmapOffset sec.bitmapStride sec.bitmapSize sec.tracks block
    (by
      intro b i hi hbl
      have := hbound i hi
      simp only [indexRes_ok (show prev + i < entries.length by omega), res_bind_ok]
      rw [if_pos (by omega), List.getElem?_eq_getElem (show prev + i < entries.length by omega)]
      rfl)
    (by intro i _; exact length_writeBitmap _ _) hs.sizeStride hbound
  refine ⟨b', h1, by omega, ?_, h4⟩
  intro i hi
  have hlt : prev + i < entries.length := by omega
  refine ⟨entries[prev + i], List.getElem?_eq_getElem hlt, ?_⟩
  rw [h3 i hi, List.getElem?_eq_getElem hlt]
  rfl

theorem slice_one {xs : List Byte} {o : Nat} {x : Byte} (h : slice xs o 1 = [x]) :
    xs[o]? = some x := by
  have := congrArg (fun l => l[0]?) h
  simp only [getElem?_slice] at this
  simpa using this

theorem renderCounts_ok {ty : DiskType} {sec : BamSection} (hs : SectionOK ty sec)
    {entries : List BamEntry} {prev : Nat} (he : prev + sec.tracks ≤ entries.length)
    {block : List Byte} (hb : block.length = 256) :
    ∃ block', renderCounts entries sec prev block = .ok block' ∧ block'.length = 256 ∧
      (∀ i, i < sec.tracks → ∃ e, entries[prev + i]? = some e ∧
        block'[sec.freeOffset + i * sec.freeStride]? = some e.freeSectors) ∧
      (∀ j, (∀ i, i < sec.tracks → j ≠ sec.freeOffset + i * sec.freeStride) →
        block'[j]? = block[j]?) := by
  have hbound : ∀ i, i < sec.tracks →
      sec.freeOffset + i * sec.freeStride + 1 ≤ block.length := by
    intro i hi
    have := index_bound (a := sec.freeOffset) (b := sec.freeStride) hi
    have := hs.freeEnd; omega
  obtain ⟨b', h1, h2, h3, h4⟩ := render_spec
    (fun i => [(entries[prev + i]?).map BamEntry.freeSectors |>.getD 0]) (fun block i => do
    let e ← indexRes entries (prev + i)
    let offset := sec.freeOffset + i * sec.freeStride
    if offset < block.length then return splice block offset [e.freeSectors]
    else rpanic) sec.freeOffset sec.freeStride 1 sec.tracks block
    (by
      intro b i hi hbl
      have := hbound i hi
      simp only [indexRes_ok (show prev + i < entries.length by omega), res_bind_ok]
      rw [if_pos (by omega), List.getElem?_eq_getElem (show prev + i < entries.length by omega)]
      rfl)
    (by intro i _; rfl) hs.stride hbound
  refine ⟨b', h1, by omega, ?_, ?_⟩
  · intro i hi
    have hlt : prev + i < entries.length := by omega
    refine ⟨entries[prev + i], List.getElem?_eq_getElem hlt, ?_⟩
    apply slice_one
    rw [h3 i hi, List.getElem?_eq_getElem hlt]
    rfl
  · intro j hj
    refine h4 j fun i hi => ?_
    have := hj i hi; omega

/-- Effect of writing one section. -/
theorem writeSection_ok {d : Device} {s : Shape} (h : Wf d s) (hw : Writable d)
    {sec : BamSection} (hs : SectionOK s.type sec) {entries : List BamEntry} {prev : Nat}
    (he : prev + sec.tracks ≤ entries.length) :
    ∃ ws, writeSection entries prev sec d = (.ok (), d.puts s ws) ∧ WsOK s ws ∧
      Holds (d.puts s ws) s entries prev sec ∧
      (∀ w ∈ ws, (w.1 = sec.bitmapLocation ∨ w.1 = sec.freeLocation) ∧
        ∀ j, ¬ InSection sec w.1 j → w.2[j]? = (d.blk s w.1)[j]?) := by
  have vb := h.bam_valid hs.validBitmap
  have vf := h.bam_valid hs.validFree
  obtain ⟨b1, r1, l1, v1, f1⟩ := renderBitmaps_ok hs he (h.blk_length vb)
  unfold writeSection
  rw [M.bind_of_ok (a := d.blk s sec.bitmapLocation) (s' := d) (by
    rw [M.run_read, h.sector vb])]
  rw [M.bind_of_ok (a := b1) (s' := d) (by rw [M.run_lift, r1])]
  have hfb1 : ∀ j, ¬ InSection sec sec.bitmapLocation j → b1[j]? = (d.blk s sec.bitmapLocation)[j]? := by
    intro j hj
    refine f1 j fun i hi => ?_
    apply Classical.byContradiction
    intro hc
    exact hj (Or.inl ⟨rfl, i, hi, by omega, by omega⟩)
  by_cases hne : sec.bitmapLocation = sec.freeLocation
  · rw [if_neg (by simp [hne])]
    obtain ⟨b2, r2, l2, v2, f2⟩ := renderCounts_ok hs he l1
    rw [M.bind_of_ok (a := b2) (s' := d) (by rw [M.run_lift, r2])]
    refine ⟨[(sec.freeLocation, b2)], ?_, WsOK.single vf l2, ?_, ?_⟩
    · unfold M.sectorMut
      rw [M.update_ok (s' := d.put s sec.freeLocation b2)]
      · rfl
      · apply h.sectorMut_ok hw vf
        unfold copyFromSlice
        rw [if_pos (by rw [h.blk_length vf, l2])]
    · intro i hi
      obtain ⟨e, he1, he2⟩ := v2 i hi
      obtain ⟨e', he1', he2'⟩ := v1 i hi
      have : e' = e := by rw [he1] at he1'; exact (Option.some.inj he1').symm
      subst this
      refine ⟨e', he1, ?_, ?_⟩
      · simp only [puts_cons, puts_nil]
        rw [hne, h.blk_put_same vf l2, ← he2']
        apply List.ext_getElem?
        intro j
        simp only [getElem?_slice]
        split
        · rename_i hj
          apply f2
          intro k hk
          have := hs.apart hne k hk i hi
          omega
        · rfl
      · simp only [puts_cons, puts_nil]
        rw [h.blk_put_same vf l2, he2]
    · intro w hw'
      rw [List.mem_singleton] at hw'
      subst hw'
      refine ⟨Or.inr rfl, ?_⟩
      intro j hj
      simp only at hj ⊢
      have hj' : ¬ InSection sec sec.bitmapLocation j := by rw [hne]; exact hj
      rw [f2 j ?_, hfb1 j hj', hne]
      intro i hi hji
      exact hj (Or.inr ⟨rfl, i, hi, hji⟩)
  · rw [if_pos hne]
    have hput : (M.sectorMut sec.bitmapLocation (copyFromSlice b1)) d
        = (.ok (), d.put s sec.bitmapLocation b1) := by
      unfold M.sectorMut
      apply M.update_ok
      apply h.sectorMut_ok hw vb
      unfold copyFromSlice
      rw [if_pos (by rw [h.blk_length vb, l1])]
    rw [M.bind_of_ok hput]
    have h' := h.put vb l1
    have hw2 : Writable (d.put s sec.bitmapLocation b1) := hw
    obtain ⟨b2, r2, l2, v2, f2⟩ := renderCounts_ok hs he (h'.blk_length vf)
    rw [M.bind_of_ok (a := (d.put s sec.bitmapLocation b1).blk s sec.freeLocation)
      (s' := d.put s sec.bitmapLocation b1) (by rw [M.run_read, h'.sector vf])]
    rw [M.bind_of_ok (a := b2) (s' := d.put s sec.bitmapLocation b1) (by rw [M.run_lift, r2])]
    have hother : (d.put s sec.bitmapLocation b1).blk s sec.freeLocation
        = d.blk s sec.freeLocation := h.blk_put_other vb vf (fun e => hne e.symm) l1
    refine ⟨[(sec.bitmapLocation, b1), (sec.freeLocation, b2)], ?_,
      WsOK.cons vb l1 (WsOK.single vf l2), ?_, ?_⟩
    · unfold M.sectorMut
      rw [M.update_ok (s' := (d.put s sec.bitmapLocation b1).put s sec.freeLocation b2)]
      · rfl
      · apply h'.sectorMut_ok hw2 vf
        unfold copyFromSlice
        rw [if_pos (by rw [h'.blk_length vf, l2])]
    · intro i hi
      obtain ⟨e, he1, he2⟩ := v2 i hi
      obtain ⟨e', he1', he2'⟩ := v1 i hi
      have : e' = e := by rw [he1] at he1'; exact (Option.some.inj he1').symm
      subst this
      refine ⟨e', he1, ?_, ?_⟩
      · simp only [puts_cons, puts_nil]
        rw [h'.blk_put_other vf vb hne l2, h.blk_put_same vb l1, ← he2']
      · simp only [puts_cons, puts_nil]
        rw [h'.blk_put_same vf l2, he2]
    · intro w hw'
      simp only [List.mem_cons, List.not_mem_nil, or_false] at hw'
      rcases hw' with rfl | rfl
      · exact ⟨Or.inl rfl, hfb1⟩
      · refine ⟨Or.inr rfl, ?_⟩
        intro j hj
        simp only at hj ⊢
        rw [f2 j ?_, hother]
        intro i hi hji
        exact hj (Or.inr ⟨rfl, i, hi, hji⟩)

/-! ## All sections -/

/-- While the writes `ws` are performed on `d`, no byte outside `P` changes. -/
def FrameWs (s : Shape) (P : Location → Nat → Prop) (d : Device)
    (ws : List (Location × List Byte)) : Prop :=
  ∀ k l j, s.Valid l → ¬ P l j → ((d.puts s (ws.take k)).blk s l)[j]? = (d.blk s l)[j]?

theorem frameWs_of_writes {d : Device} {s : Shape} (h : Wf d s)
    {P : Location → Nat → Prop} {ws : List (Location × List Byte)} (hw : WsOK s ws)
    (hf : ∀ w ∈ ws, ∀ j, ¬ P w.1 j → w.2[j]? = (d.blk s w.1)[j]?) : FrameWs s P d ws := by
  intro k l j hl hP
  rw [h.blk_puts (hw.take k) hl]
  have : ∀ (vs : List (Location × List Byte)) (b : List Byte), (∀ w ∈ vs, w ∈ ws) →
      b[j]? = (d.blk s l)[j]? →
      (vs.foldl (fun b w => if w.1 = l then w.2 else b) b)[j]? = (d.blk s l)[j]? := by
    intro vs
    induction vs with
    | nil => intro b _ hb; exact hb
    | cons w t ih =>
      intro b hm hb
      rw [List.foldl_cons]
      apply ih _ (fun x hx => hm x (by simp [hx]))
      split
      · rename_i e
        have := hf w (hm w (by simp)) j (by rw [e]; exact hP)
        rw [this, e]
      · exact hb
  exact this _ _ (fun w hw => List.mem_of_mem_take hw) rfl

theorem FrameWs.all {d : Device} {s : Shape} {P : Location → Nat → Prop}
    {ws : List (Location × List Byte)} (h : FrameWs s P d ws) {l : Location} {j : Nat}
    (hl : s.Valid l) (hP : ¬ P l j) : ((d.puts s ws).blk s l)[j]? = (d.blk s l)[j]? := by
  have := h ws.length l j hl hP
  rwa [List.take_length] at this

theorem FrameWs.mono {d : Device} {s : Shape} {P Q : Location → Nat → Prop}
    {ws : List (Location × List Byte)} (h : FrameWs s P d ws) (hPQ : ∀ l j, P l j → Q l j) :
    FrameWs s Q d ws := fun k l j hl hQ => h k l j hl (fun hp => hQ (hPQ l j hp))

theorem FrameWs.append {d : Device} {s : Shape} {P : Location → Nat → Prop}
    {ws vs : List (Location × List Byte)} (h : FrameWs s P d ws)
    (h' : FrameWs s P (d.puts s ws) vs) : FrameWs s P d (ws ++ vs) := by
  intro k l j hl hP
  rw [List.take_append, puts_append]
  by_cases hk : k ≤ ws.length
  · rw [show k - ws.length = 0 by omega, List.take_zero, puts_nil]
    exact h k l j hl hP
  · rw [List.take_of_length_le (by omega), h' _ l j hl hP, h.all hl hP]

/-- The byte belongs to one of the sections. -/
def InSections (secs : List BamSection) (l : Location) (j : Nat) : Prop :=
  ∃ sec ∈ secs, InSection sec l j

/-- Every section on the image holds its part of the entries. -/
def HoldsAll (d : Device) (s : Shape) (entries : List BamEntry) : Nat → List BamSection → Prop
  | _, [] => True
  | prev, sec :: rest => Holds d s entries prev sec ∧ HoldsAll d s entries (prev + sec.tracks) rest

theorem inSection_bitmap {sec : BamSection} {i k : Nat} (hi : i < sec.tracks)
    (hk : k < sec.bitmapSize) :
    InSection sec sec.bitmapLocation (sec.bitmapOffset + i * sec.bitmapStride + k) :=
  Or.inl ⟨rfl, i, hi, by omega, by omega⟩

theorem inSection_free {sec : BamSection} {i : Nat} (hi : i < sec.tracks) :
    InSection sec sec.freeLocation (sec.freeOffset + i * sec.freeStride) :=
  Or.inr ⟨rfl, i, hi, rfl⟩

theorem Holds.frame {d d' : Device} {s : Shape} {entries : List BamEntry} {prev : Nat}
    {sec : BamSection} (h : Holds d s entries prev sec)
    (hf : ∀ l j, InSection sec l j → (d'.blk s l)[j]? = (d.blk s l)[j]?) :
    Holds d' s entries prev sec := by
  intro i hi
  obtain ⟨e, h1, h2, h3⟩ := h i hi
  refine ⟨e, h1, ?_, ?_⟩
  · rw [← h2]
    apply List.ext_getElem?
    intro j
    simp only [getElem?_slice]
    split
    · exact hf _ _ (inSection_bitmap hi ‹_›)
    · rfl
  · rw [hf _ _ (inSection_free hi), h3]

/-- Effect of writing all sections. -/
theorem writeSections_ok {s : Shape} {entries : List BamEntry} :
    ∀ (secs : List BamSection) (prev : Nat) {d : Device}, Wf d s → Writable d →
    (∀ sec ∈ secs, SectionOK s.type sec) →
    secs.Pairwise (fun a b => ∀ l j, InSection a l j → ¬ InSection b l j) →
    prev + (secs.map BamSection.tracks).sum ≤ entries.length →
    ∃ ws, writeSections entries prev secs d = (.ok (), d.puts s ws) ∧ WsOK s ws ∧
      HoldsAll (d.puts s ws) s entries prev secs ∧ FrameWs s (InSections secs) d ws ∧
      (∀ w ∈ ws, ∃ sec ∈ secs, w.1 = sec.bitmapLocation ∨ w.1 = sec.freeLocation)
  | [], prev, d, _, _, _, _, _ => by
    refine ⟨[], rfl, WsOK.nil, trivial, ?_, by simp⟩
    intro k l j _ _; simp
  | sec :: rest, prev, d, h, hw, hs, hp, hl => by
    rw [List.map_cons, List.sum_cons] at hl
    obtain ⟨ws, r1, o1, v1, f1⟩ := writeSection_ok h hw (hs sec (by simp))
      (entries := entries) (prev := prev) (by omega)
    rw [List.pairwise_cons] at hp
    have hv : ∀ sec' ∈ sec :: rest, s.Valid sec'.bitmapLocation ∧ s.Valid sec'.freeLocation :=
      fun x hx => ⟨h.bam_valid (hs x hx).validBitmap, h.bam_valid (hs x hx).validFree⟩
    obtain ⟨vs, r2, o2, v2, f2, w2⟩ := writeSections_ok (entries := entries) rest (prev + sec.tracks) (h.puts o1)
      hw.puts (fun x hx => hs x (by simp [hx])) hp.2 (by omega)
    refine ⟨ws ++ vs, ?_, o1.append o2, ⟨?_, ?_⟩, ?_, ?_⟩
    · unfold writeSections
      rw [M.bind_of_ok r1, r2, puts_append]
    · rw [puts_append]
      apply v1.frame
      intro l j hlj
      have hvl : s.Valid l := by
        rcases hlj with ⟨rfl, _⟩ | ⟨rfl, _⟩
        · exact (hv sec (by simp)).1
        · exact (hv sec (by simp)).2
      apply f2.all hvl
      rintro ⟨sec', hm, hin⟩
      exact hp.1 sec' hm l j hlj hin
    · rw [puts_append]; exact v2
    · have hf1 : FrameWs s (InSections (sec :: rest)) d ws :=
        (frameWs_of_writes h o1 fun w hw => (f1 w hw).2).mono
          fun l j hin => ⟨sec, by simp, hin⟩
      refine hf1.append (f2.mono ?_)
      rintro l j ⟨x, hx, hin⟩
      exact ⟨x, by simp [hx], hin⟩
    · intro w hw'
      rcases List.mem_append.1 hw' with hw' | hw'
      · exact ⟨sec, by simp, (f1 w hw').1⟩
      · obtain ⟨x, hx, hx'⟩ := w2 w hw'
        exact ⟨x, by simp [hx], hx'⟩

theorem sections_apart (ty : DiskType) :
    ty.format.bam.Pairwise (fun a b => ∀ l j, InSection a l j → ¬ InSection b l j) := by
  cases ty
  · exact List.pairwise_singleton _ _
  · simp only [DiskType.format, D71.DISK_FORMAT, D71.BAM_FORMAT, List.pairwise_cons,
      List.mem_singleton, forall_eq, List.not_mem_nil, false_implies, implies_true, and_true,
      List.Pairwise.nil]
    rintro l j h1 h2
    simp only [InSection] at h1 h2
    rcases h1 with ⟨rfl, i, h1⟩ | ⟨rfl, i, h1⟩ <;> rcases h2 with ⟨h0, k, h2⟩ | ⟨h0, k, h2⟩
    · revert h0; decide
    · omega
    · revert h0; decide
    · omega
  · simp only [DiskType.format, D81.DISK_FORMAT, D81.BAM_FORMAT, List.pairwise_cons,
      List.mem_singleton, forall_eq, List.not_mem_nil, false_implies, implies_true, and_true,
      List.Pairwise.nil]
    rintro l j h1 h2
    simp only [InSection] at h1 h2
    rcases h1 with ⟨rfl, i, h1⟩ | ⟨rfl, i, h1⟩ <;> rcases h2 with ⟨h0, k, h2⟩ | ⟨h0, k, h2⟩ <;>
      (revert h0; decide)

theorem inSections_area (ty : DiskType) (l : Location) (j : Nat)
    (h : InSections ty.format.bam l j) : bamArea ty l j := by
  obtain ⟨sec, hs, h⟩ := h
  cases ty
  · simp only [DiskType.format, D64.DISK_FORMAT, D64.BAM_FORMAT, List.mem_singleton] at hs
    subst hs
    simp only [InSection] at h
    rcases h with ⟨rfl, i, h⟩ | ⟨rfl, i, h⟩ <;> exact ⟨rfl, by omega, by omega⟩
  · simp only [DiskType.format, D71.DISK_FORMAT, D71.BAM_FORMAT, List.mem_cons,
      List.not_mem_nil, or_false] at hs
    rcases hs with rfl | rfl
    · simp only [InSection] at h
      rcases h with ⟨rfl, i, h⟩ | ⟨rfl, i, h⟩ <;>
        exact Or.inl ⟨rfl, Or.inl ⟨by omega, by omega⟩⟩
    · simp only [InSection] at h
      rcases h with ⟨rfl, i, h⟩ | ⟨rfl, i, h⟩
      · exact Or.inr ⟨rfl, by omega⟩
      · exact Or.inl ⟨rfl, Or.inr ⟨by omega, by omega⟩⟩
  · simp only [DiskType.format, D81.DISK_FORMAT, D81.BAM_FORMAT, List.mem_cons,
      List.not_mem_nil, or_false] at hs
    rcases hs with rfl | rfl
    · simp only [InSection] at h
      rcases h with ⟨rfl, i, h⟩ | ⟨rfl, i, h⟩ <;>
        exact ⟨Or.inl rfl, by omega, by omega⟩
    · simp only [InSection] at h
      rcases h with ⟨rfl, i, h⟩ | ⟨rfl, i, h⟩ <;>
        exact ⟨Or.inr rfl, by omega, by omega⟩

theorem bam_sum (ty : DiskType) : (ty.format.bam.map BamSection.tracks).sum = bamTracks ty := by
  cases ty <;> rfl

/-- The sectors the BAM is stored in. -/
def Spec.bamLoc (ty : DiskType) (l : Location) : Prop := ∃ j, bamArea ty l j

theorem bamLoc_of_section (ty : DiskType) {sec : BamSection} (hs : sec ∈ ty.format.bam)
    {l : Location} (h : l = sec.bitmapLocation ∨ l = sec.freeLocation) : bamLoc ty l := by
  cases ty
  · simp only [DiskType.format, D64.DISK_FORMAT, D64.BAM_FORMAT, List.mem_singleton] at hs
    subst hs
    exact ⟨4, by simpa [bamArea] using h⟩
  · simp only [DiskType.format, D71.DISK_FORMAT, D71.BAM_FORMAT, List.mem_cons,
      List.not_mem_nil, or_false] at hs
    rcases hs with rfl | rfl
    · exact ⟨4, by simp at h; simp [bamArea, h]⟩
    · exact ⟨4, by simp at h; rcases h with h | h <;> simp [bamArea, h]⟩
  · simp only [DiskType.format, D81.DISK_FORMAT, D81.BAM_FORMAT, List.mem_cons,
      List.not_mem_nil, or_false] at hs
    rcases hs with rfl | rfl
    · exact ⟨16, by simp at h; simp [bamArea, h]⟩
    · exact ⟨16, by simp at h; simp [bamArea, h]⟩

/-- Effect of flushing the BAM, as a list of sector writes. -/
theorem flush_writes {b : Bam} {d : Device} {s : Shape} (hb : BamOf b s.type) (h : Wf d s)
    (hw : Writable d) :
    ∃ ws, b.flush d = (.ok (), d.puts s ws) ∧ WsOK s ws ∧
      HoldsAll (d.puts s ws) s b.entries 0 s.type.format.bam ∧
      FrameWs s (InSections s.type.format.bam) d ws ∧ (∀ w ∈ ws, bamLoc s.type w.1) := by
  have hfmt : b.format.bam = s.type.format.bam := by rw [hb.format]
  obtain ⟨ws, r, o, v, f, w⟩ := writeSections_ok (entries := b.entries) s.type.format.bam 0 h hw
    (section_ok s.type) (sections_apart s.type) (by rw [bam_sum, hb.length]; omega)
  refine ⟨ws, ?_, o, v, f, ?_⟩
  · unfold Bam.flush
    rw [checkValidity_ok hb, M.bind_of_ok (m := M.lift (.ok ())) (a := ()) (s := d) (s' := d) rfl,
      hfmt, r]
  · intro x hx
    obtain ⟨sec, hs, hl⟩ := w x hx
    exact bamLoc_of_section s.type hs hl

/-! ## Reading -/

theorem mapRes_ok {α β : Type} {f : α → Res β} {g : α → β} {xs : List α}
    (h : ∀ x ∈ xs, f x = .ok (g x)) : mapRes f xs = .ok (xs.map g) := by
  induction xs with
  | nil => rfl
  | cons x t ih =>
    simp only [mapRes]
    rw [h x (by simp), res_bind_ok, ih fun y hy => h y (by simp [hy])]
    rfl

/-- The entry of the `i`-th track of a section as stored on the image. -/
def storedEntry (d : Device) (s : Shape) (sec : BamSection) (i : Nat) : BamEntry :=
  BamEntry.fromBytes (byteAt (d.blk s sec.freeLocation) (sec.freeOffset + i * sec.freeStride))
    (slice (d.blk s sec.bitmapLocation) (sec.bitmapOffset + i * sec.bitmapStride) sec.bitmapSize)

theorem readSection_ok {d : Device} {s : Shape} (h : Wf d s) {sec : BamSection}
    (hs : SectionOK s.type sec) :
    readSection d sec = .ok ((List.range sec.tracks).map (storedEntry d s sec)) := by
  have vb := h.bam_valid hs.validBitmap
  have vf := h.bam_valid hs.validFree
  unfold readSection
  rw [h.sector vf, res_bind_ok]
  have key : mapRes (readBamEntry sec (d.blk s sec.freeLocation) (d.blk s sec.bitmapLocation))
      (List.range sec.tracks) = .ok ((List.range sec.tracks).map (storedEntry d s sec)) := by
    apply mapRes_ok
    intro i hi
    rw [List.mem_range] at hi
    have hlf := h.blk_length vf
    have hlb := h.blk_length vb
    have b1 := index_bound (a := sec.freeOffset) (b := sec.freeStride) hi
    have b2 := index_bound (a := sec.bitmapOffset) (b := sec.bitmapStride) hi
    have := hs.freeEnd
    have := hs.bitmapEnd
    unfold readBamEntry
    rw [indexRes_ok (by omega), res_bind_ok]
    unfold subSlice
    rw [if_pos (by omega), res_bind_ok, res_pure]
    unfold storedEntry
    rw [byteAt_eq _ _ (by omega)]
  simp only []
  by_cases hne : sec.bitmapLocation = sec.freeLocation
  · rw [if_neg (by simp [hne]), res_bind_ok, ← key, hne]
  · rw [if_pos hne, h.sector vb, res_bind_ok, key]

/-- The entries on the image. -/
def storedEntries (d : Device) (s : Shape) : List BamEntry :=
  (s.type.format.bam.map fun sec => (List.range sec.tracks).map (storedEntry d s sec)).flatten

/-- Reading the BAM never fails on an image of the right size. -/
theorem Spec.Wf.readBam {d : Device} {s : Shape} (h : Wf d s) (f : DiskFormat)
    (hf : f.bam = s.type.format.bam) :
    Bam.read d f = .ok ⟨f, storedEntries d s, false⟩ := by
  unfold Bam.read
  rw [hf, mapRes_ok (g := fun sec => (List.range sec.tracks).map (storedEntry d s sec))
    (fun sec hs => readSection_ok h (section_ok s.type sec hs))]
  rfl

theorem length_storedEntries (d : Device) (s : Shape) :
    (storedEntries d s).length = bamTracks s.type := by
  unfold storedEntries
  rw [List.length_flatten, List.map_map]
  have : (List.length ∘ fun sec : BamSection => (List.range sec.tracks).map (storedEntry d s sec))
      = BamSection.tracks := by funext x; simp
  rw [this, bam_sum]

/-- The bitmaps fit the on-disk width. -/
def Spec.Fits (b : Bam) (ty : DiskType) : Prop :=
  ∀ t i, bitmapBits ty ≤ i → freeAt b t i = false

theorem bitmap_size (ty : DiskType) : ∀ sec ∈ ty.format.bam, 8 * sec.bitmapSize = bitmapBits ty := by
  cases ty <;> decide

theorem Spec.Consistent.fits {b : Bam} {ty : DiskType} (h : Consistent b ty) : Fits b ty := by
  intro t i hi
  apply h.noStray
  refine Nat.le_trans ?_ hi
  cases ty <;> simp only [sectorsPerTrack, bitmapBits, zone] <;> repeat' split
  all_goals omega

theorem freeAt_entry {b : Bam} {i : Nat} {e : BamEntry} (h : b.entries[i]? = some e) (k : Nat) :
    freeAt b (i + 1) k = e.sectorMap.getLsbD k := by
  unfold freeAt
  rw [Nat.add_sub_cancel, h]; simp

theorem holdsAll_read {d : Device} {s : Shape} {b : Bam} (hfit : Fits b s.type) :
    ∀ (secs : List BamSection) (prev : Nat), (∀ sec ∈ secs, sec ∈ s.type.format.bam) →
    HoldsAll d s b.entries prev secs →
    (secs.map fun sec => (List.range sec.tracks).map (storedEntry d s sec)).flatten
      = (b.entries.drop prev).take (secs.map BamSection.tracks).sum
  | [], _, _, _ => by simp
  | sec :: rest, prev, hm, ⟨h1, h2⟩ => by
    have ih := holdsAll_read hfit rest (prev + sec.tracks) (fun x hx => hm x (by simp [hx])) h2
    have hsec := section_ok s.type sec (hm sec (by simp))
    rw [List.map_cons, List.flatten_cons, List.map_cons, List.sum_cons, ih, List.take_add,
      List.drop_drop]
    congr 1
    apply List.ext_getElem?
    intro i
    rw [List.getElem?_take, List.getElem?_drop, List.getElem?_map]
    by_cases hi : i < sec.tracks
    · rw [if_pos hi, List.getElem?_range hi]
      obtain ⟨e, e1, e2, e3⟩ := h1 i hi
      rw [e1, Option.map_some]
      congr 1
      unfold storedEntry
      have : byteAt (d.blk s sec.freeLocation) (sec.freeOffset + i * sec.freeStride)
          = e.freeSectors := by
        simp only [byteAt, List.getD_eq_getElem?_getD, e3]; rfl
      rw [this, e2, fromBytes_writeBitmap _ _ _ hsec.size8]
      intro k hk
      rw [← freeAt_entry e1]
      apply hfit
      rw [← bitmap_size _ _ (hm sec (by simp))]; exact hk
    · rw [if_neg hi, List.getElem?_eq_none (by simp; omega)]; rfl

/-- Reading back what was flushed. -/
theorem read_of_holds {d : Device} {s : Shape} {b : Bam} (h : Wf d s) (hb : BamOf b s.type)
    (hfit : Fits b s.type) (hh : HoldsAll d s b.entries 0 s.type.format.bam) (f : DiskFormat)
    (hf : f.bam = s.type.format.bam) :
    Bam.read d f = .ok ⟨f, b.entries, false⟩ := by
  rw [h.readBam f hf]
  congr 2
  unfold storedEntries
  rw [holdsAll_read hfit _ 0 (fun _ h => h) hh, bam_sum, List.drop_zero, ← hb.length,
    List.take_length]

end Cbm
