import Verif.Lemmas.Steps
import Verif.Props.Policy
/-!
# Writing to a file
-/

namespace Cbm
open Spec

variable {d d' d'' : Device} {s : Shape} {v v' : Volume} {i j : Nat} {f f' : FileRec}
  {l next : Location} {b : Bam} {w w' : ChainWriter} {st st' : St} {content bs : List Byte}

/-! ## Chains -/

theorem payload_length (h : Wf d s) {ls : List Location} (hv : ∀ l ∈ ls, s.Valid l) :
    (payload d s ls).length = 254 * ls.length := by
  induction ls with
  | nil => rfl
  | cons a ls ih =>
    rw [payload_cons, List.length_append, ih fun l hl => hv l (by simp [hl]), List.length_drop,
      h.blk_length (hv a (by simp)), List.length_cons]
    omega

theorem Linked.frame_init {init : List Location} {t : Location} (h : Linked d s (init ++ [t]))
    (hf : ∀ l ∈ init, linkBytes (d'.blk s l) = linkBytes (d.blk s l)) :
    Linked d' s (init ++ [t]) := by
  induction init with
  | nil => trivial
  | cons a rest ih =>
    cases rest with
    | nil => exact ⟨by rw [hf a (by simp)]; exact h.1, trivial⟩
    | cons m rest =>
      exact ⟨by rw [hf a (by simp)]; exact h.1, ih h.2 fun l hl => hf l (by simp [hl])⟩

/-- Rewriting the last sector of a chain. -/
theorem Spec.IsChain.rewriteLast {init : List Location} {t : Location} {data : List Byte}
    (h : IsChain d s (init ++ [t]) data) (hf : ∀ l ∈ init, d'.blk s l = d.blk s l)
    (h0 : byteAt (d'.blk s t) 0 = 0) (h1 : byteAt (d'.blk s t) 1 ≠ 0) :
    IsChain d' s (init ++ [t])
      (payload d s init ++ slice (d'.blk s t) 2 ((byteAt (d'.blk s t) 1).toNat - 1)) := by
  refine ⟨h.valid, h.nodup, Linked.frame_init h.linked fun l hl => by rw [hf l hl],
    init, t, rfl, h0, h1, ?_⟩
  rw [payload_frame hf]

/-- Linking a full last sector to an empty new one. -/
theorem Spec.IsChain.extend {init : List Location} {t : Location} {data : List Byte}
    (hwf : Wf d s) (h : IsChain d s (init ++ [t]) data)
    (hfull : byteAt (d.blk s t) 1 = 255)
    (hf : ∀ l ∈ init, d'.blk s l = d.blk s l)
    (ht : d'.blk s t = splice (d.blk s t) 0 [next.track, next.sector])
    (hn0 : byteAt (d'.blk s next) 0 = 0) (hn1 : byteAt (d'.blk s next) 1 = 1)
    (hv : s.Valid next) (hnew : next ∉ init ++ [t]) :
    IsChain d' s (init ++ [t] ++ [next]) data := by
  have htv : s.Valid t := h.valid t (by simp)
  have hlen := hwf.blk_length htv
  obtain ⟨init', t', he, _, _, hc⟩ := h.last
  obtain ⟨rfl, rfl⟩ : init = init' ∧ t = t' := by
    have := List.append_inj' he rfl
    exact ⟨this.1, by simpa using this.2⟩
  refine ⟨?_, ?_, ?_, init ++ [t], next, rfl, hn0, by rw [hn1]; decide, ?_⟩
  · intro l hl
    rcases List.mem_append.1 hl with hl | hl
    · exact h.valid l hl
    · rw [List.mem_singleton.1 hl]; exact hv
  · rw [List.nodup_append]
    refine ⟨h.nodup, by simp, ?_⟩
    intro a ha b hb hab
    rw [List.mem_singleton.1 hb] at hab
    exact hnew (hab ▸ ha)
  · have : init ++ [t] ++ [next] = init ++ t :: [next] := by simp
    rw [this, linked_append_cons]
    refine ⟨Linked.frame_init h.linked fun l hl => by rw [hf l hl], ?_, trivial⟩
    rw [ht]
    unfold linkBytes
    rw [byteAt_splice _ _ _ _ (by omega), byteAt_splice _ _ _ _ (by omega)]
    rfl
  · rw [hn1, payload_append, payload_frame hf, hc, hfull]
    have e1 : slice (d'.blk s next) 2 ((1 : Byte).toNat - 1) = [] := by
      simp [slice]
    rw [e1, List.append_nil]
    congr 1
    unfold payload
    simp only [List.flatMap_cons, List.flatMap_nil, List.append_nil, ht]
    unfold slice splice
    simp only [List.length_cons, List.length_nil, List.take_zero, List.nil_append]
    have e2 : (255 : Byte).toNat - 1 = 254 := rfl
    rw [e2, List.take_of_length_le (by rw [List.length_drop]; omega)]
    simp

/-! ## Filling the block -/

theorem fillBlock_ok {block bytes : List Byte} {m : Nat} (hb : block.length = 256)
    (h1 : 1 ≤ m) (hfit : m + bytes.length ≤ 255) :
    ∃ block', ChainWriter.fillBlock block (m + 1) bytes = .ok block' ∧ block'.length = 256 ∧
      byteAt block' 0 = 0 ∧ (byteAt block' 1).toNat = m + bytes.length ∧
      slice block' 2 (m + bytes.length - 1) = slice block 2 (m - 1) ++ bytes := by
  have hl1 : (splice block (m + 1) bytes).length = 256 := by
    rw [length_splice _ _ _ (by omega), hb]
  refine ⟨splice (splice block (m + 1) bytes) 0 [0, UInt8.ofNat (m + bytes.length)], ?_, ?_, ?_, ?_, ?_⟩
  · unfold ChainWriter.fillBlock ChainLink.toBytes
    rw [if_pos (by omega), if_neg (by omega)]
    simp only []
    rw [if_pos (by omega)]
    congr 5
    omega
  · rw [length_splice _ _ _ (by simp only [List.length_cons, List.length_nil]; omega), hl1]
  · rw [byteAt_splice _ _ _ _ (by omega)]; rfl
  · rw [byteAt_splice _ _ _ _ (by omega)]
    simp only [List.length_cons, List.length_nil]
    rw [if_neg (by omega), if_pos (by omega)]
    show (UInt8.ofNat (m + bytes.length)).toNat = _
    rw [UInt8.toNat_ofNat']
    omega
  · rw [slice_splice_disjoint _ _ _ _ _ (by omega) (by right; simp)]
    apply List.ext_getElem?
    intro k
    rw [getElem?_slice, List.getElem?_append, length_slice _ _ _ (by omega)]
    rw [getElem?_splice _ _ _ _ (by omega), getElem?_slice]
    by_cases hk : k < m - 1
    · rw [if_pos (by omega), if_pos (by omega), if_pos hk, if_pos hk]
    · rw [if_neg hk]
      by_cases hk2 : k < m + bytes.length - 1
      · rw [if_pos hk2, if_neg (by omega), if_pos (by omega)]
        congr 1
        omega
      · rw [if_neg hk2, List.getElem?_eq_none (by omega)]

theorem freshBlock_ok {block : List Byte} (hb : block.length = 256) :
    ∃ fresh, ChainWriter.freshBlock block = .ok fresh ∧ fresh.length = 256 ∧
      byteAt fresh 0 = 0 ∧ byteAt fresh 1 = 1 := by
  have hl1 : (splice block 2 (List.replicate (BLOCK_SIZE - 2) (0 : Byte))).length = 256 := by
    rw [length_splice _ _ _ (by simp only [List.length_replicate, BLOCK_SIZE]; omega), hb]
  refine ⟨splice (splice block 2 (List.replicate (BLOCK_SIZE - 2) 0)) 0 [0, 1], ?_, ?_, ?_, ?_⟩
  · unfold ChainWriter.freshBlock CHAIN_LINK_ZERO ChainLink.toBytes
    rw [if_pos (by simp only [BLOCK_SIZE]; omega), if_neg (by omega)]
    rfl
  · rw [length_splice _ _ _ (by simp only [List.length_cons, List.length_nil]; omega), hl1]
  · rw [byteAt_splice _ _ _ _ (by omega)]; rfl
  · rw [byteAt_splice _ _ _ _ (by omega)]; rfl

/-! ## A writer on a volume -/

/-- The writer stands at the end of the file in slot `i` of the volume; `content`
is what the file will hold once the block in memory is written. -/
structure WRel (w : ChainWriter) (v : Volume) (i : Nat) (f : FileRec) (content : List Byte) :
    Prop where
  slot : v.slots[i]? = some (some f)
  pos : w.entry.position = some (slotPos v.dir i)
  last : f.locs.getLast? = some w.location
  len : w.block.length = 256
  tail0 : byteAt w.block 0 = 0
  tail1 : 1 ≤ (byteAt w.block 1).toNat
  size : content.length = 254 * (f.locs.length - 1) + ((byteAt w.block 1).toNat - 1)
  rest : content.drop (254 * (f.locs.length - 1)) =
    slice w.block 2 ((byteAt w.block 1).toNat - 1)
  visible : f.data <+: content
  clean : w.dirty = false → f.data = content

theorem WRel.locs_pos (h : WRel w v i f content) : 1 ≤ f.locs.length := by
  have := h.last
  cases hl : f.locs with
  | nil => rw [hl] at this; cases this
  | cons a r => simp

theorem WRel.split (h : WRel w v i f content) :
    ∃ init, f.locs = init ++ [w.location] ∧ init.length = f.locs.length - 1 := by
  have h1 := h.last
  rw [List.getLast?_eq_some_iff] at h1
  obtain ⟨init, hi⟩ := h1
  exact ⟨init, hi, by rw [hi]; simp⟩

/-- A writer is not affected by changes in other slots. -/
theorem WRel.other (h : WRel w v i f content) (hij : j ≠ i) {x : Option FileRec} :
    WRel w (v.set j x) i f content :=
  { h with slot := by rw [set_slot_ne (Ne.symm hij)]; exact h.slot, pos := h.pos }

/-- The same file with other content. -/
def withData (f : FileRec) (content : List Byte) : FileRec := { f with data := content }

theorem chain_last_unique {init init' : List Location} {t t' : Location}
    (h : init ++ [t] = init' ++ [t']) : init = init' ∧ t = t' := by
  have := List.append_inj' h rfl
  exact ⟨this.1, by simpa using this.2⟩

/-- What the sectors before the last one hold is the beginning of the content. -/
theorem WRel.payload (h : WRel w v i f content) (hd : OnDisk d s v) {init : List Location}
    (hi : f.locs = init ++ [w.location]) :
    content = Spec.payload d s init ++ slice w.block 2 ((byteAt w.block 1).toNat - 1) := by
  have hc := hd.chains f (mem_files.2 ⟨i, h.slot⟩)
  obtain ⟨init', t, he, _, _, hdata⟩ := hc.last
  obtain ⟨rfl, rfl⟩ := chain_last_unique (hi.symm.trans he)
  have hlen : (Spec.payload d s init).length = 254 * (f.locs.length - 1) := by
    rw [payload_length hd.wf fun l hl => hc.valid l (by rw [hi]; simp [hl]), hi]
    simp
  obtain ⟨x, hx⟩ := h.visible
  rw [← h.rest, ← hx, hdata, List.append_assoc, ← hlen]
  simp

theorem WRel.mem_used (h : WRel w v i f content) : w.location ∈ v.used := by
  obtain ⟨init, hi, _⟩ := h.split
  exact mem_used_of_slot h.slot (by rw [hi]; simp)

theorem not_mem_others (h : OnDisk d s v) (hi : v.slots[i]? = some (some f)) (hl : l ∈ f.locs) :
    l ∉ others v i := by
  have := (used_perm hi).nodup_iff.1 h.apart
  rw [List.nodup_append] at this
  intro ho
  exact this.2.2 l hl l ho rfl

/-- Writing the current block makes the content visible. -/
theorem Spec.OnDisk.writeCurrent (h : OnDisk d s v) (hr : WRel w v i f content) :
    s.Valid w.location ∧
    OnDisk (d.put s w.location w.block) s (v.set i (some (withData f content))) := by
  have hu := hr.mem_used
  have hv := h.used_valid hu
  obtain ⟨init, hi, _⟩ := hr.split
  have hc := h.chains f (mem_files.2 ⟨i, hr.slot⟩)
  have hnd := hc.nodup
  have hother : ∀ l, s.Valid l → l ≠ w.location →
      (d.put s w.location w.block).blk s l = d.blk s l :=
    fun l hl hne => h.wf.blk_put_other hv hl hne hr.len
  have hsame := h.wf.blk_put_same hv hr.len
  refine ⟨hv, h.changeFile hr.slot (h.wf.put hv hr.len)
    (header_put h.wf hv hr.len (h.dataLocs _ hr.mem_used).not_system) ?_ ?_ (fun p => rfl) rfl ?_ ?_ ?_⟩
  · intro l hl
    refine hother l (h.dir_valid hl) ?_
    rintro rfl
    exact h.used_not_dir hu hl
  · intro l hl
    have hlu : l ∈ v.used := by
      rw [(used_perm hr.slot).mem_iff]; exact List.mem_append_right _ hl
    refine hother l (h.used_valid hlu) ?_
    rintro rfl
    exact not_mem_others h hr.slot (by rw [hi]; simp) hl
  · show IsChain _ s f.locs content
    rw [hi] at hc hnd ⊢
    have := hc.rewriteLast (d' := d.put s w.location w.block) (fun l hl => ?_) ?_ ?_
    · rwa [hsame, ← hr.payload h hi] at this
    · refine hother l (hc.valid l (by simp [hl])) ?_
      rintro rfl
      rw [List.nodup_append] at hnd
      exact hnd.2.2 _ hl _ (by simp) rfl
    · rw [hsame]; exact hr.tail0
    · rw [hsame]
      intro e
      have := hr.tail1
      rw [e] at this
      cases this
  · intro l hl
    exact h.dataLocs l (mem_used_of_slot hr.slot hl)
  · intro l hl
    exact not_mem_others h hr.slot hl

/-- During and after an append the file still has its attributes, name and first
sector, and holds its old content followed by some of the new. -/
def Growing (s : Shape) (v : Volume) (i : Nat) (f : FileRec) (content : List Byte) (d : Device) :
    Prop :=
  ∃ f', OnDisk d s (v.set i (some f')) ∧ f'.attr = f.attr ∧ f'.name = f.name ∧
    f'.extra = f.extra ∧ f'.first = f.first ∧ f.data <+: f'.data ∧ f'.data <+: content

theorem Growing.mono {c : List Byte} (h : Growing s v i f content d) (hc : content <+: c) :
    Growing s v i f c d := by
  obtain ⟨f', a, b, c, e, g, k, l⟩ := h
  exact ⟨f', a, b, c, e, g, k, l.trans hc⟩

/-- `f'` is a later version of `f`. -/
structure Grown (f f' : FileRec) : Prop where
  attr : f'.attr = f.attr
  name : f'.name = f.name
  extra : f'.extra = f.extra
  first : f'.first = f.first
  data : f.data <+: f'.data
  locs : f.locs <+: f'.locs
  blocks : f'.blocks + f.locs.length = f.blocks + f'.locs.length

theorem Grown.refl : Grown f f := ⟨rfl, rfl, rfl, rfl, List.prefix_refl _, List.prefix_refl _, rfl⟩

theorem Grown.trans {f'' : FileRec} (h : Grown f f') (h' : Grown f' f'') : Grown f f'' :=
  ⟨h'.attr.trans h.attr, h'.name.trans h.name, h'.extra.trans h.extra, h'.first.trans h.first,
    h.data.trans h'.data, h.locs.trans h'.locs, by have := h.blocks; have := h'.blocks; omega⟩

theorem Growing.base (hg : Grown f f') (h : Growing s (v.set i (some f')) i f' content d) :
    Growing s v i f content d := by
  obtain ⟨f'', a, b, c, e, g, k, l⟩ := h
  rw [set_set] at a
  exact ⟨f'', a, b.trans hg.attr, c.trans hg.name, e.trans hg.extra, g.trans hg.first,
    hg.data.trans k, l⟩

theorem Growing.of (h : OnDisk d s (v.set i (some f'))) (hg : Grown f f')
    (hc : f'.data <+: content) : Growing s v i f content d :=
  ⟨f', h, hg.attr, hg.name, hg.extra, hg.first, hg.data, hc⟩

theorem Growing.start (h : OnDisk d s v) (hi : v.slots[i]? = some (some f))
    (hc : f.data <+: content) : Growing s v i f content d :=
  Growing.of (by rw [set_self hi]; exact h) Grown.refl hc

theorem WRel.grown (h : WRel w v i f content) : Grown f (withData f content) :=
  ⟨rfl, rfl, rfl, rfl, h.visible, List.prefix_refl _, rfl⟩

theorem writeCurrentBlock_ok (hm : Mounted st s v) (hr : WRel w v i f content) :
    ChainWriter.writeCurrentBlock ⟨w, st⟩ =
      (.ok (), ⟨w, { st with dev := st.dev.put s w.location w.block }⟩) := by
  unfold ChainWriter.writeCurrentBlock
  rw [M.bind_of_ok (m := M.get) (s := (⟨w, st⟩ : WSt)) (s' := ⟨w, st⟩) (a := ⟨w, st⟩) rfl]
  have hv := (hm.onDisk.writeCurrent hr).1
  refine onSt_run (x := ⟨w, st⟩) (updDev_ok ?_)
  refine hm.onDisk.wf.sectorMut_ok hm.writable hv ?_
  unfold copyFromSlice
  rw [if_pos]
  rw [hr.len, hm.onDisk.wf.blk_length hv]

/-! ## Taking another block -/

theorem incrementEntryBlocks_bam (b : Bam) (hm : Mounted st s v) (hi : v.slots[i]? = some (some f))
    (hp : w.entry.position = some (slotPos v.dir i)) (hb : f.blocks + 1 < 65536) :
    ∃ d' e, ChainWriter.incrementEntryBlocks ⟨w, ⟨st.dev, b⟩⟩ =
        (.ok (), ⟨{ w with entry := e }, ⟨d', b⟩⟩) ∧
      e.position = some (slotPos v.dir i) ∧
      OnDisk d' s (v.set i (some { f with blocks := f.blocks + 1 })) ∧
      (∀ P : Device → Prop, P st.dev → P d' → Steps s P st.dev d') ∧
      (∀ l, DataLoc s.type l → d'.blk s l = st.dev.blk s l) := by
  have h := hm.onDisk
  have hlt := slot_lt hi
  obtain ⟨hsc, hsb⟩ := h.slotBytes hi
  have hslot := slotAt_length h hlt
  have hread := readEntry_slot (e := w.entry) h hlt hp
  have hent : DirectoryEntry.parse32 (slotAt st.dev s v.dir i) (some (slotPos v.dir i)) =
      f.entry (slotPos v.dir i) := (h.slots i _ hi).2 _
  rw [hent] at hread
  let e : DirectoryEntry := { f.entry (slotPos v.dir i) with fileSize := f.blocks + 1 }
  obtain ⟨t1, t2, t3, t4, t5, t6⟩ := toBytes_linear (e := e) (x := f.extra) hslot
    (h.name_le hi) rfl (h.extra_len hi)
  have hab : e.attributes.toByte = f.attr := attr_toByte_fromByte _
  have hsb' := t6 { f with blocks := f.blocks + 1 } hab.symm rfl
    (by
      show f.name = fromPaddedBytes f.name PADDING_BYTE
      rw [fromPadded_of_last _ _ hsb.name_last]) rfl rfl hb (by rw [hab]; exact hsb.scheme)
  have hw := writeEntry_slot (e := e) h hm.writable hlt rfl t1
  have hc := h.chains f (mem_files.2 ⟨i, hi⟩)
  have hon := h.writeSlot hlt t2 t3 t4 (x := some { f with blocks := f.blocks + 1 })
    (slotIs_some.2 ⟨hsc, hsb'⟩)
    (fun g hg => by cases hg; exact hc)
    (fun l hl => h.dataLocs l (mem_used_of_slot hi hl))
    (fun l hl => not_mem_others h hi hl)
  refine ⟨_, e, ?_, rfl, hon, ?_, ?_⟩
  · unfold ChainWriter.incrementEntryBlocks
    rw [M.bind_of_ok (m := M.read fun x => x.st.dev.readEntry x.w.entry) (s := (⟨w, ⟨st.dev, b⟩⟩ : WSt))
      (s' := ⟨w, ⟨st.dev, b⟩⟩) (a := f.entry (slotPos v.dir i)) (by rw [M.run_read]; exact congrArg (·, _) hread)]
    rw [M.bind_of_ok (m := ChainWriter.modW _) (s := (⟨w, ⟨st.dev, b⟩⟩ : WSt))
      (s' := ⟨{ w with entry := f.entry (slotPos v.dir i) }, ⟨st.dev, b⟩⟩) (a := ()) rfl]
    rw [if_pos (by exact hb)]
    rw [M.bind_of_ok (m := ChainWriter.modW _)
      (s := (⟨{ w with entry := f.entry (slotPos v.dir i) }, ⟨st.dev, b⟩⟩ : WSt))
      (s' := ⟨{ w with entry := e }, ⟨st.dev, b⟩⟩) (a := ()) rfl]
    exact onSt_run (x := ⟨{ w with entry := e }, ⟨st.dev, b⟩⟩) (updDev_ok hw)
  · intro P h0 h1
    exact Steps.put (h.dir_valid (slot_dir_mem h hlt)) (putSlot_length h hlt t2) h0 h1
  · intro l hl
    rw [putSlot_blk h hlt t2 (hl.valid h.wf.shape), if_neg]
    intro e'
    have := (h.dirTrack _ (slot_dir_mem h hlt)).1
    rw [← e'] at this
    exact hl.not_directory this

/-- What taking another block does: either the disk is full, then only the
current block was written; or the file has one more sector. -/
theorem allocateNextBlock_spec (hm : Mounted st s v) (hr : WRel w v i f content)
    (hfull : (byteAt w.block 1).toNat = 255) (hdirty : w.dirty = true)
    (hb : f.blocks + 1 < 65536) :
    (v.room s.type = 0 ∧ ∃ st', ChainWriter.allocateNextBlock ⟨w, st⟩ = (fail .diskFull, ⟨w, st'⟩) ∧
      Mounted st' s (v.set i (some (withData f content))) ∧ st'.bam = st.bam ∧
      WRel w (v.set i (some (withData f content))) i (withData f content) content ∧
      Steps s (Growing s v i f content) st.dev st'.dev) ∨
    (0 < v.room s.type ∧ ∃ st' w' f', ChainWriter.allocateNextBlock ⟨w, st⟩ = (.ok 254, ⟨w', st'⟩) ∧
      Mounted st' s (v.set i (some f')) ∧ st'.bam.format = st.bam.format ∧
      WRel w' (v.set i (some f')) i f' content ∧ (byteAt w'.block 1).toNat = 1 ∧
      w'.dirty = true ∧ Grown f f' ∧ f'.data = content ∧ f'.locs.length = f.locs.length + 1 ∧
      Steps s (Growing s v i f content) st.dev st'.dev ∧
      ∃ next, f'.locs = f.locs ++ [next] ∧
        firstBlock s.type st.bam.format.geos (freeAt st.bam) = some next ∧
        freeAt st'.bam = without (freeAt st.bam) next) := by
  have h := hm.onDisk
  have hlt := slot_lt hr.slot
  obtain ⟨hv, h1⟩ := h.writeCurrent hr
  have hw1 : Writable (st.dev.put s w.location w.block) := hm.writable.put _
  have hrec1 : Recorded st.bam s.type (v.set i (some (withData f content))) :=
    hm.recorded.setSame hr.slot rfl
  have hG0 : Growing s v i f content st.dev := Growing.start h hr.slot hr.visible
  have hG1 : Growing s v i f content (st.dev.put s w.location w.block) :=
    Growing.of h1 hr.grown (List.prefix_refl _)
  have hs1 : Steps s (Growing s v i f content) st.dev (st.dev.put s w.location w.block) :=
    Steps.put hv hr.len hG0 hG1
  have hroom1 : (v.set i (some (withData f content))).room s.type = v.room s.type :=
    room_set_same hr.slot rfl
  unfold ChainWriter.allocateNextBlock
  rw [M.bind_of_ok (writeCurrentBlock_ok hm hr)]
  generalize hd1 : st.dev.put s w.location w.block = d1 at *
  rcases nextFreeBlock_volume hrec1 h1 with ⟨hpos, next, hnext, hdl, hnu⟩ | ⟨hz, hnext⟩
  · right
    rw [hroom1] at hpos
    refine ⟨hpos, ?_⟩
    rw [M.bind_of_ok (m := M.read fun x => x.st.bam.nextFreeBlock none)
      (s := (⟨w, { st with dev := d1 }⟩ : WSt)) (s' := ⟨w, { st with dev := d1 }⟩) (a := next)
      (by rw [M.run_read]; exact congrArg (·, _) hnext)]
    rw [M.bind_of_ok (m := M.get) (s := (⟨w, { st with dev := d1 }⟩ : WSt))
      (s' := ⟨w, { st with dev := d1 }⟩) (a := ⟨w, { st with dev := d1 }⟩) rfl]
    obtain ⟨fresh, hfr, fl, f0, f1⟩ := freshBlock_ok hr.len
    simp only []
    rw [M.bind_of_ok (m := M.lift (ChainWriter.freshBlock w.block))
      (s := (⟨w, { st with dev := d1 }⟩ : WSt)) (s' := ⟨w, { st with dev := d1 }⟩) (a := fresh)
      (by rw [M.run_lift, hfr])]
    rw [M.bind_of_ok (m := ChainWriter.modW _) (s := (⟨w, { st with dev := d1 }⟩ : WSt))
      (s' := ⟨{ w with block := fresh }, { st with dev := d1 }⟩) (a := ()) rfl]
    -- the fresh block
    have hnv : s.Valid next := hdl.valid h.wf.shape
    rw [M.bind_of_ok (onSt_run (x := ⟨{ w with block := fresh }, { st with dev := d1 }⟩)
      (updDev_ok (d' := d1.put s next fresh) (h1.wf.sectorMut_ok hw1 hnv (by
        unfold copyFromSlice
        rw [if_pos (by rw [fl, h1.wf.blk_length hnv])]))))]
    have hother2 : ∀ l, s.Valid l → l ≠ next → (d1.put s next fresh).blk s l = d1.blk s l :=
      fun l hl hne => h1.wf.blk_put_other hnv hl hne fl
    have h2 : OnDisk (d1.put s next fresh) s (v.set i (some (withData f content))) := by
      refine h1.frame (h1.wf.put hnv fl) (header_put h1.wf hnv fl hdl.not_system) ?_ ?_
      · intro l hl
        refine hother2 l (h1.dir_valid hl) ?_
        rintro rfl
        exact hdl.not_directory (h1.dirTrack _ hl).1
      · intro l hl
        refine hother2 l (h1.used_valid hl) ?_
        rintro rfl
        exact hnu hl
    have hw2 : Writable (d1.put s next fresh) := hw1.put _
    have hnext2 : (d1.put s next fresh).blk s next = fresh := h1.wf.blk_put_same hnv fl
    have hlast2 : (d1.put s next fresh).blk s w.location = w.block := by
      rw [hother2 _ hv (by
        rintro rfl
        exact hnu (mem_used_of_slot (set_slot hlt) (f := withData f content) (by
          obtain ⟨init, hi, _⟩ := hr.split
          show _ ∈ f.locs
          rw [hi]; simp)))]
      rw [← hd1]
      exact h.wf.blk_put_same hv hr.len
    have hG2 : Growing s v i f content (d1.put s next fresh) :=
      Growing.of h2 hr.grown (List.prefix_refl _)
    have hs2 : Steps s (Growing s v i f content) d1 (d1.put s next fresh) :=
      Steps.put hnv fl hG1 hG2
    generalize hd2 : d1.put s next fresh = d2 at *
    -- the allocation
    obtain ⟨init, hinit, hil⟩ := hr.split
    let f3 : FileRec := ⟨f.attr, f.name, f.extra, f.blocks + 1, f.locs ++ [next], content⟩
    have hset3 : (v.set i (some (withData f content))).set i (some f3) = v.set i (some f3) :=
      set_set _
    obtain ⟨b3, hb3, hrec3, hfmt3⟩ := hrec1.allocate (f := f3) (set_slot hlt) hdl.1 (l := next)
      (fun m => by
        show m ∈ f.locs ++ [next] ↔ m = next ∨ m ∈ f.locs
        rw [List.mem_append, List.mem_singleton]
        exact Or.comm)
    rw [hset3] at hrec3
    rw [M.bind_of_ok (onSt_run (x := ⟨{ w with block := fresh }, { st with dev := d2 }⟩)
      (updBam_ok (b' := b3) hb3))]
    -- the block count: the operation does not look at the BAM
    have hm2 : Mounted { st with dev := d2 } s (v.set i (some (withData f content))) :=
      ⟨h2, hrec1, hw2⟩
    obtain ⟨d3, e3, r3, p3, h3, s3, k3⟩ := incrementEntryBlocks_bam b3 hm2 (set_slot hlt)
      (w := { w with block := fresh }) hr.pos (by exact hb)
    rw [set_set] at h3
    rw [M.bind_of_ok r3]
    have hG3 : Growing s v i f content d3 :=
      ⟨_, h3, rfl, rfl, rfl, rfl, hr.visible, List.prefix_refl _⟩
    have hs3 := s3 _ hG2 hG3
    have hw3 : Writable d3 := hs3.writable hw2
    -- the link
    have hvl3 : d3.blk s w.location = w.block := by
      rw [k3 _ (h.dataLocs _ hr.mem_used)]; exact hlast2
    have hvn3 : d3.blk s next = fresh := by rw [k3 _ hdl]; exact hnext2
    have hnewl : (splice w.block 0 [next.track, next.sector]).length = 256 := by
      rw [length_splice _ _ _ (by rw [hr.len]; simp), hr.len]
    have hlink : d3.sectorMut w.location (ChainWriter.writeLocation next) =
        .ok (d3.put s w.location (splice w.block 0 [next.track, next.sector])) := by
      refine h3.wf.sectorMut_ok hw3 hv ?_
      unfold ChainWriter.writeLocation
      rw [hvl3, if_pos (by rw [hr.len]; omega)]
    have hlt3 : ChainWriter.linkTo next ⟨{ w with block := fresh, entry := e3 }, ⟨d3, b3⟩⟩ =
        (.ok (), ⟨{ w with block := fresh, entry := e3 },
          ⟨d3.put s w.location (splice w.block 0 [next.track, next.sector]), b3⟩⟩) := by
      unfold ChainWriter.linkTo
      rw [onSt_run (x := ⟨{ w with block := fresh, entry := e3 }, ⟨d3, b3⟩⟩) (updDev_ok hlink)]
    rw [M.bind_of_ok hlt3]
    rw [M.bind_of_ok (m := ChainWriter.modW _)
      (s' := ⟨{ w with block := fresh, entry := e3, location := next },
        ⟨d3.put s w.location (splice w.block 0 [next.track, next.sector]), b3⟩⟩) (a := ()) rfl]
    have hother4 : ∀ l, s.Valid l → l ≠ w.location →
        (d3.put s w.location (splice w.block 0 [next.track, next.sector])).blk s l = d3.blk s l :=
      fun l hl hne => h3.wf.blk_put_other hv hl hne hnewl
    have hsame4 := h3.wf.blk_put_same hv hnewl
    have hslot3 : (v.set i (some { withData f content with blocks := f.blocks + 1 })).slots[i]? =
      some (some { withData f content with blocks := f.blocks + 1 }) := set_slot hlt
    have hnf : next ∉ f.locs := fun hn => hnu (mem_used_of_slot (set_slot hlt)
      (f := withData f content) hn)
    have hno : next ∉ others v i := fun hn => hnu (by
      rw [(used_set_perm hlt _).mem_iff]; exact List.mem_append_right _ hn)
    have hne : next ≠ w.location := by
      rintro rfl; exact hnf (by rw [hinit]; simp)
    have hc3 := h3.chains _ (mem_files.2 ⟨i, hslot3⟩)
    have hfirst : f3.first = f.first := by
      show (f.locs ++ [next]).headD _ = f.locs.headD _
      rw [hinit]
      cases init <;> rfl
    have h4 : OnDisk (d3.put s w.location (splice w.block 0 [next.track, next.sector])) s
        ((v.set i (some { withData f content with blocks := f.blocks + 1 })).set i (some f3)) := by
      refine h3.changeFile hslot3 (h3.wf.put hv hnewl)
        (header_put h3.wf hv hnewl (h.dataLocs _ hr.mem_used).not_system) ?_ ?_ ?_ rfl ?_ ?_ ?_
      · intro l hl
        refine hother4 l (h3.dir_valid hl) ?_
        rintro rfl
        exact h.used_not_dir hr.mem_used hl
      · intro l hl
        rw [others_set] at hl
        have hlu : l ∈ v.used := by
          rw [(used_perm hr.slot).mem_iff]; exact List.mem_append_right _ hl
        refine hother4 l (h.used_valid hlu) ?_
        rintro rfl
        exact not_mem_others h hr.slot (by rw [hinit]; simp) hl
      · intro p
        show FileRec.entry f3 p = _
        unfold FileRec.entry
        rw [hfirst]
        rfl
      · show IsChain _ s (f.locs ++ [next]) content
        have hc3' : IsChain d3 s (init ++ [w.location]) content := by rw [← hinit]; exact hc3
        rw [hinit]
        refine hc3'.extend h3.wf ?_ ?_ ?_ ?_ ?_ hnv (by rw [← hinit]; exact hnf)
        · rw [hvl3, byte_eq_iff]; exact hfull
        · intro l hl
          refine hother4 l (hc3'.valid l (by simp [hl])) ?_
          rintro rfl
          have := hc3'.nodup
          rw [List.nodup_append] at this
          exact this.2.2 _ hl _ (by simp) rfl
        · rw [hsame4, hvl3]
        · rw [hother4 _ hnv hne, hvn3]; exact f0
        · rw [hother4 _ hnv hne, hvn3]; exact f1
      · intro l hl
        rcases List.mem_append.1 hl with hl | hl
        · exact h.dataLocs l (mem_used_of_slot hr.slot hl)
        · rw [List.mem_singleton.1 hl]; exact hdl
      · intro l hl
        rw [others_set]
        rcases List.mem_append.1 hl with hl | hl
        · exact not_mem_others h hr.slot hl
        · rw [List.mem_singleton.1 hl]; exact hno
    rw [set_set] at h4
    have hgrown : Grown f f3 := by
      refine ⟨rfl, rfl, rfl, hfirst, hr.visible, List.prefix_append _ _, ?_⟩
      show f.blocks + 1 + f.locs.length = f.blocks + (f.locs ++ [next]).length
      rw [List.length_append]
      simp only [List.length_cons, List.length_nil]
      omega
    have hG4 := Growing.of (content := content) h4 hgrown (List.prefix_refl _)
    have hs4 := Steps.put (P := Growing s v i f content) hv hnewl hG3 hG4
    have hlen3 : f3.locs.length = f.locs.length + 1 := by
      show (f.locs ++ [next]).length = _
      simp
    have hpol : firstBlock s.type st.bam.format.geos (freeAt st.bam) = some next := by
      have := C76_first hrec1.consistent
      rw [hnext] at this
      cases hfb : firstBlock s.type st.bam.format.geos (freeAt st.bam) with
      | none => rw [hfb] at this; cases this
      | some l => rw [hfb] at this; cases this; rfl
    have hwo : freeAt b3 = without (freeAt st.bam) next := by
      obtain ⟨b'', hb'', hflip⟩ := allocate_ok hrec1.consistent.toBamOf (l := next) hdl.1.inBam
      rw [hb3] at hb''
      cases hb''
      funext t u
      exact hflip.free t u
    refine ⟨_, _, f3, rfl, ⟨h4, hrec3, hw3.put _⟩, hfmt3, ?_, ?_, hdirty, hgrown, rfl, hlen3,
      ((hs1.trans hs2).trans hs3).trans hs4, next, rfl, hpol, hwo⟩
    · have hpos := hr.locs_pos
      have hsz := hr.size
      have h1n : (byteAt fresh 1).toNat = 1 := by rw [f1]; rfl
      rw [hfull] at hsz
      refine ⟨set_slot hlt, p3, ?_, fl, f0, ?_, ?_, ?_, List.prefix_refl _, fun _ => rfl⟩
      · show (f.locs ++ [next]).getLast? = some next
        simp
      · show 1 ≤ (byteAt fresh 1).toNat
        omega
      · show content.length = 254 * (f3.locs.length - 1) + ((byteAt fresh 1).toNat - 1)
        rw [hlen3]
        omega
      · show content.drop (254 * (f3.locs.length - 1)) = slice fresh 2 ((byteAt fresh 1).toNat - 1)
        rw [h1n, hlen3, List.drop_eq_nil_of_le (by omega)]
        simp [slice]
    · show (byteAt fresh 1).toNat = 1
      rw [f1]; rfl
  · left
    rw [hroom1] at hz
    refine ⟨hz, { st with dev := d1 }, ?_, ⟨h1, hrec1, hw1⟩, rfl, ?_, hs1⟩
    · exact M.bind_of_error (m := M.read fun x => x.st.bam.nextFreeBlock none)
        (s := (⟨w, { st with dev := d1 }⟩ : WSt)) (by rw [M.run_read]; exact congrArg (·, _) hnext)
    · exact { hr with slot := set_slot hlt, visible := List.prefix_refl _, clean := fun _ => rfl }

end Cbm
