import Verif.Lemmas.DirExtend
import Verif.Model.Session
/-!
# Creating, renaming and deleting files on a volume
-/

namespace Cbm
open Spec

variable {d d' d'' : Device} {s : Shape} {v v' : Volume} {i j : Nat} {f f' : FileRec}
  {l next new last p first : Location} {b b' : Bam} {ty : DiskType} {st : St}
  {e slot : DirectoryEntry} {name : Petscii} {type : FileType}

/-- A file just created. -/
def Spec.newFile (name : Petscii) (type : FileType) (first : Location) : FileRec :=
  { attr := type.toByte ||| 0x80
    name := fromPaddedBytes name PADDING_BYTE
    extra := List.replicate 9 0
    blocks := 1
    locs := [first]
    data := [] }

theorem newEntry_attr (slot : DirectoryEntry) (name : Petscii) (type : FileType) (first : Location) :
    (newFileEntry slot name type first).attributes.toByte = type.toByte ||| 0x80 := rfl

theorem closed_not_scratched (x : Byte) :
    (FileAttributes.fromByte (x ||| 0x80)).isScratched = false := by
  revert x
  apply forall_byte
  decide +kernel

theorem schemeOf_new (x : Byte) (h : x &&& 0x0F ≠ 4) :
    schemeOf (x ||| 0x80) (List.replicate 9 0) = .linear := by
  revert h
  revert x
  apply forall_byte
  decide +kernel

theorem Spec.DataLoc.mem_bam (h : DataLoc ty l) : ValidLoc ty (bamTracks ty) l := h.1

/-- Writing a slot with some entry: `v.set i x`, where `x` is what the new bytes
say. -/
theorem writeEntry_volume (h : OnDisk d s v) (hw : Writable d) (hi : i < v.slots.length)
    (hp : e.position = some (slotPos v.dir i)) {x : List Byte} {y : Option FileRec}
    (hn : e.filename.length ≤ 16) (hx : e.extra = .linear x) (hxl : x.length = 9)
    (hs : SlotIs (rendered e x (slotAt d s v.dir i)) y)
    (hc : ∀ f, y = some f → IsChain d s f.locs f.data)
    (hdl : ∀ l ∈ slotLocs y, DataLoc s.type l) (hno : ∀ l ∈ slotLocs y, l ∉ others v i) :
    ∃ d', d.writeEntry e = .ok d' ∧ OnDisk d' s (v.set i y) ∧ Writable d' ∧
      (∀ P : Device → Prop, P d → P d' → Steps s P d d') ∧
      (∀ l, DataLoc s.type l → d'.blk s l = d.blk s l) ∧
      d' = putSlot d s v i (rendered e x (slotAt d s v.dir i)) := by
  have hslot := slotAt_length h hi
  obtain ⟨t1, t2, t3, t4, _, _⟩ := toBytes_linear (e := e) (x := x) hslot hn hx hxl
  refine ⟨_, writeEntry_slot h hw hi hp t1, h.writeSlot hi t2 t3 t4 hs hc hdl hno, hw, ?_, ?_, rfl⟩
  · intro P h0 h1
    exact Steps.put (h.dir_valid (slot_dir_mem h hi)) (putSlot_length h hi t2) h0 h1
  · intro l hl
    rw [putSlot_blk h hi t2 (hl.valid h.wf.shape), if_neg]
    intro e'
    have := (h.dirTrack _ (slot_dir_mem h hi)).1
    rw [← e'] at this
    exact hl.not_directory this

/-- `create_file` after the slot is chosen. -/
theorem createIn_spec (hm : Mounted st s v) (hi : v.slots[i]? = some none)
    (hp : slot.position = some (slotPos v.dir i)) (hn : name.length ≤ 16)
    (ht : type.toByte &&& 0x0F ≠ 4) :
    (0 < v.room s.type ∧ ∃ st' first,
      createIn slot name type st = (.ok (newFileEntry slot name type first), st') ∧
      DataLoc s.type first ∧ first ∉ v.used ∧
      Mounted st' s (v.set i (some (newFile name type first))) ∧
      st'.bam.format = st.bam.format ∧
      Steps s (fun d => OnDisk d s v ∨ OnDisk d s (v.set i (some (newFile name type first))))
        st.dev st'.dev ∧ SysSame s st.dev st'.dev) ∨
    (v.room s.type = 0 ∧ createIn slot name type st = (fail .diskFull, st)) := by
  have h := hm.onDisk
  have hlt := slot_lt hi
  rcases nextFreeBlock_volume hm.recorded h with ⟨hroom, first, hnf, hdl, hnu⟩ | ⟨hroom, hnf⟩
  · left
    have hv := hdl.valid h.wf.shape
    obtain ⟨b', hb', hr', hbf⟩ := hm.recorded.allocate (f := newFile name type first) hi hdl.1
      (fun m => by simp [slotLocs, newFile])
    have hlen := h.wf.blk_length hv
    have hl1 : (splice (st.dev.blk s first) 0 [(0 : Byte), 1]).length = 256 := by
      rw [length_splice _ _ _ (by simp; omega), hlen]
    have hz : CHAIN_LINK_ZERO.toBytes (st.dev.blk s first) =
        .ok (splice (st.dev.blk s first) 0 [0, 1]) := by
      unfold ChainLink.toBytes CHAIN_LINK_ZERO
      rw [if_neg (by omega)]
      rfl
    generalize hd1 : st.dev.put s first (splice (st.dev.blk s first) 0 [0, 1]) = d1
    have w1 : Wf d1 s := hd1 ▸ h.wf.put hv hl1
    have hb1 : d1.blk s first = splice (st.dev.blk s first) 0 [0, 1] :=
      hd1 ▸ h.wf.blk_put_same hv hl1
    have h1 : OnDisk d1 s v := by
      refine h.frame w1 (hd1 ▸ header_put h.wf hv hl1 hdl.not_system) ?_ ?_
      · intro l hl
        rw [← hd1]
        refine h.wf.blk_put_other hv (h.dir_valid hl) ?_ hl1
        rintro rfl
        exact hdl.not_directory (h.dirTrack _ hl).1
      · intro l hl
        rw [← hd1]
        exact h.wf.blk_put_other hv (h.used_valid hl) (fun e => hnu (e ▸ hl)) hl1
    have hwr1 : Writable d1 := hd1 ▸ hm.writable.put _
    have hent : SlotIs (rendered (newFileEntry slot name type first) (List.replicate 9 0)
        (slotAt d1 s v.dir i)) (some (newFile name type first)) := by
      obtain ⟨_, _, _, _, _, t6⟩ := toBytes_linear (e := newFileEntry slot name type first)
        (x := List.replicate 9 0) (slotAt_length h1 hlt) hn rfl (by simp)
      refine slotIs_some.2 ⟨closed_not_scratched _, t6 _ rfl rfl rfl rfl rfl ?_ ?_⟩
      · show 1 < 65536; omega
      · exact schemeOf_new _ ht
    obtain ⟨d2, e1, e2, e3, e4, _, e6⟩ := writeEntry_volume
      (e := newFileEntry slot name type first) h1 hwr1 hlt hp hn rfl (by simp)
      hent (fun g hg => by
        cases hg
        refine ⟨?_, by simp [newFile], trivial, [], first, rfl, ?_, ?_, ?_⟩
        · intro l hl; rw [List.mem_singleton.1 hl]; exact hv
        · rw [hb1, byteAt_splice _ _ _ _ (by omega)]; rfl
        · rw [hb1, byteAt_splice _ _ _ _ (by omega)]
          show (1 : Byte) ≠ 0
          decide
        · rw [hb1, byteAt_splice _ _ _ _ (by omega)]
          simp [newFile, payload, slice, byteAt])
      (fun l hl => by rw [List.mem_singleton.1 hl]; exact hdl)
      (fun l hl ho => by
        rw [List.mem_singleton.1 hl] at ho
        exact hnu (by rw [(used_perm hi).mem_iff]; exact List.mem_append_right _ ho))
    refine ⟨hroom, ⟨d2, b'⟩, first, ?_, hdl, hnu, ⟨e2, hr', e3⟩, hbf, ?_, ?_⟩
    · unfold createIn
      rw [M.bind_of_ok (s := st) (s' := st) (a := first) (by rw [readBam_run, hnf])]
      rw [M.bind_of_ok (a := ()) (updBam_ok hb')]
      rw [M.bind_of_ok (a := ()) (updDev_ok (st := { st with bam := b' })
        (h.wf.sectorMut_ok hm.writable hv hz))]
      rw [M.bind_of_ok (s' := ⟨d2, b'⟩) (a := ())
        (by
          unfold writeNewEntry
          rw [hd1, updDev_ok (st := ⟨d1, b'⟩) e1])]
      rfl
    · have hs1 : Steps s (fun d => OnDisk d s v ∨
          OnDisk d s (v.set i (some (newFile name type first)))) st.dev d1 := by
        rw [← hd1]
        exact Steps.put hv hl1 (.inl h) (.inl (hd1 ▸ h1))
      exact hs1.trans (e4 _ (.inl h1) (.inr e2))
    · obtain ⟨_, t2, _⟩ := toBytes_linear (e := newFileEntry slot name type first)
        (x := List.replicate 9 0) (slotAt_length h1 hlt) hn rfl (by simp)
      have hmem := slot_dir_mem h1 hlt
      refine SysSame.trans (d' := d1) (hd1 ▸ SysSame.put h.wf hv hl1 hdl.not_system) ?_
      show SysSame s d1 d2
      rw [e6]
      exact SysSame.put w1 (h1.dir_valid hmem) (putSlot_length h1 hlt t2) (h1.dirTrack _ hmem).2
  · right
    refine ⟨hroom, ?_⟩
    unfold createIn
    rw [M.bind_of_error (s := st) (s' := st) (e := .err .diskFull) (by rw [readBam_run, hnf])]

/-- Renaming the entry of a file. -/
theorem rename_slot (h : OnDisk d s v) (hw : Writable d) (hi : v.slots[i]? = some (some f))
    (hn : name.length ≤ 16) (hb : f.blocks < 65536) :
    ∃ d', d.writeEntry { f.entry (slotPos v.dir i) with filename := name } = .ok d' ∧
      OnDisk d' s (v.set i (some { f with name := fromPaddedBytes name PADDING_BYTE })) ∧
      Writable d' ∧
      (∀ P : Device → Prop, P d → P d' → Steps s P d d') ∧
      (∀ l, DataLoc s.type l → d'.blk s l = d.blk s l) ∧
      d' = putSlot d s v i (rendered { f.entry (slotPos v.dir i) with filename := name } f.extra
        (slotAt d s v.dir i)) := by
  have hlt := slot_lt hi
  obtain ⟨hsc, hsb⟩ := h.slotBytes hi
  have hab : ({ f.entry (slotPos v.dir i) with filename := name } : DirectoryEntry).attributes.toByte
    = f.attr := attr_toByte_fromByte _
  refine writeEntry_volume h hw hlt rfl hn rfl (h.extra_len hi) ?_ ?_ ?_ ?_
  · obtain ⟨_, _, _, _, _, t6⟩ := toBytes_linear
      (e := { f.entry (slotPos v.dir i) with filename := name }) (x := f.extra)
      (slotAt_length h hlt) hn rfl (h.extra_len hi)
    exact slotIs_some.2 ⟨hsc, t6 _ hab.symm rfl rfl rfl rfl hb (by rw [hab]; exact hsb.scheme)⟩
  · intro g hg
    cases hg
    exact h.chains f (mem_files.2 ⟨i, hi⟩)
  · exact fun l hl => h.dataLocs l (mem_used_of_slot hi hl)
  · exact fun l hl => not_mem_others h hi hl

/-- A handle of the linear file in slot `i`; its name and block count can be out of
date. -/
structure Handle (file : File) (v : Volume) (i : Nat) (f : FileRec) : Prop where
  slot : v.slots[i]? = some (some f)
  entry : ∃ e x, file = .linear e ∧ e.position = some (slotPos v.dir i) ∧
    e.firstSector = f.first ∧ e.filename.length ≤ 16 ∧ e.extra = .linear x ∧ x.length = 9

theorem scratch_scratched (a : FileAttributes) :
    (FileAttributes.fromByte
      ({ a with fileType := .DEL, closed := false } : FileAttributes).toByte).isScratched = true := by
  have h : ∀ u r l : Bool,
      (FileAttributes.fromByte (⟨.DEL, u, r, l, false⟩ : FileAttributes).toByte).isScratched = true := by
    decide
  exact h _ _ _

/-- Free a list of sectors one by one. -/
theorem freeAll_ok (d : Device) : ∀ (ls : List Location) {b : Bam}, BamOf b ty →
    (∀ l ∈ ls, ValidLoc ty (bamTracks ty) l) →
    ∃ b', M.forEach ls (fun l => St.updBam fun b => b.free l) ⟨d, b⟩ = (.ok (), ⟨d, b'⟩) ∧
      b'.format = b.format ∧ BamOf b' ty ∧ (Consistent b ty → Consistent b' ty) ∧
      ∀ m, isFree b' m = (decide (m ∈ ls) || isFree b m)
  | [], b, hb, _ => ⟨b, rfl, rfl, hb, id, fun m => by simp⟩
  | l :: ls, b, hb, hv => by
    obtain ⟨b1, hb1, hf⟩ := free_ok hb (hv l (by simp)).inBam
    obtain ⟨b', hr, h1, h2, h3, h4⟩ := freeAll_ok d ls hf.of fun m hm => hv m (by simp [hm])
    refine ⟨b', ?_, h1.trans hf.format, h2,
      fun hc => h3 (hf.consistent hc (hv l (by simp))), fun m => ?_⟩
    · rw [M.run_forEach_cons, updBam_ok (st := ⟨d, b⟩) hb1]
      exact hr
    · rw [h4 m, isFree_flip hf]
      by_cases hml : m = l
      · simp [hml]
      · simp [hml]

theorem Spec.Recorded.remove (hr : Recorded b s.type v) (h : OnDisk d s v)
    (hi : v.slots[i]? = some (some f)) (hc : Consistent b' s.type)
    (hfree : ∀ m, isFree b' m = (decide (m ∈ f.locs) || isFree b m)) :
    Recorded b' s.type (v.set i none) := by
  refine ⟨hc, fun m hm => ?_⟩
  rw [hfree m]
  have ho := hr.exact m hm
  unfold Volume.Occupies at ho ⊢
  rw [(used_perm hi).mem_iff, List.mem_append] at ho
  rw [(used_set_perm (slot_lt hi) _).mem_iff, List.mem_append]
  simp only [slotLocs, Option.map_some, Option.getD_some, Option.map_none, Option.getD_none,
    List.not_mem_nil, false_or] at ho ⊢
  have hdir : (v.set i none).dir = v.dir := rfl
  rw [hdir]
  by_cases hml : m ∈ f.locs
  · simp only [hml, decide_true, Bool.true_or]
    constructor
    · intro e; cases e
    · have hd := h.dataLocs m (mem_used_of_slot hi hml)
      rintro (e | e | e)
      · rw [hd.not_system] at e; cases e
      · exact absurd (h.dirTrack m e).1 hd.not_directory
      · exact absurd e (not_mem_others h hi hml)
  · simp only [hml, decide_false, Bool.false_or]
    rw [ho]
    simp [hml]

theorem room_remove (h : OnDisk d s v) (hi : v.slots[i]? = some (some f)) :
    (v.set i none).room s.type = v.room s.type + f.locs.length := by
  have := h.used_le
  unfold Volume.room
  rw [(used_perm hi).length_eq] at this ⊢
  rw [(used_set_perm (slot_lt hi) _).length_eq]
  simp only [List.length_append, slotLocs, Option.map_some, Option.getD_some, Option.map_none,
    Option.getD_none, List.length_nil] at *
  omega

theorem room_create (hi : v.slots[i]? = some none) (hl : f.locs.length = 1) :
    (v.set i (some f)).room ty = v.room ty - 1 := by
  unfold Volume.room
  rw [(used_set_perm (slot_lt hi) _).length_eq, (used_perm hi).length_eq]
  simp only [List.length_append, slotLocs, Option.map_some, Option.getD_some, hl, Option.map_none,
    Option.getD_none, List.length_nil]
  omega

theorem chainLocations_chain (hw : Wf d s) {locs : List Location} {start : Location}
    {content : List Byte} (h : IsChain d s locs content) (hs : locs.head? = some start) :
    chainLocations d start = .ok locs := by
  obtain ⟨init, t, hl, _⟩ := h.last
  have hi := chainItems_chain hw h hs hl
  have hi' : chainItems d start = (init.map (fun l => (⟨d.blk s l, l⟩ : ChainSector)) ++
      [(⟨(d.blk s t).take ((byteAt (d.blk s t) 1).toNat + 1), t⟩ : ChainSector)]).map .ok := by
    rw [hi, List.map_append, List.map_map]; rfl
  unfold chainLocations chainSectors
  rw [hi', collectRes_ok]
  simp [hl, Function.comp_def]

/-- Writing a sector that is not a system sector keeps the BAM on the image. -/
theorem Spec.Synced.frame (hs : Synced d s b) (h : Wf d s) (h' : Wf d' s)
    (hb : ∀ l, s.Valid l → systemSector s.type l = true → d'.blk s l = d.blk s l) :
    Synced d' s b := by
  unfold Synced at hs ⊢
  rw [h.readBam _ rfl] at hs
  rw [h'.readBam _ rfl]
  have : storedEntries d' s = storedEntries d s := by
    unfold storedEntries
    congr 1
    apply List.map_congr_left
    intro sec hsec
    apply List.map_congr_left
    intro i _
    have hok := section_ok s.type sec hsec
    have e1 := hb _ (h.bam_valid hok.validBitmap)
      (bamLoc_system (bamLoc_of_section s.type hsec (.inl rfl)))
    have e2 := hb _ (h.bam_valid hok.validFree)
      (bamLoc_system (bamLoc_of_section s.type hsec (.inr rfl)))
    unfold storedEntry
    rw [e1, e2]
  rw [this]; exact hs

/-- `delete` on a file handle: the whole chain is freed, the slot is scratched and
the image holds the new BAM. -/
theorem delete_spec {file : File} (hm : Mounted st s v) (hh : Handle file v i f) :
    ∃ x, File.delete ⟨file, st⟩ = (.ok (), x) ∧ Mounted x.st s (v.set i none) ∧
      x.st.bam.format = st.bam.format ∧ Synced x.st.dev s x.st.bam ∧
      Steps s (fun d => OnDisk d s v ∨ OnDisk d s (v.set i none)) st.dev x.st.dev ∧
      ∀ m, isFree x.st.bam m = (decide (m ∈ f.locs) || isFree st.bam m) := by
  obtain ⟨hi, e, x, rfl, hp, hfs, hn, hx, hxl⟩ := hh
  have h := hm.onDisk
  have hlt := slot_lt hi
  have hc := h.chains f (mem_files.2 ⟨i, hi⟩)
  have hhead : f.locs.head? = some e.firstSector := by
    rw [hfs]
    obtain ⟨init, t, hl, _⟩ := hc.last
    unfold FileRec.first
    rw [hl]
    cases init <;> rfl
  have hlocs := chainLocations_chain h.wf hc hhead
  obtain ⟨b1, r1, f1, o1, c1, fr1⟩ := freeAll_ok st.dev f.locs (b := st.bam)
    hm.recorded.consistent.toBamOf fun l hl => (h.dataLocs l (mem_used_of_slot hi hl)).1
  have hc1 := c1 hm.recorded.consistent
  have hr1 := hm.recorded.remove h hi hc1 fr1
  obtain ⟨d2, r2, s2, h2, y2⟩ := flushBam_gen (st := ⟨st.dev, b1⟩) h hc1 hm.writable
    (P := fun d => OnDisk d s v ∨ OnDisk d s (v.set i none)) (fun d hd => .inl hd)
  have hw2 := s2.writable hm.writable
  obtain ⟨d3, r3, h3, w3, s3, _, e3⟩ := writeEntry_volume (e := e.scratch) (y := none) h2 hw2 hlt hp
    hn hx hxl
    (by
      obtain ⟨_, _, _, _, t5, _⟩ := toBytes_linear (e := e.scratch) (x := x) (slotAt_length h2 hlt)
        hn hx hxl
      show (FileAttributes.fromByte (byteAt _ 2)).isScratched = true
      rw [t5]
      exact scratch_scratched _)
    (fun g hg => by cases hg) (fun l hl => by cases hl) (fun l hl => by cases hl)
  refine ⟨⟨.linear e.scratch, ⟨d3, b1⟩⟩, ?_, ⟨h3, hr1, w3⟩, f1, ?_,
    s2.trans (s3 _ (.inl h2) (.inr h3)), fr1⟩
  · have hrem : removeChain e.firstSector st = (.ok (), ⟨d2, b1⟩) := by
      unfold removeChain
      rw [M.bind_of_ok (s := st) (s' := st) (a := f.locs) (by rw [readDev_run, hlocs])]
      rw [M.bind_of_ok (s' := ⟨st.dev, b1⟩) (a := ()) r1]
      exact r2
    unfold File.delete
    rw [M.bind_of_ok (m := M.get) (s := (⟨.linear e, st⟩ : FSt)) (s' := ⟨.linear e, st⟩)
      (a := ⟨.linear e, st⟩) rfl]
    rw [M.bind_of_ok (s' := ⟨.linear e, ⟨d2, b1⟩⟩) (a := ())
      (by
        rw [M.run_zoom]
        show ((removeChain e.firstSector st).1, FSt.mk _ (removeChain e.firstSector st).2) = _
        rw [hrem])]
    rw [M.bind_of_ok (m := M.modify _) (s' := ⟨.linear e.scratch, ⟨d2, b1⟩⟩) (a := ()) rfl]
    rw [M.run_zoom]
    show ((St.updDev (fun d => d.writeEntry e.scratch) ⟨d2, b1⟩).1, FSt.mk _
      (St.updDev (fun d => d.writeEntry e.scratch) ⟨d2, b1⟩).2) = _
    rw [updDev_ok (st := ⟨d2, b1⟩) r3]
  · refine Synced.frame (d := d2) y2 h2.wf h3.wf fun l hl hsys => ?_
    obtain ⟨_, t2, _⟩ := toBytes_linear (e := e.scratch) (x := x) (slotAt_length h2 hlt) hn hx hxl
    rw [e3, putSlot_blk h2 hlt t2 hl, if_neg]
    intro e'
    have := (h2.dirTrack _ (slot_dir_mem h2 hlt)).2
    rw [← e', hsys] at this
    cases this

end Cbm
