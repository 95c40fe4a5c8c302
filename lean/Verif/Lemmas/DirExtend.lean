import Verif.Lemmas.DirAlloc
import Verif.Lemmas.WriteLoop
/-!
# Extending the directory
-/

namespace Cbm
open Spec

variable {d d' d'' : Device} {s : Shape} {v v' : Volume} {i j : Nat} {f f' : FileRec}
  {l next new last p : Location} {b b' : Bam} {ty : DiskType} {st : St}

theorem readBam_run {α : Type} (g : Bam → Res α) (st : St) :
    St.readBam g st = (g st.bam, st) := rfl

theorem readDev_run {α : Type} (g : Device → Res α) (st : St) :
    St.readDev g st = (g st.dev, st) := rfl

/-- The volume with one more, empty, directory sector. -/
def Spec.Volume.extend (v : Volume) (new : Location) : Volume :=
  ⟨v.header, v.dir ++ [new], v.slots ++ List.replicate 8 none⟩

theorem extend_files : (v.extend new).files = v.files := by
  simp [Volume.extend, Volume.files, List.filterMap_append]

theorem extend_used : (v.extend new).used = v.used := by
  unfold Volume.used; rw [extend_files]

theorem extend_room : (v.extend new).room ty = v.room ty := by
  unfold Volume.room; rw [extend_used]

theorem extend_slot (hi : i < v.slots.length) : (v.extend new).slots[i]? = v.slots[i]? := by
  show (v.slots ++ _)[i]? = _
  rw [List.getElem?_append_left hi]

theorem extend_slot_new (hi : v.slots.length ≤ i) {x : Option FileRec}
    (h : (v.extend new).slots[i]? = some x) : x = none ∧ i < v.slots.length + 8 := by
  change (v.slots ++ List.replicate 8 none)[i]? = some x at h
  rw [List.getElem?_append_right hi, List.getElem?_replicate] at h
  split at h
  · exact ⟨(Option.some.inj h).symm, by omega⟩
  · cases h

theorem extend_slot_some (hi : v.slots[i]? = some (some f)) :
    (v.extend new).slots[i]? = some (some f) := by
  rw [extend_slot (slot_lt hi)]; exact hi

theorem getD_append_left {α : Type} (xs ys : List α) (dflt : α) {n : Nat} (h : n < xs.length) :
    (xs ++ ys).getD n dflt = xs.getD n dflt := by
  rw [List.getD_eq_getElem?_getD, List.getD_eq_getElem?_getD, List.getElem?_append_left h]

theorem extend_pos (h : v.slots.length = 8 * v.dir.length) (hi : i < v.slots.length) :
    slotPos (v.extend new).dir i = slotPos v.dir i := by
  unfold slotPos
  show (⟨(v.dir ++ [new]).getD (i / 8) ⟨0, 0⟩, _, _⟩ : Position) = _
  rw [getD_append_left _ _ _ (by omega)]

/-- What a slot says does not depend on its first two bytes. -/
theorem SlotIs.congr {bytes bytes' : List Byte} {x : Option FileRec} (h : SlotIs bytes x)
    (he : ∀ k, 2 ≤ k → bytes'[k]? = bytes[k]?) : SlotIs bytes' x := by
  have hb : ∀ k, 2 ≤ k → byteAt bytes' k = byteAt bytes k := fun k hk => by
    unfold byteAt; simp only [List.getD_eq_getElem?_getD, he k hk]
  have hs : ∀ o n, 2 ≤ o → slice bytes' o n = slice bytes o n := fun o n ho => by
    apply List.ext_getElem?
    intro k
    rw [getElem?_slice, getElem?_slice, he _ (by omega)]
  cases x with
  | none => unfold SlotIs at h ⊢; rw [hb 2 (by omega)]; exact h
  | some f =>
    rw [slotIs_some] at h ⊢
    refine ⟨h.1, ?_⟩
    have g := h.2
    refine ⟨?_, ?_, ?_, ?_, ?_, g.scheme⟩
    · rw [hb 2 (by omega)]; exact g.attr
    · rw [hb 3 (by omega), hb 4 (by omega)]; exact g.first
    · rw [hs 5 _ (by omega)]; exact g.name
    · rw [hs _ _ (by omega)]; exact g.extra
    · rw [hb _ (by omega), hb _ (by omega)]; exact g.blocks

theorem Spec.OnDisk.extendDir (h : OnDisk d s v) (ht : v.dir.getLast? = some last)
    (hv : s.Valid new) (htr : new.track.toNat = directoryTrack s.type)
    (hns : systemSector s.type new = false) (hnd : new ∉ v.dir) (hw : Wf d' s)
    (hnew0 : byteAt (d'.blk s new) 0 = 0) (hnew1 : byteAt (d'.blk s new) 1 = 255)
    (hzero : ∀ k, 2 ≤ k → k < 256 → byteAt (d'.blk s new) k = 0)
    (hlast : d'.blk s last = splice (d.blk s last) 0 [new.track, new.sector])
    (hother : ∀ l, s.Valid l → l ≠ new → l ≠ last → d'.blk s l = d.blk s l) :
    OnDisk d' s (v.extend new) := by
  have hlm : last ∈ v.dir := List.mem_of_getLast? ht
  have hlv := h.dir_valid hlm
  have hlen := h.wf.blk_length hlv
  have hdata : ∀ l, l ∈ v.used → d'.blk s l = d.blk s l := by
    intro l hl
    have hn := (h.dataLocs l hl).not_directory
    refine hother l (h.used_valid hl) ?_ ?_
    · rintro rfl; exact hn htr
    · rintro rfl; exact hn (h.dirTrack _ hlm).1
  obtain ⟨c, hc⟩ := h.dirChain
  obtain ⟨init, t, hit, l0, l1, _⟩ := hc.last
  have : t = last := by
    rw [hit, List.getLast?_append] at ht
    simpa using ht
  subst this
  have hinit : ∀ l ∈ init, d'.blk s l = d.blk s l := by
    intro l hl
    have hlm' : l ∈ v.dir := by rw [hit]; simp [hl]
    refine hother l (h.dir_valid hlm') ?_ ?_
    · rintro rfl; exact hnd hlm'
    · rintro rfl
      have := hc.nodup
      rw [hit, List.nodup_append] at this
      exact this.2.2 l hl l (by simp) rfl
  have hsc := h.slotCount
  exact {
    wf := hw
    head := by
      rw [header_same h.wf hw (hother _ (headerLoc_valid h.wf) ?_ ?_)]
      · exact h.head
      · intro e; rw [← e, headerLoc_system] at hns; cases hns
      · intro e
        have := (h.dirTrack _ hlm).2
        rw [← e, headerLoc_system] at this
        cases this
    dirChain := by
      refine ⟨_, ?_, ?_, ?_, v.dir, new, rfl, hnew0, by rw [hnew1]; decide, rfl⟩
      · intro l hl
        rcases List.mem_append.1 hl with hl | hl
        · exact h.dir_valid hl
        · rw [List.mem_singleton.1 hl]; exact hv
      · show (v.dir ++ [new]).Nodup
        rw [List.nodup_append]
        refine ⟨hc.nodup, by simp, ?_⟩
        intro a ha b hb hab
        rw [List.mem_singleton.1 hb] at hab
        exact hnd (hab ▸ ha)
      · show Linked d' s (v.dir ++ [new])
        have e : v.dir ++ [new] = init ++ t :: [new] := by rw [hit]; simp
        rw [e, linked_append_cons]
        refine ⟨Linked.frame_init (hit ▸ hc.linked) fun l hl => by rw [hinit l hl], ?_, trivial⟩
        rw [hlast]
        unfold linkBytes
        rw [byteAt_splice _ _ _ _ (by omega), byteAt_splice _ _ _ _ (by omega)]
        rfl
    dirFirst := by
      have := h.dirFirst
      show (v.dir ++ [new]).head? = _
      cases hd : v.dir with
      | nil => exact absurd hd h.dir_ne
      | cons a as => rw [hd] at this; simpa using this
    dirFull := fun t ht' => by
      have : t = new := by
        change (v.dir ++ [new]).getLast? = some t at ht'
        rw [List.getLast?_append] at ht'
        simpa using ht'.symm
      rw [this]; exact hnew1
    dirTrack := fun l hl => by
      rcases List.mem_append.1 hl with hl | hl
      · exact h.dirTrack l hl
      · rw [List.mem_singleton.1 hl]; exact ⟨htr, hns⟩
    slotCount := by
      simp [Volume.extend, hsc, Nat.mul_add]
    slots := fun i x hx => by
      rcases Nat.lt_or_ge i v.slots.length with hi | hi
      · rw [extend_slot hi] at hx
        have g := h.slots i x hx
        refine SlotIs.congr g fun k hk => ?_
        unfold slotAt
        show (slice (d'.blk s ((v.dir ++ [new]).getD (i / 8) ⟨0, 0⟩)) _ _)[k]? = _
        rw [getD_append_left _ _ _ (by omega), getElem?_slice, getElem?_slice]
        by_cases hk' : k < 32
        · rw [if_pos hk', if_pos hk']
          have hm := slot_dir_mem h hi
          by_cases he : v.dir.getD (i / 8) ⟨0, 0⟩ = t
          · rw [he, hlast, getElem?_splice _ _ _ _ (by omega)]
            rw [if_neg (by omega), if_neg (by simp only [List.length_cons, List.length_nil]; omega)]
          · rw [hother _ (h.dir_valid hm) (fun e => hnd (e ▸ hm)) he]
        · rw [if_neg hk', if_neg hk']
      · obtain ⟨rfl, hi2⟩ := extend_slot_new hi hx
        show (FileAttributes.fromByte _).isScratched = true
        have e : i / 8 = v.dir.length := by omega
        unfold slotAt
        show (FileAttributes.fromByte (byteAt (slice (d'.blk s
          ((v.dir ++ [new]).getD (i / 8) ⟨0, 0⟩)) _ _) 2)).isScratched = true
        have e2 : (v.dir ++ [new]).getD (i / 8) ⟨0, 0⟩ = new := by
          rw [e]; simp [List.getD_eq_getElem?_getD]
        rw [e2, byteAt_slice _ _ _ _ (by omega), hzero _ (by omega) (by omega)]
        decide
    chains := fun f hf => by
      rw [extend_files] at hf
      obtain ⟨i, hi⟩ := mem_files.1 hf
      exact (h.chains f hf).frame fun l hl => hdata l (mem_used_of_slot hi hl)
    dataLocs := fun l hl => by rw [extend_used] at hl; exact h.dataLocs l hl
    apart := by rw [extend_used]; exact h.apart }

theorem Spec.Recorded.extend (hr : Recorded b s.type v)
    (hl : ValidLoc s.type (bamTracks s.type) new) :
    ∃ b', b.allocate new = .ok b' ∧ Recorded b' s.type (v.extend new) ∧ b'.format = b.format := by
  obtain ⟨b', hb', hf⟩ := allocate_ok hr.consistent.toBamOf hl.inBam
  refine ⟨b', hb', ⟨hf.consistent hr.consistent hl, ?_⟩, hf.format⟩
  intro m hm
  rw [isFree_flip hf]
  have ho := hr.exact m hm
  unfold Volume.Occupies at ho ⊢
  rw [extend_used]
  show _ ↔ _ ∨ m ∈ v.dir ++ [new] ∨ _
  rw [List.mem_append, List.mem_singleton]
  by_cases hml : m = new
  · rw [if_pos hml]
    constructor
    · intro _; right; left; right; exact hml
    · intro _; rfl
  · rw [if_neg hml]
    simp only [hml, or_false]
    exact ho

theorem freshDirectory_ok {block : List Byte} (hb : block.length = 256) :
    ∃ fresh, freshDirectoryBlock block = .ok fresh ∧ fresh.length = 256 ∧
      byteAt fresh 0 = 0 ∧ byteAt fresh 1 = 255 ∧ ∀ k, 2 ≤ k → k < 256 → byteAt fresh k = 0 := by
  have h1 : (splice block 0 [(0x00 : Byte), 0xFF]).length = 256 := by
    rw [length_splice _ _ _ (by simp; omega), hb]
  have h2 : 2 + (List.replicate (BLOCK_SIZE - 2) (0 : Byte)).length ≤ 256 := by
    simp only [List.length_replicate, BLOCK_SIZE]; omega
  refine ⟨_, rfl, ?_, ?_, ?_, ?_⟩
  · rw [length_splice _ _ _ (by rw [h1]; exact h2), h1]
  · rw [byteAt_splice _ _ _ _ (by omega), if_pos (by omega), byteAt_splice _ _ _ _ (by omega)]; rfl
  · rw [byteAt_splice _ _ _ _ (by omega), if_pos (by omega), byteAt_splice _ _ _ _ (by omega)]; rfl
  · intro k hk hk2
    rw [byteAt_splice _ _ _ _ (by omega), if_neg (by omega),
      if_pos (by simp only [List.length_replicate, BLOCK_SIZE]; omega)]
    unfold byteAt
    rw [List.getD_eq_getElem?_getD, List.getElem?_replicate]
    split <;> rfl

/-- Extending the directory: one more sector on the directory track with eight
free slots, or `DiskFull` and no change when the track is used up. -/
theorem extendDirectory_spec (hm : Mounted st s v) (ht : v.dir.getLast? = some last) :
    (v.slots.length < maxSlots s.type ∧ ∃ new st',
      extendDirectory last st = (.ok (DirectoryEntry.parse32
        (slotAt st'.dev s (v.extend new).dir v.slots.length)
        (some (slotPos (v.extend new).dir v.slots.length))), st') ∧
      Mounted st' s (v.extend new) ∧ st'.bam.format = st.bam.format ∧
      ValidLoc s.type (bamTracks s.type) new ∧
      Steps s (fun d => OnDisk d s v ∨ OnDisk d s (v.extend new)) st.dev st'.dev ∧
      SysSame s st.dev st'.dev) ∨
    (maxSlots s.type = v.slots.length ∧ extendDirectory last st = (fail .diskFull, st)) := by
  have h := hm.onDisk
  rcases nextFreeBlock_directory hm.recorded h ht with ⟨hex, new, hn, hv, htr, hns, hnd⟩ | ⟨hno, hn⟩
  · left
    refine ⟨h.dir_room.2 hex, ?_⟩
    have hlm : last ∈ v.dir := List.mem_of_getLast? ht
    have hlv := h.dir_valid hlm
    have hnv : s.Valid new := by
      have hle : bamTracks s.type ≤ s.tracks := by
        exact (by decide : ∀ s ∈ shapes, bamTracks s.type ≤ s.tracks) s h.wf.shape
      exact ⟨hv.1, Nat.le_trans hv.2.1 hle, hv.2.2⟩
    have hne : new ≠ last := fun e => hnd (e ▸ hlm)
    obtain ⟨fresh, hf1, hf2, hf3, hf4, hf5⟩ := freshDirectory_ok (h.wf.blk_length hnv)
    have w1 : Wf (st.dev.put s new fresh) s := h.wf.put hnv hf2
    obtain ⟨b', hb', hr', hbf⟩ := hm.recorded.extend hv
    have hll : (splice ((st.dev.put s new fresh).blk s last) 0 [new.track, new.sector]).length = 256 := by
      rw [length_splice _ _ _ (by rw [w1.blk_length hlv]; simp), w1.blk_length hlv]
    have h2 : OnDisk (st.dev.put s new fresh) s v := by
      refine h.frame w1 (header_put h.wf hnv hf2 hns) ?_ ?_
      · intro l hl
        exact h.wf.blk_put_other hnv (h.dir_valid hl) (fun e => hnd (e ▸ hl)) hf2
      · intro l hl
        refine h.wf.blk_put_other hnv (h.used_valid hl) ?_ hf2
        rintro rfl
        exact (h.dataLocs _ hl).not_directory htr
    have h3 : OnDisk ((st.dev.put s new fresh).put s last
        (splice ((st.dev.put s new fresh).blk s last) 0 [new.track, new.sector])) s
        (v.extend new) := by
      refine h2.extendDir ht hnv htr hns hnd (w1.put hlv hll) ?_ ?_ ?_ ?_ ?_
      · rw [w1.blk_put_other hlv hnv hne hll, h.wf.blk_put_same hnv hf2]; exact hf3
      · rw [w1.blk_put_other hlv hnv hne hll, h.wf.blk_put_same hnv hf2]; exact hf4
      · rw [w1.blk_put_other hlv hnv hne hll, h.wf.blk_put_same hnv hf2]; exact hf5
      · rw [w1.blk_put_same hlv hll]
      · intro l hl _ hll'
        exact w1.blk_put_other hlv hl hll' hll
    refine ⟨new, ⟨(st.dev.put s new fresh).put s last
      (splice ((st.dev.put s new fresh).blk s last) 0 [new.track, new.sector]), b'⟩, ?_, ⟨h3, hr', (hm.writable.put _).put _⟩, hbf, hv, ?_,
      (SysSame.put h.wf hnv hf2 hns).trans (SysSame.put w1 hlv hll (h.dirTrack _ hlm).2)⟩
    · unfold extendDirectory
      rw [M.bind_of_ok (s := st) (s' := st) (a := new)
        (by rw [readBam_run, hn])]
      rw [M.bind_of_ok (s := st) (a := ()) (updDev_ok (h.wf.sectorMut_ok hm.writable hnv hf1))]
      have hsec : (st.dev.put s new fresh).sector new = .ok fresh := by
        rw [w1.sector hnv, h.wf.blk_put_same hnv hf2]
      rw [M.bind_of_ok (s' := { st with dev := st.dev.put s new fresh }) (a := fresh)
        (by rw [readDev_run, hsec])]
      rw [M.bind_of_ok (s' := { st with dev := st.dev.put s new fresh })
        (a := DirectoryEntry.parse32 (slice fresh 0 ENTRY_SIZE)
          (some ⟨new, 0, UInt8.ofNat ENTRY_SIZE⟩))
        (by
          rw [M.run_lift]
          unfold DirectoryEntry.parse
          rw [if_pos (by rw [length_slice _ _ _ (by simp only [ENTRY_SIZE]; omega)])])]
      rw [M.bind_of_ok (a := ()) (updBam_ok (st := { st with dev := st.dev.put s new fresh }) hb')]
      rw [M.bind_of_ok (a := ())
        (updDev_ok (st := ⟨st.dev.put s new fresh, b'⟩)
          (w1.sectorMut_ok (hm.writable.put _) hlv
            (f := fun block => .ok (splice block 0 [new.track, new.sector])) rfl))]
      rw [M.run_pure]
      have hsc := h.slotCount
      have e1 : v.slots.length / 8 = v.dir.length := by omega
      have e2 : v.slots.length % 8 = 0 := by omega
      have e3 : (v.extend new).dir.getD (v.slots.length / 8) ⟨0, 0⟩ = new := by
        show (v.dir ++ [new]).getD _ _ = _
        rw [e1]; simp [List.getD_eq_getElem?_getD]
      unfold slotAt slotPos
      simp only [e3, e2, Nat.mul_zero]
      rw [w1.blk_put_other hlv hnv hne hll, h.wf.blk_put_same hnv hf2]
      rfl
    · exact (Steps.put hnv hf2 (.inl h) (.inl h2)).trans (Steps.put hlv hll (.inl h2) (.inr h3))
  · right
    constructor
    · have := h.slots_le
      have hnlt : ¬ v.slots.length < maxSlots s.type := by
        rw [h.dir_room]
        rintro ⟨m, h1, h2, h3, h4⟩
        exact h4 (hno m h1 h2 h3)
      omega
    · unfold extendDirectory
      rw [M.bind_of_error (s := st) (s' := st) (e := .err .diskFull)
        (by rw [readBam_run, hn])]

end Cbm
