import Verif.Spec.Volume
import Verif.Lemmas.Puts
import Verif.Lemmas.Chain
import Verif.Lemmas.Entry
import Verif.Lemmas.BamFlush
import Verif.Lemmas.Alloc
import Verif.Props.Alloc
/-!
# Volumes on devices
-/

namespace Cbm
open Spec

variable {d d' : Device} {s : Shape} {v v' : Volume} {i j : Nat} {f f' : FileRec}
  {l : Location} {ty : DiskType} {b : Bam} {x : Option FileRec}

/-! ## Locations -/

theorem Spec.DataLoc.valid (h : DataLoc s.type l) (hs : s ∈ shapes) : s.Valid l := by
  have := bamTracks_le_tracks hs
  exact ⟨h.1.1, by have := h.1.2.1; omega, h.1.2.2⟩

theorem directory_system (ty : DiskType) : systemTrack ty (directoryTrack ty) = true := by
  cases ty <;> decide

theorem Spec.DataLoc.not_directory (h : DataLoc ty l) : l.track.toNat ≠ directoryTrack ty := by
  intro e
  have := h.2
  rw [e, directory_system] at this
  cases this

theorem byte_eq_iff (a b : Byte) : a = b ↔ a.toNat = b.toNat :=
  ⟨fun h => by rw [h], fun h => UInt8.toNat_inj.1 h⟩

theorem systemSector_track (h : systemSector ty l = true) : systemTrack ty l.track.toNat = true := by
  cases ty with
  | d64 =>
    simp only [systemSector, beq_iff_eq] at h
    subst h; rfl
  | d71 =>
    simp only [systemSector, Bool.or_eq_true, beq_iff_eq] at h
    rcases h with h | h
    · subst h; rfl
    · rw [h]; rfl
  | d81 =>
    simp only [systemSector, Bool.and_eq_true, beq_iff_eq] at h
    rw [h.1]; rfl

theorem systemTrack_cases (h : systemTrack ty l.track.toNat = true)
    (hd : l.track.toNat ≠ directoryTrack ty) : systemSector ty l = true := by
  cases ty with
  | d64 => simp [systemTrack, directoryTrack] at h hd; omega
  | d71 =>
    simp only [systemTrack, directoryTrack, Bool.or_eq_true, beq_iff_eq] at h hd
    simp only [systemSector, Bool.or_eq_true, beq_iff_eq]
    right
    rw [byte_eq_iff]
    rcases h with h | h
    · omega
    · rw [h]; rfl
  | d81 => simp [systemTrack, directoryTrack] at h hd; omega

theorem Spec.DataLoc.not_system (h : DataLoc ty l) : systemSector ty l = false := by
  cases hs : systemSector ty l with
  | false => rfl
  | true =>
    have := h.2
    rw [systemSector_track hs] at this
    cases this

/-! ## Slots -/

/-! ## The header -/

theorem headerLoc_system (ty : DiskType) : systemSector ty ty.format.header.location = true := by
  cases ty <;> decide

theorem headerLoc_valid (h : Wf d s) : s.Valid s.type.format.header.location := by
  have h1 : ∀ ty : DiskType, ValidLoc ty (bamTracks ty) ty.format.header.location := by
    intro ty; cases ty <;> decide
  have h2 : bamTracks s.type ≤ s.tracks :=
    (by decide : ∀ s ∈ shapes, bamTracks s.type ≤ s.tracks) s h.shape
  have := h1 s.type
  exact ⟨this.1, Nat.le_trans this.2.1 h2, this.2.2⟩

theorem header_read (h : Wf d s) : Header.read d s.type.format.header =
    Header.parse s.type.format.header (d.blk s s.type.format.header.location) := by
  unfold Header.read
  rw [h.sector (headerLoc_valid h)]
  rfl

theorem header_same (h : Wf d s) (h' : Wf d' s)
    (he : d'.blk s s.type.format.header.location = d.blk s s.type.format.header.location) :
    Header.read d' s.type.format.header = Header.read d s.type.format.header := by
  rw [header_read h, header_read h', he]

/-- A write to a sector that is not a system sector keeps the header. -/
theorem header_put (h : Wf d s) (hl : s.Valid l) {new : List Byte} (hn : new.length = 256)
    (hs : systemSector s.type l = false) :
    Header.read (d.put s l new) s.type.format.header = Header.read d s.type.format.header := by
  refine header_same h (h.put hl hn) (h.blk_put_other hl (headerLoc_valid h) ?_ hn)
  intro e
  rw [← e, headerLoc_system] at hs
  cases hs

theorem slice_congr {xs ys : List Byte} {o n : Nat}
    (h : ∀ j, o ≤ j → j < o + n → ys[j]? = xs[j]?) : slice ys o n = slice xs o n := by
  apply List.ext_getElem?
  intro k
  rw [getElem?_slice, getElem?_slice]
  by_cases hk : k < n
  · rw [if_pos hk, if_pos hk, h _ (by omega) (by omega)]
  · rw [if_neg hk, if_neg hk]

theorem byteAt_congr {xs ys : List Byte} {o : Nat} (h : ys[o]? = xs[o]?) :
    byteAt ys o = byteAt xs o := by
  unfold byteAt
  rw [List.getD_eq_getElem?_getD, List.getD_eq_getElem?_getD, h]

/-- `p` holds for all byte positions `Header.parse` looks at. -/
def headerReads (p : Nat → Bool) (h : HeaderFormat) : Bool :=
  [h.firstDirectoryOffset, h.firstDirectoryOffset + 1, h.diskFormatTypeOffset,
    h.directoryDosVersionOffset, h.directoryFormatTypeOffset, 0xAB, 0xAC].all p &&
  (List.range 16).all (fun j => p (h.diskNameOffset + j)) &&
  (List.range 2).all (fun j => p (h.diskIdOffset + j)) &&
  (List.range 16).all (fun j => p (0xAD + j)) &&
  (match h.doubleSidedFlagExpectation with
    | some (offset, _) => p offset
    | none => true)

theorem parse_congr {h : HeaderFormat} {x y : List Byte} {p : Nat → Bool}
    (hb : ∀ j, p j = true → byteAt y j = byteAt x j)
    (hs : ∀ o n, (∀ j, o ≤ j → j < o + n → p j = true) → slice y o n = slice x o n)
    (hr : headerReads p h = true) : Header.parse h y = Header.parse h x := by
  unfold headerReads at hr
  simp only [Bool.and_eq_true, List.all_cons, List.all_nil, Bool.and_true] at hr
  obtain ⟨⟨⟨⟨⟨h1, h2, h3, h4, h5, h6, h7⟩, hn⟩, hi⟩, hg⟩, hf⟩ := hr
  have sl : ∀ o n, (List.range n).all (fun j => p (o + j)) = true → slice y o n = slice x o n := by
    intro o n ho
    refine hs o n fun j hj1 hj2 => ?_
    rw [List.all_eq_true] at ho
    have := ho (j - o) (List.mem_range.2 (by omega))
    rwa [show o + (j - o) = j by omega] at this
  have hflag : flagOK h y = flagOK h x := by
    unfold flagOK
    cases hx : h.doubleSidedFlagExpectation with
    | none => rfl
    | some q =>
      obtain ⟨o, w⟩ := q
      rw [hx] at hf
      simp only []
      rw [hb o hf]
  have hgs : GEOSDiskHeader.new y = GEOSDiskHeader.new x := by
    unfold GEOSDiskHeader.new
    have h11 : slice y 0xAD GEOS_SIGNATURE.length = slice x 0xAD GEOS_SIGNATURE.length := by
      refine hs _ _ fun j hj1 hj2 => ?_
      rw [List.all_eq_true] at hg
      have : GEOS_SIGNATURE.length = 11 := rfl
      have := hg (j - 0xAD) (List.mem_range.2 (by omega))
      rwa [show 0xAD + (j - 0xAD) = j by omega] at this
    rw [h11, sl _ _ hg, hb _ h6, hb _ h7]
  unfold Header.parse
  rw [hflag, hgs, hb _ h1, hb _ h2, hb _ h3, hb _ h4, hb _ h5]
  have := sl h.diskNameOffset DISK_NAME_SIZE hn
  rw [this, sl _ _ hi]

/-- The header fields are outside the BAM. -/
theorem header_outside (h : Wf d s) (h' : Wf d' s)
    (he : ∀ j, ¬ bamArea s.type s.type.format.header.location j →
      (d'.blk s s.type.format.header.location)[j]? = (d.blk s s.type.format.header.location)[j]?) :
    Header.read d' s.type.format.header = Header.read d s.type.format.header := by
  rw [header_read h, header_read h']
  generalize d'.blk s s.type.format.header.location = y at *
  generalize d.blk s s.type.format.header.location = x at *
  have hb : ∀ j, ¬ bamArea s.type s.type.format.header.location j → byteAt y j = byteAt x j :=
    fun j hj => byteAt_congr (he j hj)
  have hs : ∀ o n, (∀ j, o ≤ j → j < o + n → ¬ bamArea s.type s.type.format.header.location j) →
      slice y o n = slice x o n := fun o n ho => slice_congr fun j h1 h2 => he j (ho j h1 h2)
  clear he h h'
  generalize s.type = ty at *
  have key : ∀ p : Nat → Bool, (∀ j, p j = true → ¬ bamArea ty ty.format.header.location j) →
      headerReads p ty.format.header = true →
      Header.parse ty.format.header y = Header.parse ty.format.header x := by
    intro p hp hr
    exact parse_congr (fun j hj => hb j (hp j hj)) (fun o n ho => hs o n fun j h1 h2 => hp j (ho j h1 h2)) hr
  cases ty with
  | d64 =>
    refine key (fun j => j < 4 || 144 ≤ j) ?_ (by decide +kernel)
    intro j hj ha
    simp at hj
    have := ha.2
    omega
  | d71 =>
    refine key (fun j => j < 4 || (144 ≤ j && j < 0xDD)) ?_ (by decide +kernel)
    intro j hj ha
    simp at hj
    rcases ha with ha | ha
    · have := ha.2
      omega
    · exact absurd ha.1 (by decide)
  | d81 =>
    refine key (fun j => true) ?_ (by decide +kernel)
    intro j hj ha
    exact absurd ha.1 (by decide)

theorem mem_files : f ∈ v.files ↔ ∃ i : Nat, v.slots[i]? = some (some f) := by
  unfold Volume.files
  rw [List.mem_filterMap]
  constructor
  · rintro ⟨a, ha, h⟩
    simp only [id] at h
    subst h
    exact List.mem_iff_getElem?.1 ha
  · rintro ⟨i, hi⟩
    exact ⟨some f, List.mem_iff_getElem?.2 ⟨i, hi⟩, rfl⟩

/-- The sectors of all files but the one in slot `i`. -/
def others (v : Volume) (i : Nat) : List Location :=
  ((v.slots.eraseIdx i).filterMap id).flatMap FileRec.locs

/-- The sectors of a slot. -/
def slotLocs (x : Option FileRec) : List Location := (x.map FileRec.locs).getD []

theorem flatMap_cons_slot (x : Option FileRec) (xs : List (Option FileRec)) :
    ((x :: xs).filterMap id).flatMap FileRec.locs =
      slotLocs x ++ (xs.filterMap id).flatMap FileRec.locs := by
  cases x <;> simp [slotLocs]

theorem getElem_cons_eraseIdx_perm {α : Type} : ∀ (l : List α) (i : Nat) (h : i < l.length),
    (l[i] :: l.eraseIdx i).Perm l
  | [], _, h => absurd h (by simp)
  | a :: l, 0, _ => by simp
  | a :: l, i + 1, h => by
    simp only [List.getElem_cons_succ, List.eraseIdx_cons_succ]
    exact (List.Perm.swap a _ _).trans
      ((getElem_cons_eraseIdx_perm l i (by simpa using h)).cons a)

theorem getD_getElem {α : Type} (l : List α) (d : α) {i : Nat} (h : i < l.length) :
    l.getD i d = l[i] := by
  simp [List.getD, h]

theorem used_perm (hi : v.slots[i]? = some x) : (v.used).Perm (slotLocs x ++ others v i) := by
  have hlt : i < v.slots.length := by
    rcases Nat.lt_or_ge i v.slots.length with h | h
    · exact h
    · rw [List.getElem?_eq_none h] at hi; cases hi
  have he : v.slots[i] = x := by
    rw [List.getElem?_eq_getElem hlt] at hi; exact Option.some.inj hi
  have hp := getElem_cons_eraseIdx_perm v.slots i hlt
  rw [he] at hp
  unfold Volume.used Volume.files others
  rw [← flatMap_cons_slot]
  exact ((hp.filterMap id).flatMap_right FileRec.locs).symm

theorem others_set (y : Option FileRec) : others (v.set i y) i = others v i := by
  unfold others Volume.set
  simp only
  rw [List.eraseIdx_set_eq]

theorem set_slot (hi : i < v.slots.length) : (v.set i x).slots[i]? = some x := by
  unfold Volume.set
  simp [hi]

theorem set_slot_ne (h : j ≠ i) : (v.set i x).slots[j]? = v.slots[j]? := by
  unfold Volume.set
  simp [Ne.symm h]

theorem set_set (y : Option FileRec) : (v.set i x).set i y = v.set i y := by
  unfold Volume.set
  simp

theorem set_self (hi : v.slots[i]? = some x) : v.set i x = v := by
  unfold Volume.set
  cases v with
  | mk dir slots =>
    simp only at hi ⊢
    congr 1
    apply List.ext_getElem?
    intro n
    rw [List.getElem?_set]
    split
    · rename_i h
      rw [← h, hi]
      split
      · rfl
      · rename_i h
        rw [List.getElem?_eq_none (by omega)] at hi; cases hi
    · rfl

theorem slot_lt {y : Option FileRec} (hi : v.slots[i]? = some y) : i < v.slots.length := by
  rcases Nat.lt_or_ge i v.slots.length with h | h
  · exact h
  · rw [List.getElem?_eq_none h] at hi; cases hi

theorem mem_used_of_slot (hi : v.slots[i]? = some (some f)) (hl : l ∈ f.locs) : l ∈ v.used := by
  rw [(used_perm hi).mem_iff]
  exact List.mem_append_left _ hl

theorem mem_others_of_slot (hj : v.slots[j]? = some (some f)) (hne : j ≠ i) (hl : l ∈ f.locs) :
    l ∈ others v i := by
  unfold others
  rw [List.mem_flatMap]
  refine ⟨f, ?_, hl⟩
  rw [List.mem_filterMap]
  refine ⟨some f, ?_, rfl⟩
  rw [List.mem_eraseIdx_iff_getElem?]
  exact ⟨j, hne, hj⟩

theorem used_set_perm (hi : i < v.slots.length) (y : Option FileRec) :
    ((v.set i y).used).Perm (slotLocs y ++ others v i) := by
  have := used_perm (set_slot (v := v) (x := y) hi)
  rwa [others_set] at this

/-! ## Frame -/

theorem Linked.frame {locs : List Location} (h : Linked d s locs)
    (hf : ∀ l ∈ locs, d'.blk s l = d.blk s l) : Linked d' s locs := by
  induction locs with
  | nil => trivial
  | cons a rest ih =>
    cases rest with
    | nil => trivial
    | cons m rest =>
      exact ⟨by rw [hf a (by simp)]; exact h.1, ih h.2 fun l hl => hf l (by simp [hl])⟩

theorem payload_frame {locs : List Location} (hf : ∀ l ∈ locs, d'.blk s l = d.blk s l) :
    payload d' s locs = payload d s locs := by
  unfold payload
  induction locs with
  | nil => rfl
  | cons a rest ih =>
    rw [List.flatMap_cons, List.flatMap_cons, hf a (by simp), ih fun l hl => hf l (by simp [hl])]

theorem Spec.IsChain.frame {locs : List Location} {content : List Byte} (h : IsChain d s locs content)
    (hf : ∀ l ∈ locs, d'.blk s l = d.blk s l) : IsChain d' s locs content := by
  refine ⟨h.valid, h.nodup, Linked.frame h.linked hf, ?_⟩
  obtain ⟨init, t, rfl, h1, h2, h3⟩ := h.last
  refine ⟨init, t, rfl, ?_, ?_, ?_⟩
  · rw [hf t (by simp)]; exact h1
  · rw [hf t (by simp)]; exact h2
  · rw [hf t (by simp), payload_frame fun l hl => hf l (by simp [hl])]; exact h3

theorem Spec.OnDisk.dir_ne (h : OnDisk d s v) : v.dir ≠ [] := by
  intro e
  have := h.dirFirst
  rw [e] at this
  cases this

theorem Spec.OnDisk.dir_valid (h : OnDisk d s v) (hl : l ∈ v.dir) : s.Valid l := by
  obtain ⟨_, hc⟩ := h.dirChain
  exact hc.valid l hl

theorem slot_dir_lt (h : OnDisk d s v) (hi : i < v.slots.length) : i / 8 < v.dir.length := by
  rw [h.slotCount] at hi
  omega

theorem slot_dir_mem (h : OnDisk d s v) (hi : i < v.slots.length) :
    v.dir.getD (i / 8) ⟨0, 0⟩ ∈ v.dir := by
  have := slot_dir_lt h hi
  rw [getD_getElem _ _ this]
  exact List.getElem_mem this

/-- Changes outside the sectors of the volume do not matter. -/
theorem Spec.OnDisk.frame (h : OnDisk d s v) (hw : Wf d' s)
    (hh : Header.read d' s.type.format.header = Header.read d s.type.format.header)
    (hd : ∀ l ∈ v.dir, d'.blk s l = d.blk s l) (hu : ∀ l ∈ v.used, d'.blk s l = d.blk s l) :
    OnDisk d' s v where
  wf := hw
  head := by rw [hh]; exact h.head
  dirChain := by
    obtain ⟨c, hc⟩ := h.dirChain
    exact ⟨c, hc.frame hd⟩
  dirFirst := h.dirFirst
  dirFull := fun t ht => by
    rw [hd t (List.mem_of_getLast? ht)]; exact h.dirFull t ht
  dirTrack := h.dirTrack
  slotCount := h.slotCount
  slots := fun i x hx => by
    have := h.slots i x hx
    unfold slotAt at this ⊢
    rwa [hd _ (slot_dir_mem h (slot_lt hx))]
  chains := fun f hf => by
    refine (h.chains f hf).frame fun l hl => hu l ?_
    unfold Volume.used
    exact List.mem_flatMap.2 ⟨f, hf, hl⟩
  dataLocs := h.dataLocs
  apart := h.apart

theorem Spec.OnDisk.used_not_dir (h : OnDisk d s v) (hl : l ∈ v.used) : l ∉ v.dir := by
  intro hd
  exact (h.dataLocs l hl).not_directory (h.dirTrack l hd).1

theorem Spec.OnDisk.used_valid (h : OnDisk d s v) (hl : l ∈ v.used) : s.Valid l :=
  (h.dataLocs l hl).valid h.wf.shape

/-- The file in slot `i` gets new sectors and content, keeping its first sector:
the directory and the other files are as before. -/
theorem Spec.OnDisk.changeFile (h : OnDisk d s v) (hi : v.slots[i]? = some (some f))
    (hw : Wf d' s)
    (hh : Header.read d' s.type.format.header = Header.read d s.type.format.header)
    (hd : ∀ l ∈ v.dir, d'.blk s l = d.blk s l)
    (hu : ∀ l ∈ others v i, d'.blk s l = d.blk s l)
    (he : ∀ p, f'.entry p = f.entry p) (ha : f'.attr = f.attr)
    (hc : IsChain d' s f'.locs f'.data)
    (hdl : ∀ l ∈ f'.locs, DataLoc s.type l) (hno : ∀ l ∈ f'.locs, l ∉ others v i) :
    OnDisk d' s (v.set i (some f')) := by
  have hlt := slot_lt hi
  have hperm := used_set_perm hlt (some f')
  have hother : ∀ l ∈ others v i, l ∈ v.used := fun l hl => by
    rw [(used_perm hi).mem_iff]; exact List.mem_append_right _ hl
  exact {
    wf := hw
    head := by rw [hh]; exact h.head
    dirChain := by
      obtain ⟨c, hc⟩ := h.dirChain
      exact ⟨c, hc.frame hd⟩
    dirFirst := h.dirFirst
    dirFull := fun t ht => by
      rw [hd t (List.mem_of_getLast? ht)]; exact h.dirFull t ht
    dirTrack := h.dirTrack
    slotCount := by
      have := h.slotCount
      simpa [Volume.set] using this
    slots := fun j x hx => by
      have hj : j < v.slots.length := by
        have := slot_lt hx
        simpa [Volume.set] using this
      have hbytes : slotAt d' s (v.set i (some f')).dir j = slotAt d s v.dir j := by
        unfold slotAt
        simp only [Volume.set]
        rw [hd _ (slot_dir_mem h hj)]
      rw [hbytes]
      by_cases hji : j = i
      · subst hji
        rw [set_slot hlt] at hx
        cases hx
        have := h.slots j _ hi
        refine ⟨by rw [ha]; exact this.1, fun p => ?_⟩
        rw [he]; exact this.2 p
      · rw [set_slot_ne hji] at hx
        exact h.slots j x hx
    chains := fun g hg => by
      obtain ⟨j, hj⟩ := mem_files.1 hg
      by_cases hji : j = i
      · subst hji
        rw [set_slot hlt] at hj
        cases hj
        exact hc
      · rw [set_slot_ne hji] at hj
        exact (h.chains g (mem_files.2 ⟨j, hj⟩)).frame fun l hl =>
          hu l (mem_others_of_slot hj hji hl)
    dataLocs := fun l hl => by
      rw [hperm.mem_iff, List.mem_append] at hl
      rcases hl with hl | hl
      · exact hdl l hl
      · exact h.dataLocs l (hother l hl)
    apart := by
      rw [hperm.nodup_iff, List.nodup_append]
      have hap := (used_perm hi).nodup_iff.1 h.apart
      rw [List.nodup_append] at hap
      refine ⟨hc.nodup, hap.2.1, ?_⟩
      intro a ha b hb hab
      subst hab
      exact hno a ha hb }

/-! ## Writing one slot -/

theorem slotPos_toNat (dir : List Location) (i : Nat) :
    (slotPos dir i).offset.toNat = 32 * (i % 8) ∧ (slotPos dir i).size.toNat = 32 := by
  constructor
  · unfold slotPos
    rw [UInt8.toNat_ofNat']
    omega
  · rfl

/-- The device after rewriting slot `i`. -/
def putSlot (d : Device) (s : Shape) (v : Volume) (i : Nat) (new : List Byte) : Device :=
  d.put s (v.dir.getD (i / 8) ⟨0, 0⟩)
    (splice (d.blk s (v.dir.getD (i / 8) ⟨0, 0⟩)) (32 * (i % 8)) new)

theorem putSlot_length (h : OnDisk d s v) (hi : i < v.slots.length) {new : List Byte}
    (hn : new.length = 32) :
    (splice (d.blk s (v.dir.getD (i / 8) ⟨0, 0⟩)) (32 * (i % 8)) new).length = 256 := by
  have hb := h.wf.blk_length (h.dir_valid (slot_dir_mem h hi))
  rw [length_splice _ _ _ (by rw [hb, hn]; omega), hb]

theorem putSlot_wf (h : OnDisk d s v) (hi : i < v.slots.length) {new : List Byte}
    (hn : new.length = 32) : Wf (putSlot d s v i new) s :=
  h.wf.put (h.dir_valid (slot_dir_mem h hi)) (putSlot_length h hi hn)

theorem putSlot_blk (h : OnDisk d s v) (hi : i < v.slots.length) {new : List Byte}
    (hn : new.length = 32) (hl : s.Valid l) :
    (putSlot d s v i new).blk s l =
      if l = v.dir.getD (i / 8) ⟨0, 0⟩ then splice (d.blk s l) (32 * (i % 8)) new
      else d.blk s l := by
  unfold putSlot
  rw [h.wf.blk_put (h.dir_valid (slot_dir_mem h hi)) hl (putSlot_length h hi hn)]
  split
  · rename_i e; rw [e]
  · rfl

theorem getD_inj {dir : List Location} (hn : dir.Nodup) {a b : Nat} (ha : a < dir.length)
    (hb : b < dir.length) (h : dir.getD a ⟨0, 0⟩ = dir.getD b ⟨0, 0⟩) : a = b := by
  rw [getD_getElem _ _ ha, getD_getElem _ _ hb] at h
  rw [List.nodup_iff_pairwise_ne, List.pairwise_iff_getElem] at hn
  rcases Nat.lt_trichotomy a b with hab | hab | hab
  · exact absurd h (hn a b ha hb hab)
  · exact hab
  · exact absurd h.symm (hn b a hb ha hab)

theorem putSlot_slotAt (h : OnDisk d s v) (hi : i < v.slots.length) (hj : j < v.slots.length)
    {new : List Byte} (hn : new.length = 32) :
    slotAt (putSlot d s v i new) s v.dir j = if j = i then new else slotAt d s v.dir j := by
  have hnd : v.dir.Nodup := by obtain ⟨_, hc⟩ := h.dirChain; exact hc.nodup
  have hvj := h.dir_valid (slot_dir_mem h hj)
  have hb := h.wf.blk_length hvj
  unfold slotAt
  rw [putSlot_blk h hi hn hvj]
  by_cases hs : v.dir.getD (j / 8) ⟨0, 0⟩ = v.dir.getD (i / 8) ⟨0, 0⟩
  · rw [if_pos hs]
    have hq := getD_inj hnd (slot_dir_lt h hj) (slot_dir_lt h hi) hs
    by_cases hji : j = i
    · subst hji
      rw [if_pos rfl, slice_splice_same' _ _ _ _ hn.symm (by rw [hb, hn]; omega)]
    · rw [if_neg hji, slice_splice_disjoint _ _ _ _ _ (by rw [hb]; omega)]
      rw [hn]
      omega
  · rw [if_neg hs, if_neg]
    rintro rfl
    exact hs rfl

theorem putSlot_link (h : OnDisk d s v) (hi : i < v.slots.length) {new : List Byte}
    (hn : new.length = 32) (h0 : byteAt new 0 = byteAt (slotAt d s v.dir i) 0)
    (h1 : byteAt new 1 = byteAt (slotAt d s v.dir i) 1) (hl : s.Valid l) (k : Nat) (hk : k < 2) :
    byteAt ((putSlot d s v i new).blk s l) k = byteAt (d.blk s l) k := by
  have hb := h.wf.blk_length hl
  rw [putSlot_blk h hi hn hl]
  split
  · rename_i e
    rw [byteAt_splice _ _ _ _ (by rw [hb]; omega)]
    unfold slotAt at h0 h1
    rw [byteAt_slice _ _ _ _ (by omega), ← e] at h0 h1
    split
    · rfl
    · split
      · have : 32 * (i % 8) = 0 := by omega
        rw [this] at h0 h1 ⊢
        rw [Nat.sub_zero]
        have hk2 : k = 0 ∨ k = 1 := by omega
        rcases hk2 with rfl | rfl
        · exact h0
        · exact h1
      · rfl
  · rfl

/-- The chain structure of sectors depends only on their link bytes. -/
theorem Linked.ofLinks {locs : List Location} (h : Linked d s locs)
    (hf : ∀ l ∈ locs, linkBytes (d'.blk s l) = linkBytes (d.blk s l)) : Linked d' s locs := by
  induction locs with
  | nil => trivial
  | cons a rest ih =>
    cases rest with
    | nil => trivial
    | cons m rest =>
      exact ⟨by rw [hf a (by simp)]; exact h.1, ih h.2 fun l hl => hf l (by simp [hl])⟩

/-- A slot is rewritten: the volume changes in that slot. -/
theorem Spec.OnDisk.writeSlot (h : OnDisk d s v) (hi : i < v.slots.length) {new : List Byte}
    (hn : new.length = 32) (h0 : byteAt new 0 = byteAt (slotAt d s v.dir i) 0)
    (h1 : byteAt new 1 = byteAt (slotAt d s v.dir i) 1) (hx : SlotIs new x)
    (hc : ∀ f, x = some f → IsChain d s f.locs f.data)
    (hdl : ∀ l ∈ slotLocs x, DataLoc s.type l) (hno : ∀ l ∈ slotLocs x, l ∉ others v i) :
    OnDisk (putSlot d s v i new) s (v.set i x) := by
  obtain ⟨y, hy⟩ : ∃ y, v.slots[i]? = some y := ⟨v.slots[i], List.getElem?_eq_getElem hi⟩
  have hperm := used_set_perm hi x
  have hother : ∀ l ∈ others v i, l ∈ v.used := fun l hl => by
    rw [(used_perm hy).mem_iff]; exact List.mem_append_right _ hl
  have hdirloc := (h.dirTrack _ (slot_dir_mem h hi)).1
  have hdata : ∀ l, DataLoc s.type l → (putSlot d s v i new).blk s l = d.blk s l := by
    intro l hl
    rw [putSlot_blk h hi hn (hl.valid h.wf.shape), if_neg]
    intro e
    rw [← e] at hdirloc
    exact hl.not_directory hdirloc
  have hlink : ∀ l ∈ v.dir, linkBytes ((putSlot d s v i new).blk s l) = linkBytes (d.blk s l) := by
    intro l hl
    unfold linkBytes
    rw [putSlot_link h hi hn h0 h1 (h.dir_valid hl) 0 (by omega),
      putSlot_link h hi hn h0 h1 (h.dir_valid hl) 1 (by omega)]
  have hapo := (used_perm hy).nodup_iff.1 h.apart
  rw [List.nodup_append] at hapo
  exact {
    wf := putSlot_wf h hi hn
    head := by
      rw [header_same h.wf (putSlot_wf h hi hn)]
      · exact h.head
      · rw [putSlot_blk h hi hn (headerLoc_valid h.wf), if_neg]
        intro e
        have := (h.dirTrack _ (slot_dir_mem h hi)).2
        rw [← e, headerLoc_system] at this
        cases this
    dirChain := by
      obtain ⟨c, hc⟩ := h.dirChain
      obtain ⟨init, t, ht, l0, l1, _⟩ := hc.last
      have htm : t ∈ v.dir := by rw [ht]; simp
      refine ⟨_, hc.valid, hc.nodup, Linked.ofLinks hc.linked hlink, init, t, ht, ?_, ?_, rfl⟩
      · rw [putSlot_link h hi hn h0 h1 (h.dir_valid htm) 0 (by omega)]; exact l0
      · rw [putSlot_link h hi hn h0 h1 (h.dir_valid htm) 1 (by omega)]; exact l1
    dirFirst := h.dirFirst
    dirFull := fun t ht => by
      rw [putSlot_link h hi hn h0 h1 (h.dir_valid (List.mem_of_getLast? ht)) 1 (by omega)]
      exact h.dirFull t ht
    dirTrack := h.dirTrack
    slotCount := by
      have := h.slotCount
      simpa [Volume.set] using this
    slots := fun j z hz => by
      have hj : j < v.slots.length := by
        have := slot_lt hz
        simpa [Volume.set] using this
      show SlotIs (slotAt _ s v.dir j) z
      rw [putSlot_slotAt h hi hj hn]
      by_cases hji : j = i
      · subst hji
        rw [set_slot hi] at hz
        cases hz
        rw [if_pos rfl]
        exact hx
      · rw [set_slot_ne hji] at hz
        rw [if_neg hji]
        exact h.slots j z hz
    chains := fun g hg => by
      obtain ⟨j, hj⟩ := mem_files.1 hg
      by_cases hji : j = i
      · subst hji
        rw [set_slot hi] at hj
        cases hj
        exact (hc g rfl).frame fun l hl => hdata l (hdl l hl)
      · rw [set_slot_ne hji] at hj
        refine (h.chains g (mem_files.2 ⟨j, hj⟩)).frame fun l hl => hdata l ?_
        exact h.dataLocs l (mem_used_of_slot hj hl)
    dataLocs := fun l hl => by
      rw [hperm.mem_iff, List.mem_append] at hl
      rcases hl with hl | hl
      · exact hdl l hl
      · exact h.dataLocs l (hother l hl)
    apart := by
      rw [hperm.nodup_iff, List.nodup_append]
      refine ⟨?_, hapo.2.1, ?_⟩
      · cases x with
        | none => simp [slotLocs]
        | some f => exact (hc f rfl).nodup
      · intro a ha b hb hab
        subst hab
        exact hno a ha hb }

end Cbm
