import Verif.Lemmas.FileFacts
import Verif.Lemmas.Sim
import Verif.Props.Chain
/-!
# The listing and the image after single directory operations
-/

namespace Cbm
open Spec

variable {y : Option FileRec} {s : Shape} {v : Volume} {i j k r : Nat} {f f' : FileRec} {b : Bam} {a a' : Store}
  {x x' : Session} {disk : Disk} {d : Device} {name : Petscii} {e : DirectoryEntry}

/-- The entry of a slot. -/
def slotEntry (v : Volume) (i : Nat) : Option DirectoryEntry :=
  (v.slots[i]?).join.map fun f => f.entry (slotPos v.dir i)

theorem listing_eq (v : Volume) : v.listing = (List.range v.slots.length).filterMap (slotEntry v) := by
  unfold Volume.listing
  apply filterMap_congr_left
  intro q _
  unfold slotEntry
  split
  · rename_i f hf
    rw [hf]
    rfl
  · rename_i hno
    cases hq : v.slots[q]? with
    | none => rfl
    | some y =>
      cases y with
      | none => rfl
      | some f => exact absurd hq (hno f)

theorem slotEntry_some (h : slotEntry v i = some e) :
    ∃ f, v.slots[i]? = some (some f) ∧ e = f.entry (slotPos v.dir i) := by
  unfold slotEntry at h
  rw [Option.map_eq_some_iff] at h
  obtain ⟨f, hf, rfl⟩ := h
  refine ⟨f, ?_, rfl⟩
  cases hv : v.slots[i]? with
  | none => rw [hv] at hf; cases hf
  | some y => rw [hv] at hf; exact congrArg some hf

/-- The listing when only one slot changes. -/
theorem listing_split (hi : i < v.slots.length) :
    ∃ pre post, (∀ y, (v.set i y).listing =
      pre ++ (y.map fun f => f.entry (slotPos v.dir i)).toList ++ post) ∧
      ∀ e ∈ pre, ∃ (j : Nat) (f : FileRec), j < i ∧ v.slots[j]? = some (some f) ∧
        e = f.entry (slotPos v.dir j) := by
  refine ⟨(List.range i).filterMap (slotEntry v),
    ((List.range (v.slots.length - i - 1)).map (i + 1 + ·)).filterMap (slotEntry v), ?_, ?_⟩
  case refine_2 =>
    intro e he
    obtain ⟨q, hq, he⟩ := List.mem_filterMap.1 he
    obtain ⟨f, hf, rfl⟩ := slotEntry_some he
    exact ⟨q, f, List.mem_range.1 hq, hf, rfl⟩
  intro y
  have hr : List.range v.slots.length = List.range i ++ i ::
      (List.range (v.slots.length - i - 1)).map (i + 1 + ·) := by
    have h1 : v.slots.length = i + 1 + (v.slots.length - i - 1) := by omega
    conv => lhs; rw [h1, List.range_add, List.range_succ]
    simp
  have hlen : (v.set i y).slots.length = v.slots.length := by simp [Volume.set]
  rw [listing_eq, hlen, hr, List.filterMap_append, List.filterMap_cons]
  have hne : ∀ q, q ≠ i → slotEntry (v.set i y) q = slotEntry v q := by
    intro q hq
    unfold slotEntry
    rw [set_slot_ne hq]
    rfl
  have h1 : (List.range i).filterMap (slotEntry (v.set i y)) =
      (List.range i).filterMap (slotEntry v) := by
    apply filterMap_congr_left
    intro q hq
    exact hne q (by have := List.mem_range.1 hq; omega)
  have h2 : ((List.range (v.slots.length - i - 1)).map (i + 1 + ·)).filterMap
        (slotEntry (v.set i y)) =
      ((List.range (v.slots.length - i - 1)).map (i + 1 + ·)).filterMap (slotEntry v) := by
    apply filterMap_congr_left
    intro q hq
    refine hne q ?_
    obtain ⟨z, -, rfl⟩ := List.mem_map.1 hq
    omega
  have h3 : slotEntry (v.set i y) i = y.map fun f => f.entry (slotPos v.dir i) := by
    unfold slotEntry
    rw [set_slot hi]
    rfl
  rw [h1, h2, h3]
  cases y <;> simp

theorem set_self_slot (hi : v.slots[i]? = some y) : v.set i y = v := by
  unfold Volume.set
  rw [set_getElem? hi]

theorem listing_at (hi : v.slots[i]? = some (some f)) :
    ∃ pre post, v.listing = pre ++ f.entry (slotPos v.dir i) :: post ∧
      (v.set i none).listing = pre ++ post ∧
      (∀ f', (v.set i (some f')).listing = pre ++ f'.entry (slotPos v.dir i) :: post) ∧
      ∀ e ∈ pre, ∃ (j : Nat) (f : FileRec), j < i ∧ v.slots[j]? = some (some f) ∧
        e = f.entry (slotPos v.dir j) := by
  obtain ⟨pre, post, h, hpre⟩ := listing_split (v := v) (slot_lt hi)
  refine ⟨pre, post, ?_, ?_, ?_, hpre⟩
  · have := h (some f)
    rw [set_self_slot hi] at this
    simpa using this
  · simpa using h none
  · intro f'
    simpa using h (some f')

/-- A new directory block adds no entry. -/
theorem extend_listing {new : Location} (h : v.slots.length = 8 * v.dir.length) :
    (v.extend new).listing = v.listing := by
  rw [listing_eq, listing_eq]
  have hl : (v.extend new).slots.length = v.slots.length + 8 := by simp [Volume.extend]
  rw [hl, List.range_add, List.filterMap_append]
  have h1 : (List.range v.slots.length).filterMap (slotEntry (v.extend new)) =
      (List.range v.slots.length).filterMap (slotEntry v) := by
    apply filterMap_congr_left
    intro q hq
    have hq := List.mem_range.1 hq
    unfold slotEntry
    rw [extend_slot hq, extend_pos h hq]
  have h2 : ((List.range 8).map (v.slots.length + ·)).filterMap (slotEntry (v.extend new)) = [] := by
    rw [List.filterMap_eq_nil_iff]
    intro q hq
    obtain ⟨z, -, rfl⟩ := List.mem_map.1 hq
    cases he : slotEntry (v.extend new) (v.slots.length + z) with
    | none => rfl
    | some e =>
      obtain ⟨f, hf, -⟩ := slotEntry_some he
      cases (extend_slot_new (by omega) hf).1
  rw [h1, h2, List.append_nil]

theorem Reserve.listing {v₁ : Volume} (h : Reserve s v v₁ i)
    (hc : v.slots.length = 8 * v.dir.length) : v₁.listing = v.listing := by
  cases h with
  | free => rfl
  | fresh => exact extend_listing hc

/-- What the entries of a volume on disk lead to. -/
theorem listing_chain (hod : OnDisk d s v) (he : e ∈ v.listing) :
    ∃ (i : Nat) (f : FileRec), v.slots[i]? = some (some f) ∧ e = f.entry (slotPos v.dir i) ∧
      chainLocations d e.firstSector = .ok f.locs ∧ chainContent d e.firstSector = .ok f.data := by
  obtain ⟨q, f, hf, rfl⟩ := mem_listing.1 he
  have hch := hod.chains f (mem_files.2 ⟨q, hf⟩)
  have hhead := chain_head hch
  exact ⟨q, f, hf, rfl, chainLocations_chain hod.wf hch hhead,
    (C16_read_ok_iff hod.wf f.first f.data).2 ⟨f.locs, hhead, hch⟩⟩

theorem blocksFree_ready (h : ReadyAt disk s v r b) : disk.blocksFree = .ok (v.room s.type) := by
  rw [← blocksFree_volume h.mounted.recorded h.onDisk]
  unfold Disk.blocksFree Disk.bamRef indexRes
  rw [h.bam]
  simp only [res_bind_ok]
  rw [h.cell]
  rfl

theorem bamOf_ready (h : ReadyAt disk s v r b) : bamOf disk = some b := by
  unfold bamOf
  rw [h.bam]
  exact h.cell

theorem length_listing_full (h : ∀ k : Nat, v.slots[k]? ≠ some none) :
    v.listing.length = v.slots.length := by
  rw [listing_eq]
  have : ∀ n, n ≤ v.slots.length →
      ((List.range n).filterMap (slotEntry v)).length = n := by
    intro n
    induction n with
    | zero => intro _; rfl
    | succ n ih =>
      intro hn
      rw [List.range_succ, List.filterMap_append, List.length_append, ih (by omega)]
      cases hs : v.slots[n]? with
      | none => have := List.getElem?_eq_none_iff.1 hs; omega
      | some y =>
        cases y with
        | none => exact absurd hs (h n)
        | some f =>
          have : slotEntry v n = some (f.entry (slotPos v.dir n)) := by
            unfold slotEntry
            rw [hs]
            rfl
          simp [this]
  exact this _ (Nat.le_refl _)

theorem slice_two (xs : List Byte) (o : Nat) (h : o + 2 ≤ xs.length) :
    slice xs o 2 = [byteAt xs o, byteAt xs (o + 1)] := by
  apply List.ext_getElem?
  intro q
  rw [getElem?_slice]
  by_cases hq : q < 2
  · rw [if_pos hq, List.getElem?_eq_getElem (by omega)]
    match q, hq with
    | 0, _ => rw [← byteAt_eq]; rfl
    | 1, _ => rw [← byteAt_eq]; rfl
  · rw [if_neg hq, List.getElem?_eq_none (by simp; omega)]

theorem slice_three (xs : List Byte) (o : Nat) (h : o + 3 ≤ xs.length) :
    slice xs o 3 = [byteAt xs o, byteAt xs (o + 1), byteAt xs (o + 2)] := by
  apply List.ext_getElem?
  intro q
  rw [getElem?_slice]
  by_cases hq : q < 3
  · rw [if_pos hq, List.getElem?_eq_getElem (by omega)]
    match q, hq with
    | 0, _ => rw [← byteAt_eq]; rfl
    | 1, _ => rw [← byteAt_eq]; rfl
    | 2, _ => rw [← byteAt_eq]; rfl
  · rw [if_neg hq, List.getElem?_eq_none (by simp; omega)]

/-- Writing a part of a part. -/
theorem splice_inside (xs : List Byte) (o n p : Nat) (src : List Byte)
    (h1 : o + n ≤ xs.length) (h2 : p + src.length ≤ n) :
    splice xs o (splice (slice xs o n) p src) = splice xs (o + p) src := by
  have hl : (slice xs o n).length = n := length_slice xs o n h1
  have hl2 : (splice (slice xs o n) p src).length = n := by
    rw [length_splice _ _ _ (by omega), hl]
  apply List.ext_getElem?
  intro q
  have e1 := getElem?_splice xs o (splice (slice xs o n) p src) q (by omega)
  have e2 := getElem?_splice xs (o + p) src q (by omega)
  have e3 := getElem?_splice (slice xs o n) p src (q - o) (by omega)
  have e4 := getElem?_slice xs o n (q - o)
  rw [e1, e2, hl2]
  by_cases hq : q < o
  · rw [if_pos hq, if_pos (by omega)]
  · rw [if_neg hq]
    by_cases hq2 : q < o + n
    · have hqq : o + (q - o) = q := by omega
      rw [if_pos (show q - o < n by omega), hqq] at e4
      rw [if_pos hq2, e3, e4]
      by_cases hq3 : q - o < p
      · rw [if_pos hq3, if_pos (by omega)]
      · rw [if_neg hq3, if_neg (show ¬ q < o + p by omega)]
        by_cases hq4 : q - o < p + src.length
        · rw [if_pos hq4, if_pos (by omega)]
          congr 1
          omega
        · rw [if_neg hq4, if_neg (by omega)]
    · rw [if_neg hq2, if_neg (by omega), if_neg (by omega)]

/-- An entry that differs from the stored one in its name only renders to a slot that
differs in the name bytes only. -/
theorem rendered_rename {slot : List Byte} (hs : slot.length = 32) (hb : SlotBytes slot f)
    (p : Position) (hn : name.length ≤ 16) :
    rendered { f.entry p with filename := name } f.extra slot = splice slot 5 (paddedName name) := by
  have hpn : (paddedName name).length = 16 := length_paddedName hn
  have hx : f.extra.length = 9 := hb.extra_len hs
  have ha : [f.attr, f.first.track, f.first.sector] = slice slot 2 3 := by
    have h1 := hb.attr
    have h2 := hb.first
    rw [← h1, ← h2]
    exact (slice_three slot 2 (by omega)).symm
  have hz : [UInt8.ofNat (f.blocks % 256), UInt8.ofNat (f.blocks / 256)] = slice slot 0x1E 2 := by
    have h1 := hb.blocks
    have h2 := (byteAt slot 0x1F).toNat_lt
    have h3 := (byteAt slot 0x1E).toNat_lt
    have e1 : f.blocks % 256 = (byteAt slot 0x1E).toNat := by omega
    have e2 : f.blocks / 256 = (byteAt slot 0x1F).toNat := by omega
    rw [e1, e2, UInt8.ofNat_toNat, UInt8.ofNat_toNat]
    exact (slice_two slot 0x1E (by omega)).symm
  have hattr : (f.entry p).attributes.toByte = f.attr := by
    show (FileAttributes.fromByte f.attr).toByte = f.attr
    exact attr_toByte_fromByte f.attr
  show slotBytes slot [(f.entry p).attributes.toByte, f.first.track, f.first.sector]
    (paddedName name) f.extra [UInt8.ofNat (f.blocks % 256), UInt8.ofNat (f.blocks / 256)] = _
  rw [hattr, ha, hz]
  unfold slotBytes
  rw [splice_slice_self _ _ _ (by omega)]
  have h1 : (splice slot 5 (paddedName name)).length = 32 := by
    rw [length_splice _ _ _ (by omega), hs]
  have hxx : f.extra = slice (splice slot 5 (paddedName name)) 0x15 9 := by
    rw [slice_splice_disjoint _ _ _ _ _ (by omega) (by omega)]
    exact hb.extra.symm
  have hzz : slice slot 0x1E 2 = slice (splice slot 5 (paddedName name)) 0x1E 2 := by
    rw [slice_splice_disjoint _ _ _ _ _ (by omega) (by omega)]
  rw [hxx, hzz, splice_slice_self _ _ _ (by omega), splice_slice_self _ _ _ (by omega)]

end Cbm
