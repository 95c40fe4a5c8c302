import Verif.Lemmas.Volume
/-!
# Reading and writing directory slots
-/

namespace Cbm
open Spec

variable {d d' : Device} {s : Shape} {v v' : Volume} {i j : Nat} {f f' : FileRec}
  {l : Location} {e : DirectoryEntry}

/-- The scheme of an entry from its attribute byte and its nine extra bytes. -/
def schemeOf (a : Byte) (x : List Byte) : Scheme :=
  if (FileAttributes.fromByte a).fileType = .REL then .relative
  else if (a &&& 0x07) < 4 && (byteAt x 2 != 0 || byteAt x 3 != 0) && byteAt x 2 ≤ 1 then
    if byteAt x 2 == 1 then .geosVLIR else .geosSequential
  else .linear

theorem entryScheme_eq (bytes : List Byte) :
    entryScheme bytes = schemeOf (byteAt bytes 2) (slice bytes 0x15 9) := by
  unfold entryScheme schemeOf isEntryGeos isEntryVlir
  simp only [ENTRY_EXTRA_OFFSET]
  rw [byteAt_slice _ _ _ _ (by omega : 2 < 9), byteAt_slice _ _ _ _ (by omega : 3 < 9)]

/-- What a slot with a file says about its bytes. -/
structure SlotBytes (bytes : List Byte) (f : FileRec) : Prop where
  attr : byteAt bytes 2 = f.attr
  first : (⟨byteAt bytes 3, byteAt bytes 4⟩ : Location) = f.first
  name : fromPaddedBytes (slice bytes 5 16) PADDING_BYTE = f.name
  extra : slice bytes 0x15 9 = f.extra
  blocks : (byteAt bytes 0x1F).toNat * 256 + (byteAt bytes 0x1E).toNat = f.blocks
  scheme : schemeOf f.attr f.extra = .linear

theorem attr_inj {a b : Byte} (h : FileAttributes.fromByte a = FileAttributes.fromByte b) : a = b := by
  rw [← attr_toByte_fromByte a, h, attr_toByte_fromByte]

theorem slotIs_some {bytes : List Byte} : SlotIs bytes (some f) ↔
    (FileAttributes.fromByte f.attr).isScratched = false ∧ SlotBytes bytes f := by
  unfold SlotIs
  constructor
  · rintro ⟨h1, h2⟩
    refine ⟨h1, ?_⟩
    have h := h2 ⟨⟨0, 0⟩, 0, 0⟩
    unfold DirectoryEntry.parse32 FileRec.entry at h
    simp only [DirectoryEntry.mk.injEq] at h
    obtain ⟨a, b, c, e, g, _, i, _⟩ := h
    rw [i] at e
    simp only [Extra.fromBytes, Extra.linear.injEq] at e
    have ha := attr_inj a
    refine ⟨ha, b, c, e, g, ?_⟩
    rw [entryScheme_eq, ha] at i
    simp only [ENTRY_EXTRA_OFFSET, EXTRA_SIZE] at e
    rw [e] at i
    exact i
  · rintro ⟨h1, h2⟩
    refine ⟨h1, fun p => ?_⟩
    have hsch : entryScheme bytes = .linear := by
      rw [entryScheme_eq, h2.attr, h2.extra]; exact h2.scheme
    unfold DirectoryEntry.parse32 FileRec.entry
    simp only [hsch, Extra.fromBytes, ENTRY_EXTRA_OFFSET, EXTRA_SIZE, ENTRY_FILENAME_LENGTH,
      h2.attr, h2.first, h2.name, h2.extra, h2.blocks]

theorem SlotBytes.name_le {bytes : List Byte} (h : SlotBytes bytes f) (hl : bytes.length = 32) :
    f.name.length ≤ 16 := by
  rw [← h.name]
  have := fromPadded_length (slice bytes 5 16) PADDING_BYTE
  rw [length_slice _ _ _ (by omega)] at this
  exact this

theorem SlotBytes.name_last {bytes : List Byte} (h : SlotBytes bytes f) :
    f.name.getLast? ≠ some PADDING_BYTE := by
  rw [← h.name]
  exact fromPadded_last _ _

theorem SlotBytes.extra_len {bytes : List Byte} (h : SlotBytes bytes f) (hl : bytes.length = 32) :
    f.extra.length = 9 := by
  rw [← h.extra]
  exact length_slice _ _ _ (by omega)

theorem slotAt_length (h : OnDisk d s v) (hi : i < v.slots.length) :
    (slotAt d s v.dir i).length = 32 := by
  unfold slotAt
  rw [length_slice _ _ _ (by rw [h.wf.blk_length (h.dir_valid (slot_dir_mem h hi))]; omega)]

theorem Spec.OnDisk.slotBytes (h : OnDisk d s v) (hi : v.slots[i]? = some (some f)) :
    (FileAttributes.fromByte f.attr).isScratched = false ∧ SlotBytes (slotAt d s v.dir i) f :=
  slotIs_some.1 (h.slots i _ hi)

theorem Spec.OnDisk.name_le (h : OnDisk d s v) (hi : v.slots[i]? = some (some f)) :
    f.name.length ≤ 16 := (h.slotBytes hi).2.name_le (slotAt_length h (slot_lt hi))

theorem Spec.OnDisk.extra_len (h : OnDisk d s v) (hi : v.slots[i]? = some (some f)) :
    f.extra.length = 9 := (h.slotBytes hi).2.extra_len (slotAt_length h (slot_lt hi))

/-- Reading the entry of a slot again. -/
theorem readEntry_slot (h : OnDisk d s v) (hi : i < v.slots.length)
    (hp : e.position = some (slotPos v.dir i)) :
    d.readEntry e = .ok (DirectoryEntry.parse32 (slotAt d s v.dir i) (some (slotPos v.dir i))) := by
  have hv := h.dir_valid (slot_dir_mem h hi)
  have hb := h.wf.blk_length hv
  unfold Device.readEntry Device.positionedRead
  have hpos : e.pos = .ok (slotPos v.dir i) := by unfold DirectoryEntry.pos; rw [hp]
  rw [hpos, res_bind_ok, h.wf.sector (l := (slotPos v.dir i).location) hv, res_bind_ok,
    (slotPos_toNat v.dir i).1, (slotPos_toNat v.dir i).2]
  unfold subSlice
  have hb' : (d.blk s (slotPos v.dir i).location).length = 256 := hb
  rw [if_pos (by rw [hb']; omega), res_bind_ok]
  unfold DirectoryEntry.positionedRead
  rw [hpos, res_bind_ok, (slotPos_toNat v.dir i).2]
  have hlen := slotAt_length h hi
  unfold slotAt at hlen ⊢
  rw [if_neg (by rw [show (slotPos v.dir i).location = v.dir.getD (i / 8) ⟨0, 0⟩ from rfl, hlen]; omega)]
  unfold DirectoryEntry.parse
  rw [if_pos (by exact hlen), hp]
  rfl

/-- Writing an entry into its slot. -/
theorem writeEntry_slot (h : OnDisk d s v) (hw : Writable d) (hi : i < v.slots.length)
    (hp : e.position = some (slotPos v.dir i)) {out : List Byte}
    (ho : e.toBytes (slotAt d s v.dir i) = .ok out) :
    d.writeEntry e = .ok (putSlot d s v i out) := by
  have hv := h.dir_valid (slot_dir_mem h hi)
  have hb := h.wf.blk_length hv
  unfold Device.writeEntry Device.positionedWrite
  have hpos : e.pos = .ok (slotPos v.dir i) := by unfold DirectoryEntry.pos; rw [hp]
  rw [hpos, res_bind_ok]
  refine h.wf.sectorMut_ok hw (l := (slotPos v.dir i).location) hv ?_
  rw [(slotPos_toNat v.dir i).1, (slotPos_toNat v.dir i).2]
  unfold subSlice
  have hb' : (d.blk s (slotPos v.dir i).location).length = 256 := hb
  rw [if_pos (by rw [hb']; omega), res_bind_ok]
  unfold DirectoryEntry.positionedWrite
  rw [hpos, res_bind_ok, (slotPos_toNat v.dir i).2]
  have hlen := slotAt_length h hi
  unfold slotAt at hlen ho
  rw [if_neg (by rw [show (slotPos v.dir i).location = v.dir.getD (i / 8) ⟨0, 0⟩ from rfl, hlen]; omega)]
  rw [show (slotPos v.dir i).location = v.dir.getD (i / 8) ⟨0, 0⟩ from rfl, ho]
  rfl

/-- The bytes an entry renders to, for an entry with linear extra bytes. -/
def rendered (e : DirectoryEntry) (x slot : List Byte) : List Byte :=
  slotBytes slot [e.attributes.toByte, e.firstSector.track, e.firstSector.sector]
    (e.filename ++ List.replicate (16 - e.filename.length) PADDING_BYTE) x
    [UInt8.ofNat (e.fileSize % 256), UInt8.ofNat (e.fileSize / 256)]

/-- Rendering an entry with linear extra bytes, and what the result says. -/
theorem toBytes_linear {slot x : List Byte} (hs : slot.length = 32) (hn : e.filename.length ≤ 16)
    (he : e.extra = .linear x) (hx : x.length = 9) :
    e.toBytes slot = .ok (rendered e x slot) ∧ (rendered e x slot).length = 32 ∧
    byteAt (rendered e x slot) 0 = byteAt slot 0 ∧ byteAt (rendered e x slot) 1 = byteAt slot 1 ∧
    byteAt (rendered e x slot) 2 = e.attributes.toByte ∧
    (∀ f : FileRec, f.attr = e.attributes.toByte → f.first = e.firstSector →
      f.name = fromPaddedBytes e.filename PADDING_BYTE → f.extra = x → f.blocks = e.fileSize →
      e.fileSize < 65536 → schemeOf e.attributes.toByte x = .linear →
      SlotBytes (rendered e x slot) f) := by
  have hex : e.extra.toBytes (slice slot 0x15 9) = .ok x := by
    rw [he]
    unfold Extra.toBytes copyFromSlice
    simp only []
    rw [if_pos]
    rw [length_slice _ _ _ (by omega)]
    omega
  have hnl : (e.filename ++ List.replicate (16 - e.filename.length) PADDING_BYTE).length = 16 := by
    simp; omega
  have hr : rendered e x slot = slotBytes slot
      [e.attributes.toByte, e.firstSector.track, e.firstSector.sector]
      (e.filename ++ List.replicate (16 - e.filename.length) PADDING_BYTE) x
      [UInt8.ofNat (e.fileSize % 256), UInt8.ofNat (e.fileSize / 256)] := rfl
  have hget := fun i => slotBytes_get hs (a := [e.attributes.toByte, e.firstSector.track,
    e.firstSector.sector]) rfl hnl hx (z := [UInt8.ofNat (e.fileSize % 256),
      UInt8.ofNat (e.fileSize / 256)]) rfl i
  obtain ⟨h1, h2, h3, h4⟩ := parse32_slotBytes (e := e) hs hn hx none hr
  refine ⟨toBytes_ok hs hn hex, h1, ?_, ?_, h2, ?_⟩
  · unfold byteAt; rw [hr, List.getD_eq_getElem?_getD, hget]; simp [List.getD_eq_getElem?_getD]
  · unfold byteAt; rw [hr, List.getD_eq_getElem?_getD, hget]; simp [List.getD_eq_getElem?_getD]
  · intro f fa ff fn fx fb hlt hsch
    unfold DirectoryEntry.parse32 at h4
    simp only [DirectoryEntry.mk.injEq, ENTRY_FILENAME_LENGTH] at h4
    obtain ⟨a, b, c, _, g, _, _, _⟩ := h4
    exact ⟨by rw [fa]; exact h2, by rw [ff]; exact b, by rw [fn]; exact c, by rw [fx]; exact h3,
      by rw [fb, g, Nat.mod_eq_of_lt hlt], by rw [fa, fx]; exact hsch⟩

end Cbm
