import Verif.Lemmas.Slice
import Verif.Model.Directory
/-!
# Lemmas about attribute bytes, padded names and directory slots
-/

namespace Cbm

theorem forall_byte {P : Byte → Prop} (h : ∀ n : Fin 256, P (UInt8.ofNat n)) (b : Byte) : P b := by
  have := h ⟨b.toNat, b.toNat_lt⟩
  simpa using this

theorem attr_toByte_fromByte (b : Byte) : (FileAttributes.fromByte b).toByte = b := by
  revert b; apply forall_byte; decide +kernel

theorem structure_toByte_fromByte (b : Byte) :
    (GEOSFileStructure.fromByte b).toByte = b := by
  revert b; apply forall_byte; decide +kernel

theorem geosType_toByte_fromByte (b : Byte) : (GEOSFileType.fromByte b).toByte = b := by
  revert b; apply forall_byte; decide +kernel

theorem writePadded_fromPadded (bs : List Byte) (pad : Byte) :
    writeBytesWithPadding (fromPaddedBytes bs pad) bs.length pad = some bs := by
  have key : ∀ rs : List Byte, rs = List.replicate (rs.length - (rs.dropWhile (· == pad)).length) pad
      ++ rs.dropWhile (· == pad) ∧ (rs.dropWhile (· == pad)).length ≤ rs.length := by
    intro rs
    induction rs with
    | nil => simp
    | cons a t ih =>
      obtain ⟨ih, il⟩ := ih
      rw [List.dropWhile_cons]
      split
      · rename_i h
        have : a = pad := by simpa using h
        subst this
        refine ⟨?_, by simp; omega⟩
        rw [show (a :: t).length - (t.dropWhile (· == a)).length
          = (t.length - (t.dropWhile (· == a)).length) + 1 by simp; omega]
        rw [List.replicate_succ, List.cons_append, ← ih]
      · simp
  obtain ⟨k1, k2⟩ := key bs.reverse
  unfold writeBytesWithPadding fromPaddedBytes
  rw [if_neg (by simp at k2 ⊢; omega)]
  generalize List.dropWhile (fun x => x == pad) bs.reverse = dd at k1 k2 ⊢
  have := congrArg List.reverse k1
  rw [List.reverse_reverse, List.reverse_append, List.reverse_replicate, List.length_reverse] at this
  rw [List.length_reverse, ← this]

theorem fromPadded_pad (p : List Byte) (n : Nat) (pad : Byte) :
    fromPaddedBytes (p ++ List.replicate n pad) pad = fromPaddedBytes p pad := by
  unfold fromPaddedBytes
  rw [List.reverse_append, List.reverse_replicate]
  congr 1
  induction n with
  | zero => simp
  | succ n ih => rw [List.replicate_succ, List.cons_append, List.dropWhile_cons, if_pos (by simp), ih]

theorem fromPadded_of_last (p : List Byte) (pad : Byte) (h : p.getLast? ≠ some pad) :
    fromPaddedBytes p pad = p := by
  unfold fromPaddedBytes
  rcases hr : p.reverse with _ | ⟨a, t⟩
  · simp at hr; simp [hr]
  · rw [List.dropWhile_cons]
    have : a ≠ pad := by
      intro e
      apply h
      rw [← List.head?_reverse, hr, e]; rfl
    rw [if_neg (by simpa using this), ← hr, List.reverse_reverse]

theorem fromPadded_last (p : List Byte) (pad : Byte) : (fromPaddedBytes p pad).getLast? ≠ some pad := by
  unfold fromPaddedBytes
  rw [List.getLast?_reverse]
  intro h
  have := List.head?_dropWhile_not (· == pad) p.reverse
  rw [h] at this
  simp at this

theorem fromPadded_length (p : List Byte) (pad : Byte) : (fromPaddedBytes p pad).length ≤ p.length := by
  unfold fromPaddedBytes
  rw [List.length_reverse]
  have := (List.dropWhile_sublist (p := (· == pad)) (l := p.reverse)).length_le
  simpa using this

theorem fromPadded_idem (p : List Byte) (pad : Byte) :
    fromPaddedBytes (fromPaddedBytes p pad) pad = fromPaddedBytes p pad :=
  fromPadded_of_last _ _ (fromPadded_last _ _)

/-! ## Slots -/

/-- The nested updates `DirectoryEntry.toBytes` makes to a slot. -/
def slotBytes (slot a n x z : List Byte) : List Byte :=
  splice (splice (splice (splice slot 2 a) 5 n) 0x15 x) 0x1E z

section slot
variable {slot a n x z : List Byte} (hs : slot.length = 32) (ha : a.length = 3)
  (hn : n.length = 16) (hx : x.length = 9) (hz : z.length = 2)
include hs ha hn hx hz

theorem slotBytes_length : (slotBytes slot a n x z).length = 32 := by
  have h1 : (splice slot 2 a).length = 32 := by rw [length_splice] <;> omega
  have h2 : (splice (splice slot 2 a) 5 n).length = 32 := by rw [length_splice] <;> omega
  have h3 : (splice (splice (splice slot 2 a) 5 n) 0x15 x).length = 32 := by
    rw [length_splice] <;> omega
  unfold slotBytes
  rw [length_splice] <;> omega

theorem slotBytes_get (i : Nat) : (slotBytes slot a n x z)[i]? =
    if i < 2 then slot[i]? else if i < 5 then a[i - 2]? else if i < 0x15 then n[i - 5]?
    else if i < 0x1E then x[i - 0x15]? else z[i - 0x1E]? := by
  have h1 : (splice slot 2 a).length = 32 := by rw [length_splice] <;> omega
  have h2 : (splice (splice slot 2 a) 5 n).length = 32 := by rw [length_splice] <;> omega
  have h3 : (splice (splice (splice slot 2 a) 5 n) 0x15 x).length = 32 := by
    rw [length_splice] <;> omega
  unfold slotBytes
  rw [getElem?_splice _ _ _ _ (by omega), getElem?_splice _ _ _ _ (by omega),
    getElem?_splice _ _ _ _ (by omega), getElem?_splice _ _ _ _ (by omega)]
  rw [ha, hn, hx, hz]
  repeat' split
  all_goals first | rfl | omega | skip
  rw [List.getElem?_eq_none (by omega), List.getElem?_eq_none (by omega)]

theorem slotBytes_attr : slice (slotBytes slot a n x z) 2 3 = a := by
  apply List.ext_getElem?; intro i
  rw [getElem?_slice, slotBytes_get hs ha hn hx hz]
  repeat' split
  all_goals first | omega | (congr 1; omega) | (rw [List.getElem?_eq_none (by omega)])

theorem slotBytes_name : slice (slotBytes slot a n x z) 5 16 = n := by
  apply List.ext_getElem?; intro i
  rw [getElem?_slice, slotBytes_get hs ha hn hx hz]
  repeat' split
  all_goals first | omega | (congr 1; omega) | (rw [List.getElem?_eq_none (by omega)])

theorem slotBytes_extra : slice (slotBytes slot a n x z) 0x15 9 = x := by
  apply List.ext_getElem?; intro i
  rw [getElem?_slice, slotBytes_get hs ha hn hx hz]
  repeat' split
  all_goals first | omega | (congr 1; omega) | (rw [List.getElem?_eq_none (by omega)])

theorem slotBytes_size : slice (slotBytes slot a n x z) 0x1E 2 = z := by
  apply List.ext_getElem?; intro i
  rw [getElem?_slice, slotBytes_get hs ha hn hx hz]
  repeat' split
  all_goals first | omega | (congr 1; omega) | (rw [List.getElem?_eq_none (by omega)])

end slot

theorem slot_extra_untouched {slot a n : List Byte} (hs : slot.length = 32) (ha : a.length = 3)
    (hn : n.length = 16) : slice (splice (splice slot 2 a) 5 n) 0x15 9 = slice slot 0x15 9 := by
  have h1 : (splice slot 2 a).length = 32 := by rw [length_splice] <;> omega
  rw [slice_splice_disjoint _ _ _ _ _ (by omega) (by omega),
    slice_splice_disjoint _ _ _ _ _ (by omega) (by omega)]

theorem byteAt_of_slice {xs ys : List Byte} {o n i : Nat} (h : slice xs o n = ys) (hi : i < n) :
    byteAt xs (o + i) = byteAt ys i := by
  rw [← h, byteAt_slice _ _ _ _ hi]

theorem toBytes_eq {e : DirectoryEntry} {slot out : List Byte} (hout : e.toBytes slot = .ok out) :
    slot.length = 32 ∧ e.filename.length ≤ 16 ∧
    ∃ x, e.extra.toBytes (slice slot 0x15 9) = .ok x ∧
      out = slotBytes slot [e.attributes.toByte, e.firstSector.track, e.firstSector.sector]
        (e.filename ++ List.replicate (16 - e.filename.length) PADDING_BYTE) x
        [UInt8.ofNat (e.fileSize % 256), UInt8.ofNat (e.fileSize / 256)] := by
  unfold DirectoryEntry.toBytes at hout
  split at hout
  · cases hout
  rename_i hs
  simp only [ENTRY_SIZE, ne_eq, Decidable.not_not] at hs
  simp only [writeBytesWithPadding, ENTRY_FILENAME_LENGTH] at hout
  split at hout
  · cases hout
  rename_i name hname
  split at hname
  · cases hname
  rename_i hlen
  cases hname
  have hsl : slice (splice (splice slot 2 [e.attributes.toByte, e.firstSector.track,
      e.firstSector.sector]) 5 (e.filename ++ List.replicate (16 - e.filename.length) PADDING_BYTE))
      0x15 9 = slice slot 0x15 9 :=
      slot_extra_untouched hs rfl (by simp; omega)
  simp only [ENTRY_EXTRA_OFFSET, EXTRA_SIZE] at hout
  rw [hsl] at hout
  refine ⟨hs, by omega, ?_⟩
  cases hx : e.extra.toBytes (slice slot 0x15 9) with
  | error er => rw [hx] at hout; cases hout
  | ok x => rw [hx] at hout; cases hout; exact ⟨x, rfl, rfl⟩

theorem toBytes_ok {e : DirectoryEntry} {slot x : List Byte} (hs : slot.length = 32)
    (hn : e.filename.length ≤ 16) (hx : e.extra.toBytes (slice slot 0x15 9) = .ok x) :
    e.toBytes slot = .ok (slotBytes slot
        [e.attributes.toByte, e.firstSector.track, e.firstSector.sector]
        (e.filename ++ List.replicate (16 - e.filename.length) PADDING_BYTE) x
        [UInt8.ofNat (e.fileSize % 256), UInt8.ofNat (e.fileSize / 256)]) := by
  cases h : e.toBytes slot with
  | ok out =>
    obtain ⟨_, _, x', hx', rfl⟩ := toBytes_eq h
    rw [hx] at hx'; cases hx'; rfl
  | error er =>
    exfalso
    unfold DirectoryEntry.toBytes at h
    rw [if_neg (by simp [hs])] at h
    simp only [writeBytesWithPadding, ENTRY_FILENAME_LENGTH] at h
    rw [if_neg (by omega)] at h
    have hsl : slice (splice (splice slot 2 [e.attributes.toByte, e.firstSector.track,
        e.firstSector.sector]) 5 (e.filename ++ List.replicate (16 - e.filename.length) PADDING_BYTE))
        0x15 9 = slice slot 0x15 9 :=
      slot_extra_untouched hs rfl (by simp; omega)
    simp only [ENTRY_EXTRA_OFFSET, EXTRA_SIZE] at h
    rw [hsl, hx] at h
    cases h

theorem extra_toBytes_length {e : Extra} {b x : List Byte} (hb : b.length = 9)
    (h : e.toBytes b = .ok x) : x.length = 9 := by
  unfold Extra.toBytes at h
  split at h
  · unfold copyFromSlice at h
    split at h
    · cases h; omega
    · cases h
  · split at h
    · rename_i hu
      cases h
      rename_i r
      have h1 : (splice b 0 [r.firstSideSector.track, r.firstSideSector.sector]).length = 9 := by
        rw [length_splice] <;> (try simp only [List.length_cons, List.length_nil]) <;> omega
      rw [length_splice] <;> omega
    · cases h
  · cases h
    rw [length_splice] <;> (try simp only [List.length_cons, List.length_nil]) <;> omega

theorem parse32_of_slices {out a n x z : List Byte} (h1 : slice out 2 3 = a)
    (h2 : slice out 5 16 = n) (h3 : slice out 0x15 9 = x) (h4 : slice out 0x1E 2 = z)
    (p : Option Position) :
    DirectoryEntry.parse32 out p =
      { attributes := .fromByte (byteAt a 0)
        firstSector := ⟨byteAt a 1, byteAt a 2⟩
        filename := fromPaddedBytes n PADDING_BYTE
        extra := .fromBytes (entryScheme out) x
        fileSize := (byteAt z 1).toNat * 256 + (byteAt z 0).toNat
        position := p
        scheme := entryScheme out
        geosBorder := false } := by
  have b2 : byteAt out 2 = byteAt a 0 := byteAt_of_slice h1 (i := 0) (by omega)
  have b3 : byteAt out 3 = byteAt a 1 := byteAt_of_slice h1 (i := 1) (by omega)
  have b4 : byteAt out 4 = byteAt a 2 := byteAt_of_slice h1 (i := 2) (by omega)
  have b30 : byteAt out 0x1E = byteAt z 0 := byteAt_of_slice h4 (i := 0) (by omega)
  have b31 : byteAt out 0x1F = byteAt z 1 := byteAt_of_slice h4 (i := 1) (by omega)
  unfold DirectoryEntry.parse32
  simp only [ENTRY_EXTRA_OFFSET, EXTRA_SIZE, ENTRY_FILENAME_LENGTH]
  rw [b2, b3, b4, b30, b31, h2, h3]

/-- What a slot written by `DirectoryEntry.toBytes` parses as, up to the
interpretation of the extra bytes. -/
theorem parse32_slotBytes {e : DirectoryEntry} {slot x out : List Byte} (hs : slot.length = 32)
    (hn : e.filename.length ≤ 16) (hx : x.length = 9) (p : Option Position)
    (hout : out = slotBytes slot [e.attributes.toByte, e.firstSector.track, e.firstSector.sector]
        (e.filename ++ List.replicate (16 - e.filename.length) PADDING_BYTE) x
        [UInt8.ofNat (e.fileSize % 256), UInt8.ofNat (e.fileSize / 256)]) :
    out.length = 32 ∧ byteAt out 2 = e.attributes.toByte ∧
    slice out 0x15 9 = x ∧
    DirectoryEntry.parse32 out p =
      { attributes := .fromByte e.attributes.toByte
        firstSector := e.firstSector
        filename := fromPaddedBytes e.filename PADDING_BYTE
        extra := .fromBytes (entryScheme out) x
        fileSize := e.fileSize % 65536
        position := p
        scheme := entryScheme out
        geosBorder := false } := by
  have hnl : (e.filename ++ List.replicate (16 - e.filename.length) PADDING_BYTE).length = 16 := by
    simp; omega
  have h0 := hout ▸ slotBytes_length hs (a := [e.attributes.toByte, e.firstSector.track,
    e.firstSector.sector]) rfl hnl hx (z := [UInt8.ofNat (e.fileSize % 256),
      UInt8.ofNat (e.fileSize / 256)]) rfl
  have h1 := hout ▸ slotBytes_attr hs (a := [e.attributes.toByte, e.firstSector.track,
    e.firstSector.sector]) rfl hnl hx (z := [UInt8.ofNat (e.fileSize % 256),
      UInt8.ofNat (e.fileSize / 256)]) rfl
  have h2 := hout ▸ slotBytes_name hs (a := [e.attributes.toByte, e.firstSector.track,
    e.firstSector.sector]) rfl hnl hx (z := [UInt8.ofNat (e.fileSize % 256),
      UInt8.ofNat (e.fileSize / 256)]) rfl
  have h3 := hout ▸ slotBytes_extra hs (a := [e.attributes.toByte, e.firstSector.track,
    e.firstSector.sector]) rfl hnl hx (z := [UInt8.ofNat (e.fileSize % 256),
      UInt8.ofNat (e.fileSize / 256)]) rfl
  have h4 := hout ▸ slotBytes_size hs (a := [e.attributes.toByte, e.firstSector.track,
    e.firstSector.sector]) rfl hnl hx (z := [UInt8.ofNat (e.fileSize % 256),
      UInt8.ofNat (e.fileSize / 256)]) rfl
  refine ⟨h0, byteAt_of_slice h1 (i := 0) (by omega), h3, ?_⟩
  rw [parse32_of_slices h1 h2 h3 h4, fromPadded_pad]
  congr 1
  simp only [byteAt, List.getD_cons_zero, List.getD_cons_succ, UInt8.toNat_ofNat']
  omega

end Cbm
