import Verif.Spec.Errors
import Verif.Lemmas.Entry
import Verif.Model.Error
/-!
# Byte codecs: C22, C23, C24, C40, C47, C50
-/

namespace Cbm

/-! ## C22 -/

/-- **C22** Decode then encode, all 256 bytes. -/
theorem C22_decode_encode (b : Byte) : (FileAttributes.fromByte b).toByte = b :=
  attr_toByte_fromByte b

/-- **C22** Encode then decode, every attribute value whose type code is one the
decoder can produce (`Unknown` with a code 5..15). -/
theorem C22_encode_decode (a : FileAttributes)
    (h : ∀ b, a.fileType = .unknown b → 5 ≤ b ∧ b ≤ 15) :
    FileAttributes.fromByte a.toByte = a := by
  obtain ⟨t, u, r, l, c⟩ := a
  cases t with
  | unknown b =>
    have h' := h b rfl
    clear h
    have key : ∀ b : Byte, 5 ≤ b ∧ b ≤ 15 → ∀ u r l c : Bool,
        FileAttributes.fromByte (FileAttributes.toByte ⟨.unknown b, u, r, l, c⟩)
          = ⟨.unknown b, u, r, l, c⟩ := by
      apply forall_byte
      decide +kernel
    exact key b h' u r l c
  | _ => clear h; revert u r l c; decide +kernel

/-- **C22** The meaning of the bits: low nibble is the type code, bit 7 closed,
bit 6 locked, bit 5 save-with-replace. -/
theorem C22_bits (b : Byte) :
    (FileAttributes.fromByte b).fileType.toByte = b &&& 0x0F ∧
    ((FileAttributes.fromByte b).closed = true ↔ b.toNat / 128 % 2 = 1) ∧
    ((FileAttributes.fromByte b).locked = true ↔ b.toNat / 64 % 2 = 1) ∧
    ((FileAttributes.fromByte b).saveWithReplace = true ↔ b.toNat / 32 % 2 = 1) ∧
    ((FileAttributes.fromByte b).unusedBit = true ↔ b.toNat / 16 % 2 = 1) ∧
    ((FileAttributes.fromByte b).isScratched = true ↔ b &&& 0x8F = 0) := by
  revert b; apply forall_byte; decide +kernel

example : FileAttributes.fromByte 0xC2 = ⟨.PRG, false, false, true, true⟩ := by decide

/-- The restriction in `C22_encode_decode` is needed: a type code above 15 spills
into the flag bits. -/
example : FileAttributes.fromByte (FileAttributes.toByte ⟨.unknown 0x82, false, false, false, false⟩)
    = ⟨.PRG, false, false, false, true⟩ := by decide

/-! ## C24 -/

/-- **C24** A name of at most `n` bytes that does not end in the pad byte comes
back unchanged from a padded field of `n` bytes. -/
theorem C24_name_roundtrip (name : Petscii) (n : Nat) (pad : Byte) (hn : name.length ≤ n)
    (hl : name.getLast? ≠ some pad) :
    ∃ field, writeBytesWithPadding name n pad = some field ∧ field.length = n ∧
      fromPaddedBytes field pad = name := by
  refine ⟨name ++ List.replicate (n - name.length) pad, ?_, by simp; omega, ?_⟩
  · unfold writeBytesWithPadding; rw [if_neg (by omega)]
  · rw [fromPadded_pad, fromPadded_of_last _ _ hl]

/-- **C24** In general the trailing pad bytes of the name are lost, and nothing
else: the name is what is read followed by pad bytes. -/
theorem C24_name_stripped (name : Petscii) (n : Nat) (pad : Byte) (hn : name.length ≤ n) :
    ∃ field, writeBytesWithPadding name n pad = some field ∧
      (fromPaddedBytes field pad).getLast? ≠ some pad ∧
      ∃ k, name = fromPaddedBytes field pad ++ List.replicate k pad := by
  refine ⟨name ++ List.replicate (n - name.length) pad, ?_, fromPadded_last _ _, ?_⟩
  · unfold writeBytesWithPadding; rw [if_neg (by omega)]
  · rw [fromPadded_pad]
    have := writePadded_fromPadded name pad
    unfold writeBytesWithPadding at this
    split at this
    · cases this
    · simp only [Option.some.injEq] at this
      exact ⟨_, this.symm⟩

/-- **C24** Too long a name is rejected. -/
theorem C24_name_too_long (name : Petscii) (n : Nat) (pad : Byte) (hn : n < name.length) :
    writeBytesWithPadding name n pad = none := by
  unfold writeBytesWithPadding; rw [if_pos (by omega)]

example : ([0x41, 0xA0, 0x42] : Petscii).length ≤ 16 ∧
    ([0x41, 0xA0, 0x42] : Petscii).getLast? ≠ some 0xA0 := by decide

/-- Two different names that are stored identically. -/
example : writeBytesWithPadding [0x41] 16 0xA0 = writeBytesWithPadding [0x41, 0xA0] 16 0xA0 := by
  decide

/-! ## C23 -/

/-- **C23** Rewriting a parsed entry into the slot it was read from changes no
byte. -/
theorem C23_rewrite_identity (slot : List Byte) (h : slot.length = 32) (p : Option Position) :
    ∃ e, DirectoryEntry.parse slot p = .ok e ∧ e.toBytes slot = .ok slot := by
  refine ⟨DirectoryEntry.parse32 slot p, ?_, ?_⟩
  · unfold DirectoryEntry.parse; rw [if_pos h]
  have hxl : (slice slot 0x15 9).length = 9 := length_slice _ _ _ (by omega)
  have hname : (DirectoryEntry.parse32 slot p).filename
      ++ List.replicate (16 - (DirectoryEntry.parse32 slot p).filename.length) PADDING_BYTE
      = slice slot 5 16 ∧ (DirectoryEntry.parse32 slot p).filename.length ≤ 16 := by
    have h16 : (slice slot 5 16).length = 16 := length_slice _ _ _ (by omega)
    have := writePadded_fromPadded (slice slot 5 16) PADDING_BYTE
    unfold writeBytesWithPadding at this
    rw [h16] at this
    split at this
    · cases this
    · simp only [Option.some.injEq] at this
      exact ⟨this, by show (fromPaddedBytes (slice slot 5 16) PADDING_BYTE).length ≤ 16; omega⟩
  have get : ∀ o n, o + n ≤ 32 → slice slot o n = (List.range n).map fun i => byteAt slot (o + i) := by
    intro o n hon
    apply List.ext_getElem
    · rw [length_slice _ _ _ (by omega)]; simp
    · intro i hi hi'
      rw [length_slice _ _ _ (by omega)] at hi
      simp only [List.getElem_map, List.getElem_range]
      rw [byteAt_eq _ _ (by omega)]
      simp [slice]
  have hattr : [(DirectoryEntry.parse32 slot p).attributes.toByte,
      (DirectoryEntry.parse32 slot p).firstSector.track,
      (DirectoryEntry.parse32 slot p).firstSector.sector] = slice slot 2 3 := by
    rw [get 2 3 (by omega)]
    simp only [DirectoryEntry.parse32, attr_toByte_fromByte]
    rfl
  have hsize : [UInt8.ofNat ((DirectoryEntry.parse32 slot p).fileSize % 256),
      UInt8.ofNat ((DirectoryEntry.parse32 slot p).fileSize / 256)] = slice slot 0x1E 2 := by
    rw [get 0x1E 2 (by omega)]
    have h0 := (byteAt slot 0x1E).toNat_lt
    have h1 := (byteAt slot 0x1F).toNat_lt
    simp only [DirectoryEntry.parse32, show List.range 2 = [0, 1] from rfl, List.map_cons,
      List.map_nil, Nat.add_zero]
    rw [show ((byteAt slot 0x1F).toNat * 256 + (byteAt slot 0x1E).toNat) % 256
        = (byteAt slot 0x1E).toNat by omega,
      show ((byteAt slot 0x1F).toNat * 256 + (byteAt slot 0x1E).toNat) / 256
        = (byteAt slot 0x1F).toNat by omega]
    simp
  have hextra : (DirectoryEntry.parse32 slot p).extra.toBytes (slice slot 0x15 9)
      = .ok (slice slot 0x15 9) := by
    show (Extra.fromBytes (entryScheme slot) (slice slot 0x15 9)).toBytes (slice slot 0x15 9) = _
    generalize slice slot 0x15 9 = x at hxl
    have gx : ∀ o n, o + n ≤ 9 → slice x o n = (List.range n).map fun i => byteAt x (o + i) := by
      intro o n hon
      apply List.ext_getElem
      · rw [length_slice _ _ _ (by omega)]; simp
      · intro i hi hi'
        rw [length_slice _ _ _ (by omega)] at hi
        simp only [List.getElem_map, List.getElem_range]
        rw [byteAt_eq _ _ (by omega)]
        simp [slice]
    unfold Extra.fromBytes
    have hg : ∀ y, y = slice x 0 9 → Except.ok (ε := Fail) (splice x 0 y) = .ok x := by
      intro y hy
      rw [hy, splice_slice_self _ _ _ (by omega)]
    cases entryScheme slot
    · simp [Extra.toBytes, copyFromSlice]
    · simp only [Extra.toBytes]
      rw [if_pos (by simp; omega)]
      congr 1
      rw [show [byteAt x 0, byteAt x 1] = slice x 0 2 by rw [gx 0 2 (by omega)]; rfl,
        splice_slice_self _ _ _ (by omega),
        show x.drop 3 = slice x 3 6 by unfold slice; rw [List.take_of_length_le]; simp; omega,
        splice_slice_self _ _ _ (by omega)]
    · simp only [Extra.toBytes, structure_toByte_fromByte, geosType_toByte_fromByte]
      exact hg _ (by rw [gx 0 9 (by omega)]; rfl)
    · simp only [Extra.toBytes, structure_toByte_fromByte, geosType_toByte_fromByte]
      exact hg _ (by rw [gx 0 9 (by omega)]; rfl)
  rw [toBytes_ok h hname.2 hextra]
  rw [hname.1, hattr, hsize]
  unfold slotBytes
  congr 1
  rw [splice_slice_self _ _ _ (by omega), splice_slice_self _ _ _ (by omega),
    splice_slice_self _ _ _ (by omega), splice_slice_self _ _ _ (by omega)]

/-- The byte the file type is stored as, and whether it is one below four
(modulo eight), which GEOS files have. -/
def Spec.geosTypeCode (a : FileAttributes) : Prop := a.toByte &&& 0x07 < 4

/-- An entry value that is representable in a slot: the name fits and does not
end in the pad byte, the type code is one of 0..15, the size is a `u16`, and the
extra data agrees with the kind of file (`scheme`).  A linear entry must not look
like a GEOS entry; a relative entry's record length must already be in the slot,
because it is never written. -/
structure Spec.Representable (e : DirectoryEntry) (slot : List Byte) : Prop where
  name : e.filename.length ≤ 16
  nameEnd : e.filename.getLast? ≠ some PADDING_BYTE
  type : ∀ b, e.attributes.fileType = .unknown b → 5 ≤ b ∧ b ≤ 15
  size : e.fileSize < 65536
  border : e.geosBorder = false
  extra : match e.scheme, e.extra with
    | .linear, .linear u => u.length = 9 ∧ e.attributes.fileType ≠ .REL ∧
        (Spec.geosTypeCode e.attributes → byteAt u 2 ≤ 1 → byteAt u 2 = 0 ∧ byteAt u 3 = 0)
    | .relative, .relative r => e.attributes.fileType = .REL ∧ r.unused.length = 6 ∧
        byteAt slot 0x17 = r.recordLength
    | .geosSequential, .geos g => Spec.geosTypeCode e.attributes ∧ g.structure_ = .sequential ∧
        g.geosFileType ≠ .nonGEOS ∧ (∀ b, g.geosFileType = .undefined b → 15 ≤ b)
    | .geosVLIR, .geos g => Spec.geosTypeCode e.attributes ∧ g.structure_ = .vlir ∧
        (∀ b, g.geosFileType = .undefined b → 15 ≤ b)
    | _, _ => False

theorem geosType_fromByte_toByte (t : GEOSFileType) (h : ∀ b, t = .undefined b → 15 ≤ b) :
    GEOSFileType.fromByte t.toByte = t := by
  cases t with
  | undefined b =>
    have h' := h b rfl
    clear h
    revert h'; revert b
    apply forall_byte
    decide +kernel
  | _ => decide

theorem geosType_toByte_ne (t : GEOSFileType) (h : ∀ b, t = .undefined b → 15 ≤ b)
    (hn : t ≠ .nonGEOS) : t.toByte ≠ 0 := by
  cases t with
  | undefined b =>
    have := h b rfl
    simp only [GEOSFileType.toByte]
    intro hb; subst hb; exact absurd this (by decide)
  | nonGEOS => exact absurd rfl hn
  | _ => decide

theorem rel_not_geosCode : ∀ b : Byte, b &&& 0x07 < 4 → (FileAttributes.fromByte b).fileType ≠ .REL := by
  apply forall_byte; decide +kernel

/-- **C23** Parsing a slot after writing a representable entry into it returns
that entry (at the position it was written to). -/
theorem C23_write_parse (e : DirectoryEntry) (slot : List Byte) (hs : slot.length = 32)
    (h : Spec.Representable e slot) :
    ∃ out, e.toBytes slot = .ok out ∧ DirectoryEntry.parse out e.position = .ok e ∧
      slice out 0 2 = slice slot 0 2 := by
  obtain ⟨hname, hend, htype, hsize, hborder, hextra⟩ := h
  have hxl : (slice slot 0x15 9).length = 9 := length_slice _ _ _ (by omega)
  have hattr : FileAttributes.fromByte e.attributes.toByte = e.attributes :=
    C22_encode_decode _ htype
  have finish : ∀ x, e.extra.toBytes (slice slot 0x15 9) = .ok x →
      (∀ out : List Byte, byteAt out 2 = e.attributes.toByte → slice out 0x15 9 = x →
        entryScheme out = e.scheme) → Extra.fromBytes e.scheme x = e.extra →
      ∃ out, e.toBytes slot = .ok out ∧ DirectoryEntry.parse out e.position = .ok e ∧
        slice out 0 2 = slice slot 0 2 := by
    intro x hx hscheme hfrom
    have hx9 := extra_toBytes_length hxl hx
    obtain ⟨h0, h1, h2, h3⟩ := parse32_slotBytes hs hname hx9 e.position rfl
    refine ⟨_, toBytes_ok hs hname hx, ?_, ?_⟩
    · unfold DirectoryEntry.parse
      rw [if_pos h0, h3, hscheme _ h1 h2, hfrom, hattr, fromPadded_of_last _ _ hend,
        Nat.mod_eq_of_lt hsize, ← hborder]
    · have hnl : (e.filename ++ List.replicate (16 - e.filename.length) PADDING_BYTE).length = 16 := by
        simp; omega
      apply List.ext_getElem?; intro i
      rw [getElem?_slice, getElem?_slice, slotBytes_get hs rfl hnl hx9 rfl]
      split
      · rw [if_pos (by omega)]
      · rfl
  have hat : ∀ {out x : List Byte} (i : Nat), i < 9 → slice out 0x15 9 = x →
      byteAt out (0x15 + i) = byteAt x i := fun i hi hx => byteAt_of_slice hx hi
  have hrel : ∀ out : List Byte, byteAt out 2 = e.attributes.toByte →
      (FileAttributes.fromByte (byteAt out 2)).fileType = e.attributes.fileType := by
    intro out ho; rw [ho, hattr]
  cases hsc : e.scheme <;> cases hex : e.extra <;> rw [hsc, hex] at hextra <;>
    simp only at hextra
  · -- linear
    rename_i u
    obtain ⟨hu, hnr, hng⟩ := hextra
    refine finish u ?_ ?_ ?_
    · rw [hex]; simp only [Extra.toBytes, copyFromSlice]; rw [if_pos (by omega)]
    · intro out ho hx
      rw [hsc]
      unfold entryScheme
      rw [if_neg (by rw [hrel out ho]; exact hnr), if_neg]
      unfold isEntryGeos
      simp only [ENTRY_EXTRA_OFFSET, hat 2 (by omega) hx, hat 3 (by omega) hx, ho]
      intro hc
      simp only [Bool.and_eq_true, decide_eq_true_eq, Bool.or_eq_true, bne_iff_ne, ne_eq] at hc
      obtain ⟨⟨c1, c2⟩, c3⟩ := hc
      obtain ⟨z2, z3⟩ := hng c1 c3
      rcases c2 with c2 | c2
      · exact c2 z2
      · exact c2 z3
    · rw [hsc, hex]; rfl
  · -- relative
    rename_i r
    obtain ⟨ht, hu, hrl⟩ := hextra
    generalize hb : slice slot 0x15 9 = b at hxl
    have hb2 : byteAt b 2 = r.recordLength := by
      rw [← hrl, ← hb, byteAt_slice _ _ _ _ (by omega)]
    have hl1 : (splice b 0 [r.firstSideSector.track, r.firstSideSector.sector]).length = 9 := by
      rw [length_splice] <;> (try simp only [List.length_cons, List.length_nil]) <;> omega
    refine finish (splice (splice b 0 [r.firstSideSector.track, r.firstSideSector.sector]) 3 r.unused)
      ?_ ?_ ?_
    · rw [hex, hb]; simp only [Extra.toBytes]; rw [if_pos hu]
    · intro out ho _
      rw [hsc]; unfold entryScheme
      rw [if_pos (by rw [hrel out ho]; exact ht)]
    · rw [hsc, hex]
      simp only [Extra.fromBytes]
      rw [byteAt_splice _ _ _ _ (by omega), byteAt_splice _ _ _ _ (by omega),
        byteAt_splice _ _ _ _ (by omega), byteAt_splice _ _ _ _ (by omega),
        byteAt_splice _ _ _ _ (by omega), byteAt_splice _ _ _ _ (by omega), hb2]
      have : (splice (splice b 0 [r.firstSideSector.track, r.firstSideSector.sector]) 3
          r.unused).drop 3 = r.unused := by
        have h6 : (splice (splice b 0 [r.firstSideSector.track, r.firstSideSector.sector]) 3
          r.unused).length = 9 := by rw [length_splice] <;> omega
        rw [← slice_splice_same' (splice b 0 [r.firstSideSector.track, r.firstSideSector.sector])
          3 6 r.unused hu.symm (by omega)]
        rw [slice_splice_same' _ _ _ _ hu.symm (by omega)]
        have : ∀ y : List Byte, y.length = 9 → y.drop 3 = slice y 3 6 := by
          intro y hy; unfold slice; rw [List.take_of_length_le]; simp; omega
        rw [this _ h6, slice_splice_same' _ _ _ _ hu.symm (by omega)]
      rw [this]
      rfl
  · -- GEOS sequential
    rename_i g
    obtain ⟨hc, hst, hne, hty⟩ := hextra
    refine finish [g.infoBlock.track, g.infoBlock.sector, g.structure_.toByte,
      g.geosFileType.toByte, g.year, g.month, g.day, g.hour, g.minute] ?_ ?_ ?_
    · rw [hex]; simp only [Extra.toBytes]; rw [splice_zero_full _ _ (by simp; omega)]
    · intro out ho hx
      rw [hsc]; unfold entryScheme
      rw [if_neg (by rw [ho]; exact rel_not_geosCode _ hc), if_pos, if_neg]
      · unfold isEntryVlir
        rw [hat 2 (by omega) hx]; simp [byteAt, hst, GEOSFileStructure.toByte]
      · unfold isEntryGeos
        simp only [ENTRY_EXTRA_OFFSET, hat 2 (by omega) hx, hat 3 (by omega) hx, ho]
        have := geosType_toByte_ne _ hty hne
        unfold Spec.geosTypeCode at hc
        simp [byteAt, hst, GEOSFileStructure.toByte, this, hc]
    · rw [hsc, hex]
      simp only [Extra.fromBytes, byteAt, List.getD_cons_zero, List.getD_cons_succ,
        geosType_fromByte_toByte _ hty]
      rw [hst]
      simp [GEOSFileStructure.toByte, GEOSFileStructure.fromByte, ← hst]
  · -- GEOS VLIR
    rename_i g
    obtain ⟨hc, hst, hty⟩ := hextra
    refine finish [g.infoBlock.track, g.infoBlock.sector, g.structure_.toByte,
      g.geosFileType.toByte, g.year, g.month, g.day, g.hour, g.minute] ?_ ?_ ?_
    · rw [hex]; simp only [Extra.toBytes]; rw [splice_zero_full _ _ (by simp; omega)]
    · intro out ho hx
      rw [hsc]; unfold entryScheme
      rw [if_neg (by rw [ho]; exact rel_not_geosCode _ hc), if_pos, if_pos]
      · unfold isEntryVlir
        rw [hat 2 (by omega) hx]; simp [byteAt, hst, GEOSFileStructure.toByte]
      · unfold isEntryGeos
        simp only [ENTRY_EXTRA_OFFSET, hat 2 (by omega) hx, hat 3 (by omega) hx, ho]
        unfold Spec.geosTypeCode at hc
        simp [byteAt, hst, GEOSFileStructure.toByte, hc]
    · rw [hsc, hex]
      simp only [Extra.fromBytes, byteAt, List.getD_cons_zero, List.getD_cons_succ,
        geosType_fromByte_toByte _ hty]
      rw [hst]
      simp [GEOSFileStructure.toByte, GEOSFileStructure.fromByte, ← hst]

example : Spec.Representable
    { attributes := .fromByte 0x82, firstSector := ⟨17, 0⟩, filename := [0x41, 0x42],
      extra := .geos ⟨⟨1, 2⟩, .vlir, .application, 90, 1, 2, 3, 4⟩, fileSize := 300,
      position := some ⟨⟨18, 1⟩, 32, 32⟩, scheme := .geosVLIR, geosBorder := false }
    (List.replicate 32 0) := by
  have ht : (FileAttributes.fromByte 0x82).fileType = .PRG := by decide
  constructor <;> simp [ht, Spec.geosTypeCode, PADDING_BYTE] <;> decide

example : Spec.Representable
    { attributes := .fromByte 0x81, firstSector := ⟨17, 0⟩, filename := [0x41, 0x42],
      extra := .default, fileSize := 1,
      position := some ⟨⟨18, 1⟩, 32, 32⟩, scheme := .linear, geosBorder := false }
    (List.replicate 32 7) := by
  have ht : (FileAttributes.fromByte 0x81).fileType = .SEQ := by decide
  constructor <;> simp [ht, Spec.geosTypeCode, PADDING_BYTE, Extra.default] <;> decide

/-- The restriction on relative entries is needed: the record length is not
written. -/
theorem C23_record_length_dropped :
    ∃ (e : DirectoryEntry) (out : List Byte) (e' : DirectoryEntry),
      e.toBytes (List.replicate 32 0) = .ok out ∧ DirectoryEntry.parse out e.position = .ok e' ∧
      e.extra = .relative ⟨⟨17, 3⟩, 100, List.replicate 6 0⟩ ∧
      e'.extra = .relative ⟨⟨17, 3⟩, 0, List.replicate 6 0⟩ ∧ e'.attributes = e.attributes :=
  ⟨{ attributes := ⟨.REL, false, false, false, true⟩, firstSector := ⟨17, 0⟩, filename := [0x41],
     extra := .relative ⟨⟨17, 3⟩, 100, List.replicate 6 0⟩, fileSize := 1, position := none,
     scheme := .relative, geosBorder := false }, _, _, rfl, rfl, rfl, by decide +kernel, by decide +kernel⟩

/-! ## C40 -/

/-- Characters that have a PETSCII code. -/
def Spec.HasPetsciiCode (c : Nat) : Prop := ∃ b : Byte, petsciiToUnicodeChar b = c

theorem char_roundtrip (c : Nat) :
    (Spec.HasPetsciiCode c → petsciiToUnicodeChar (fromCharLossy c) = c) ∧
    (¬ Spec.HasPetsciiCode c → petsciiToUnicodeChar (fromCharLossy c) = 0xFFFD) := by
  have hlen : PETSCII_TO_CHAR_MAP.length = 256 := by decide +kernel
  unfold fromCharLossy
  cases hf : PETSCII_TO_CHAR_MAP.findIdx? (· == c) with
  | some p =>
    rw [List.findIdx?_eq_some_iff_getElem] at hf
    obtain ⟨hp, heq, _⟩ := hf
    have heq : PETSCII_TO_CHAR_MAP[p] = c := by simpa using heq
    have : petsciiToUnicodeChar (UInt8.ofNat p) = c := by
      unfold petsciiToUnicodeChar
      rw [UInt8.toNat_ofNat', Nat.mod_eq_of_lt (by omega)]
      rw [List.getD_eq_getElem?_getD, List.getElem?_eq_getElem hp]
      simpa using heq
    exact ⟨fun _ => this, fun h => absurd ⟨_, this⟩ h⟩
  | none =>
    rw [List.findIdx?_eq_none_iff] at hf
    refine ⟨fun h => ?_, fun _ => by decide +kernel⟩
    obtain ⟨b, hb⟩ := h
    exfalso
    unfold petsciiToUnicodeChar at hb
    have hlt : b.toNat < PETSCII_TO_CHAR_MAP.length := by rw [hlen]; exact b.toNat_lt
    rw [List.getD_eq_getElem?_getD, List.getElem?_eq_getElem hlt] at hb
    have := hf _ (List.getElem_mem hlt)
    simp at this hb
    exact this hb

/-- **C40** Unicode → PETSCII → Unicode keeps the length, keeps every
representable character, and replaces every other by U+FFFD. -/
theorem C40_string_roundtrip (s : List Nat) :
    (petsciiToString (fromStrLossy s)).length = s.length ∧
    ∀ (i : Nat) (c : Nat), s[i]? = some c →
      (Spec.HasPetsciiCode c → (petsciiToString (fromStrLossy s))[i]? = some c) ∧
      (¬ Spec.HasPetsciiCode c → (petsciiToString (fromStrLossy s))[i]? = some 0xFFFD) := by
  refine ⟨by simp [petsciiToString, fromStrLossy], fun i c hc => ?_⟩
  have : (petsciiToString (fromStrLossy s))[i]? = some (petsciiToUnicodeChar (fromCharLossy c)) := by
    simp [petsciiToString, fromStrLossy, hc]
  rw [this]
  exact ⟨fun h => by rw [(char_roundtrip c).1 h], fun h => by rw [(char_roundtrip c).2 h]⟩

/-- **C40** A second conversion changes nothing. -/
theorem C40_second_conversion (s : List Nat) :
    petsciiToString (fromStrLossy (petsciiToString (fromStrLossy s)))
      = petsciiToString (fromStrLossy s) := by
  unfold petsciiToString fromStrLossy
  simp only [List.map_map]
  apply List.map_congr_left
  intro c _
  exact (char_roundtrip _).1 ⟨_, rfl⟩

/-- The characters A–Z, 0–9 and space have codes, and the euro sign does not. -/
example : (∀ c ∈ [0x41, 0x5A, 0x30, 0x20], Spec.HasPetsciiCode c) ∧ ¬ Spec.HasPetsciiCode 0x20AC := by
  constructor
  · intro c hc
    simp only [List.mem_cons, List.not_mem_nil, or_false] at hc
    rcases hc with rfl | rfl | rfl | rfl
    · exact ⟨fromCharLossy 0x41, by decide +kernel⟩
    · exact ⟨fromCharLossy 0x5A, by decide +kernel⟩
    · exact ⟨fromCharLossy 0x30, by decide +kernel⟩
    · exact ⟨fromCharLossy 0x20, by decide +kernel⟩
  · rintro ⟨b, hb⟩
    revert hb; revert b
    apply forall_byte; decide +kernel

/-! ## C47 -/

/-- **C47** GEOS structure and type bytes survive decoding and encoding. -/
theorem C47_geos_codes (b : Byte) :
    (GEOSFileStructure.fromByte b).toByte = b ∧ (GEOSFileType.fromByte b).toByte = b :=
  ⟨structure_toByte_fromByte b, geosType_toByte_fromByte b⟩

/-- **C47** and different bytes decode to different values. -/
theorem C47_geos_codes_injective (a b : Byte) :
    (GEOSFileStructure.fromByte a = GEOSFileStructure.fromByte b → a = b) ∧
    (GEOSFileType.fromByte a = GEOSFileType.fromByte b → a = b) := by
  constructor
  · intro h; rw [← structure_toByte_fromByte a, h, structure_toByte_fromByte]
  · intro h; rw [← geosType_toByte_fromByte a, h, geosType_toByte_fromByte]

example : GEOSFileType.fromByte 6 = .application ∧ GEOSFileStructure.fromByte 1 = .vlir := by decide

/-! ## C50 -/

/-- **C50** A library error survives the conversion to `io::Error` and back. -/
theorem C50_error_roundtrip (e : DiskError) :
    DiskError.fromIo e.toIo = e ∧ DiskError.fromIoError e.toIo = some e := by
  cases e <;> exact ⟨rfl, rfl⟩

/-- **C50** Errors that did not come from the library are `Unknown`, or `None`. -/
theorem C50_foreign_errors (e : IoError) (h : ∀ d, e.payload ≠ .disk d) :
    DiskError.fromIo e = .unknown ∧ DiskError.fromIoError e = none := by
  obtain ⟨k, p⟩ := e
  cases p with
  | disk d => exact absurd rfl (h d)
  | _ => exact ⟨rfl, rfl⟩

/-- **C50** The `io::ErrorKind` of each library error. -/
theorem C50_kinds (e : DiskError) :
    e.toIo.kind =
      if e = .notFound then .notFound
      else if e ∈ [.unknown, .readOnly, .diskFull] then .other
      else if e ∈ [.invalidHeader, .invalidBAM, .invalidLayout, .unformatted, .chainLoop,
        .invalidChainLink, .invalidRelativeFile, .unknownFormat, .geosInfoNotFound,
        .recordTooLarge] then .invalidData
      else .invalidInput := by
  cases e <;> rfl

/-- The error with a given text. -/
def errorOf (text : List Char) : Option DiskError :=
  [DiskError.unknown, .readOnly, .invalidLocation, .invalidOffset, .invalidHeader, .invalidBAM, .invalidLayout, .invalidRecord, .readOverflow, .readUnderrun,
    .writeUnderrun, .unformatted, .notFound, .chainLoop, .invalidChainLink, .invalidRelativeFile, .unpositioned, .filenameTooLong,
    .fileExists, .diskFull, .invalidRecordIndex, .unknownFormat, .geosInfoNotFound, .recordTooLarge, .nonLinearFile].find? fun e => e.message.toList == text

/-- **C50** The text of an error is what the documentation says it means, and no two errors have the same text. -/
theorem C50_texts (e : DiskError) :
    e.message.toList = Spec.inSentence (Spec.documented e) ∧ ∀ e' : DiskError, e'.message = e.message → e' = e := by
  have key : ∀ a : DiskError, errorOf a.message.toList = some a := by
    intro a
    cases a <;> decide +kernel
  refine ⟨by cases e <;> decide +kernel, fun e' h => ?_⟩
  have := key e'
  rw [h, key e] at this
  exact (Option.some.inj this).symm

example : (DiskError.toIo .chainLoop) = ⟨.invalidData, .disk .chainLoop⟩ := rfl

end Cbm
