import Verif.Lemmas.Display
import Verif.Lemmas.Says
import Verif.Lemmas.Text
import Verif.Lemmas.Listed
import Verif.Props.Commands
/-!
# C67: directory listings
-/

namespace Cbm

open Spec

/-! ## C67 -/

theorem type_text (b : Byte) : (FileAttributes.fromByte b).fileType.text = typeName (b.toNat % 16) := by
  have h : ∀ n : Fin 256, (FileAttributes.fromByte (UInt8.ofNat n)).fileType.text =
      typeName ((UInt8.ofNat n).toNat % 16) := by decide +kernel
  exact forall_byte (P := fun b => (FileAttributes.fromByte b).fileType.text = typeName (b.toNat % 16)) h b

theorem attribute_bits (b : Byte) : (FileAttributes.fromByte b).closed = b.toNat.testBit 7 ∧
    (FileAttributes.fromByte b).locked = b.toNat.testBit 6 ∧
    (FileAttributes.fromByte b).saveWithReplace = b.toNat.testBit 5 ∧
    (FileAttributes.fromByte b).toByte = b := by
  have h : ∀ n : Fin 256, (FileAttributes.fromByte (UInt8.ofNat n)).closed = (UInt8.ofNat n).toNat.testBit 7 ∧
      (FileAttributes.fromByte (UInt8.ofNat n)).locked = (UInt8.ofNat n).toNat.testBit 6 ∧
      (FileAttributes.fromByte (UInt8.ofNat n)).saveWithReplace = (UInt8.ofNat n).toNat.testBit 5 ∧
      (FileAttributes.fromByte (UInt8.ofNat n)).toByte = UInt8.ofNat n := by decide +kernel
  exact forall_byte (P := fun b => (FileAttributes.fromByte b).closed = b.toNat.testBit 7 ∧
    (FileAttributes.fromByte b).locked = b.toNat.testBit 6 ∧
    (FileAttributes.fromByte b).saveWithReplace = b.toNat.testBit 5 ∧
    (FileAttributes.fromByte b).toByte = b) h b

/-- An entry read from a slot carries the row of the slot. -/
theorem C67_row (slot : List Byte) (pos : Option Position) (e : DirectoryEntry) (border : Bool)
    (h : DirectoryEntry.parse slot pos = .ok e) :
    Row.of { e with geosBorder := border } = Row.ofSlot slot border := by
  unfold DirectoryEntry.parse at h
  split at h
  · injection h with h
    subst h
    obtain ⟨h1, h2, h3, h4⟩ := attribute_bits (byteAt slot 2)
    simp only [Row.of, Row.ofSlot, DirectoryEntry.parse32, h1, h2, h3, h4]
    rw [show (byteAt slot 31).toNat * 256 + (byteAt slot 30).toNat =
      (byteAt slot 30).toNat + 256 * (byteAt slot 31).toNat from by omega]
    rfl
  · cases h

theorem parse_fields {slot : List Byte} {pos : Option Position} {e : DirectoryEntry}
    (h : DirectoryEntry.parse slot pos = .ok e) : e = DirectoryEntry.parse32 slot pos := by
  unfold DirectoryEntry.parse at h
  split at h
  · injection h with h
    exact h.symm
  · cases h

/-- The entry can be printed from its row. -/
theorem text_of_row {e e' : DirectoryEntry} {b b' : Byte} (ha : e.attributes = .fromByte b)
    (ha' : e'.attributes = .fromByte b') : e.text false = e'.text false ↔ Row.of e = Row.of e' := by
  have hb := attribute_bits b
  have hb' := attribute_bits b'
  have ht : e.attributes.fileType.text = typeName (e.attributes.toByte.toNat % 16) := by
    rw [ha, hb.2.2.2, type_text]
  have ht' : e'.attributes.fileType.text = typeName (e'.attributes.toByte.toNat % 16) := by
    rw [ha', hb'.2.2.2, type_text]
  constructor
  · intro h
    obtain ⟨h1, h2, h3, h4, h5, h6, h7, -⟩ := entry_inj h
    rw [petsciiText_eq, petsciiText_eq] at h2
    rw [ht, ht'] at h4
    simp only [Row.of, h1, h2, h3, h4, h5, h6, h7]
  · intro h
    simp only [Row.of, Row.mk.injEq] at h
    obtain ⟨h1, h2, h3, h4, h5, h6, h7⟩ := h
    rw [← petsciiText_eq, ← petsciiText_eq] at h2
    rw [← ht, ← ht'] at h3
    have h4 : e.attributes.closed = e'.attributes.closed := by
      cases hc : e.attributes.closed <;> cases hc' : e'.attributes.closed <;> rw [hc, hc'] at h4 <;>
        first | rfl | cases h4
    simp only [DirectoryEntry.text, FileAttributes.text, h1, h2, h3, h4, h5, h6, h7]
    rw [if_neg Bool.false_ne_true, if_neg Bool.false_ne_true]

/-- The line is determined by the row. -/
theorem line_of_row {e : DirectoryEntry} {b : Byte} (ha : e.attributes = .fromByte b) :
    e.text false = (Row.of e).line := by
  have ht : e.attributes.fileType.text = typeName (e.attributes.toByte.toNat % 16) := by
    rw [ha, (attribute_bits b).2.2.2, type_text]
  unfold DirectoryEntry.text FileAttributes.text Row.line Row.of
  rw [if_neg Bool.false_ne_true, List.append_nil, ht, petsciiText_eq,
    show lit " (GEOS border)" = " (GEOS border)".toList from by decide +kernel]
  simp only [List.append_assoc]
  refine congrArg _ (congrArg _ (congrArg _ ?_))
  cases e.attributes.closed <;> cases e.attributes.locked <;> cases e.attributes.saveWithReplace <;> rfl

/-- The line of the listing, from the bytes of the slot. -/
theorem C67_line (slot : List Byte) (pos : Option Position) (e : DirectoryEntry) (border : Bool)
    (h : DirectoryEntry.parse slot pos = .ok e) :
    ({ e with geosBorder := border } : DirectoryEntry).text false = (Row.ofSlot slot border).line := by
  rw [← C67_row slot pos e border h]
  refine line_of_row (b := byteAt slot 2) ?_
  rw [parse_fields h]
  rfl

/-- Two directory slots are shown alike exactly if they agree on the size, the characters
of the name, the type, the three flags and the place on the border. -/
theorem C67_unambiguous (slot slot' : List Byte) (pos pos' : Option Position)
    (e e' : DirectoryEntry) (border border' : Bool)
    (h : DirectoryEntry.parse slot pos = .ok e) (h' : DirectoryEntry.parse slot' pos' = .ok e') :
    ({ e with geosBorder := border } : DirectoryEntry).text false =
        ({ e' with geosBorder := border' } : DirectoryEntry).text false ↔
      Row.ofSlot slot border = Row.ofSlot slot' border' := by
  rw [← C67_row slot pos e border h, ← C67_row slot' pos' e' border' h']
  exact text_of_row (b := byteAt slot 2) (b' := byteAt slot' 2) (by rw [parse_fields h]; rfl)
    (by rw [parse_fields h']; rfl)

theorem rel_type (b : Byte) : (FileAttributes.fromByte b).fileType = .REL ↔ b.toNat % 16 = 4 :=
  forall_byte (P := fun b => (FileAttributes.fromByte b).fileType = .REL ↔ b.toNat % 16 = 4)
    (by decide +kernel) b

theorem low_type (b : Byte) : (b &&& 0x07) < 4 ↔ b.toNat % 16 % 8 < 4 :=
  forall_byte (P := fun b => (b &&& 0x07) < 4 ↔ b.toNat % 16 % 8 < 4) (by decide +kernel) b

theorem le_one (b : Byte) : b ≤ 1 ↔ b.toNat ≤ 1 := UInt8.le_iff_toNat_le

theorem parse_more (slot : List Byte) (pos : Option Position) :
    (DirectoryEntry.parse32 slot pos).extra.more = More.ofSlot slot := by
  show (Extra.fromBytes (entryScheme slot) (slice slot 21 9)).more = _
  unfold entryScheme isEntryGeos More.ofSlot
  simp only []
  by_cases h : (byteAt slot 2).toNat % 16 = 4
  · rw [if_pos ((rel_type _).mpr h), if_pos h]
    simp only [Extra.fromBytes, Extra.more]
    rw [byteAt_slice _ _ _ _ (by omega : 0 < 9), byteAt_slice _ _ _ _ (by omega : 1 < 9),
      byteAt_slice _ _ _ _ (by omega : 2 < 9)]
  · rw [if_neg (fun hh => h ((rel_type _).mp hh)), if_neg h]
    by_cases hg : (byteAt slot 2).toNat % 16 % 8 < 4 ∧
        (byteAt slot 23 ≠ 0 ∨ byteAt slot 24 ≠ 0) ∧ (byteAt slot 23).toNat ≤ 1
    · rw [if_pos hg, if_pos (by
        simp only [Bool.and_eq_true, decide_eq_true_eq, Bool.or_eq_true, bne_iff_ne, ne_eq]
        exact ⟨⟨(low_type _).mpr hg.1, hg.2.1⟩, (le_one _).mpr hg.2.2⟩)]
      have : ∀ x : List Byte, (Extra.fromBytes (if isEntryVlir slot then .geosVLIR else .geosSequential) x).more =
          .geos (byteAt x 2) (byteAt x 3) (byteAt x 4) (byteAt x 5) (byteAt x 6) (byteAt x 7) (byteAt x 8) := by
        intro x
        cases isEntryVlir slot <;>
          simp only [Extra.fromBytes, Extra.more, structure_toByte_fromByte, geosType_toByte_fromByte, if_true,
            Bool.false_eq_true, if_false]
      rw [this]
      rw [byteAt_slice _ _ _ _ (by omega : 2 < 9), byteAt_slice _ _ _ _ (by omega : 3 < 9),
        byteAt_slice _ _ _ _ (by omega : 4 < 9), byteAt_slice _ _ _ _ (by omega : 5 < 9),
        byteAt_slice _ _ _ _ (by omega : 6 < 9), byteAt_slice _ _ _ _ (by omega : 7 < 9),
        byteAt_slice _ _ _ _ (by omega : 8 < 9)]
    · rw [if_neg hg, if_neg (by
        simp only [Bool.and_eq_true, decide_eq_true_eq, Bool.or_eq_true, bne_iff_ne, ne_eq]
        exact fun hh => hg ⟨(low_type _).mp hh.1.1, hh.1.2, (le_one _).mp hh.2⟩)]
      rfl

theorem text_brief {e e' : DirectoryEntry} (h : e.text true = e'.text true) :
    e.text false = e'.text false := by
  obtain ⟨h1, h2, h3, h4, h5, h6, h7, -⟩ := entry_inj h
  simp only [DirectoryEntry.text, FileAttributes.text, h1, h2, h3, h4, h5, h6, h7]
  rw [if_neg Bool.false_ne_true, if_neg Bool.false_ne_true]

/-- The verbose line tells the further information of the slot as well. -/
theorem C67_verbose (slot slot' : List Byte) (pos pos' : Option Position)
    (e e' : DirectoryEntry) (border border' : Bool)
    (h : DirectoryEntry.parse slot pos = .ok e) (h' : DirectoryEntry.parse slot' pos' = .ok e')
    (ht : ({ e with geosBorder := border } : DirectoryEntry).text true =
        ({ e' with geosBorder := border' } : DirectoryEntry).text true) :
    Row.ofSlot slot border = Row.ofSlot slot' border' ∧ More.ofSlot slot = More.ofSlot slot' := by
  have hi := entry_inj ht
  refine ⟨(C67_unambiguous slot slot' pos pos' e e' border border' h h').mp ?_, ?_⟩
  · exact text_brief ht
  · have h8 := hi.2.2.2.2.2.2.2 rfl
    rw [← parse_more slot pos, ← parse_more slot' pos', ← parse_fields h, ← parse_fields h']
    exact h8

/-- Where things stand on a line, for a file of at most 9999 blocks: the size from column
0, the quoted name from column 5, then at column 23 an asterisk for a file that was not
closed, the type, the marks for "locked" and "replace", and the note about the border. -/
theorem C67_columns (slot : List Byte) (pos : Option Position) (e : DirectoryEntry) (border : Bool)
    (h : DirectoryEntry.parse slot pos = .ok e) (hs : (Row.ofSlot slot border).size < 10000) :
    let row := Row.ofSlot slot border
    let line := ({ e with geosBorder := border } : DirectoryEntry).text false
    line.take 5 = List.rightpad 5 ' ' (Nat.toDigits 10 row.size) ∧
    (line.drop 5).take 18 = List.rightpad 18 ' ' ('"' :: row.name ++ ['"']) ∧
    line.drop 23 = [if row.splat then '*' else ' '] ++ row.type ++
      (if row.locked || row.replace then
        (if row.locked then ['<'] else []) ++ (if row.replace then ['@'] else [])
       else [' ']) ++
      (if row.border then " (GEOS border)".toList else []) := by
  intro row line
  have hrow : Row.of ({ e with geosBorder := border } : DirectoryEntry) = row :=
    C67_row slot pos e border h
  have ht : e.attributes.fileType.text = row.type := by
    rw [← hrow]
    show _ = typeName (e.attributes.toByte.toNat % 16)
    rw [parse_fields h]
    show (FileAttributes.fromByte _).fileType.text = _
    rw [type_text]
    show _ = typeName ((FileAttributes.fromByte _).toByte.toNat % 16)
    rw [(attribute_bits _).2.2.2]
  have hsize : e.fileSize = row.size := congrArg Row.size hrow
  have hname : petsciiText e.filename = row.name := by
    rw [petsciiText_eq]; exact congrArg Row.name hrow
  have hl : row.name.length ≤ 16 := by
    rw [← hname, petsciiText_length, parse_fields h]
    refine Nat.le_trans (fromPadded_length _ _) ?_
    show (slice slot 5 16).length ≤ 16
    rw [slice, List.length_take]
    exact Nat.min_le_left _ _
  have hd : (decimal row.size).length ≤ 4 := (decimal_length (by omega)).mpr hs
  have hm : (if row.splat = true then '*' else ' ') =
      (if e.attributes.closed = true then ' ' else '*') := by
    rw [show row.splat = !e.attributes.closed from (congrArg Row.splat hrow).symm]
    cases e.attributes.closed <;> rfl
  have hline : line = (padRight 4 (decimal row.size) ++ [' ']) ++
      (padRight 18 (['"'] ++ row.name ++ ['"']) ++
      ([if row.splat then '*' else ' '] ++ row.type ++ marks row.locked row.replace ++
        (if row.border then lit " (GEOS border)" else []))) := by
    rw [hm, ← hsize, ← hname, ← ht, ← hrow]
    show DirectoryEntry.text _ _ = _
    unfold DirectoryEntry.text FileAttributes.text
    rw [if_neg Bool.false_ne_true, List.append_nil]
    simp only [List.append_assoc, Row.of]
    rfl
  have h5 : (padRight 4 (decimal row.size) ++ [' ']).length = 5 := by
    rw [List.length_append, padRight_length hd]; rfl
  have h18 : (padRight 18 (['"'] ++ row.name ++ ['"'])).length = 18 := by
    refine padRight_length ?_
    simp only [List.length_append, List.length_singleton]
    omega
  rw [hline]
  refine ⟨?_, ?_, ?_⟩
  · rw [List.take_left' h5]
    show decimal row.size ++ _ ++ [' '] = decimal row.size ++ List.replicate (5 - (decimal row.size).length) ' '
    rw [List.append_assoc]
    refine congrArg _ ?_
    rw [← List.replicate_succ']
    exact congrArg (List.replicate · ' ') (by omega)
  · rw [List.drop_left' h5, List.take_left' h18]
    rfl
  · rw [show 23 = 5 + 18 from rfl, ← List.drop_drop, List.drop_left' h5, List.drop_left' h18]
    refine congr (congrArg _ (congrArg _ ?_)) ?_
    · cases row.locked <;> cases row.replace <;> rfl
    · cases row.border
      · rfl
      · exact (by decide +kernel : lit " (GEOS border)" = " (GEOS border)".toList)

/-- A slot with an unusual file of ten thousand blocks. -/
def wideSlot : List Byte :=
  [0, 0, 0x82, 1, 0, 0x41] ++ List.replicate 15 0xA0 ++ List.replicate 9 0 ++ [0x10, 0x27]

/-- The bound in C67_columns is needed: the size column is four wide, so that the name
of a file of ten thousand blocks starts one column further right. -/
theorem C67_wide_sizes_shift : ∃ slot e, DirectoryEntry.parse slot none = .ok e ∧
    (Row.ofSlot slot false).size = 10000 ∧
    (e.text false).getD 5 ' ' ≠ '"' ∧ (e.text false).getD 6 ' ' = '"' :=
  ⟨wideSlot, DirectoryEntry.parse32 wideSlot none, by decide +kernel, by decide +kernel,
    by decide +kernel, by decide +kernel⟩

/-- A GEOS file in use: 60 blocks, not closed, locked. -/
def geosSlot : List Byte :=
  [0, 0, 0x43, 7, 1] ++ [0x47, 0x45, 0x4F] ++ List.replicate 13 0xA0 ++
    [7, 2, 1, 6, 88, 4, 12, 13, 30] ++ [60, 0]

/-- The hypotheses of C67_row, C67_line, C67_columns, C67_unambiguous and C67_verbose are
met by this slot, and the line of the listing is this one. -/
example : ∃ e, DirectoryEntry.parse geosSlot none = .ok e ∧
    (Row.ofSlot geosSlot true).size < 10000 ∧
    ({ e with geosBorder := true } : DirectoryEntry).text false =
      "60   \"geo\"             *usr< (GEOS border)".toList ∧
    More.ofSlot geosSlot = .geos 1 6 88 4 12 13 30 :=
  ⟨DirectoryEntry.parse32 geosSlot none, by decide +kernel, by decide +kernel, by decide +kernel,
    by decide +kernel⟩

/-! ## The listing -/

theorem escapeDefault_newline (b : Byte) : '\n' ∉ escapeDefault b :=
  forall_byte (P := fun b => '\n' ∉ escapeDefault b) (by decide +kernel) b

theorem escaped_newline (s : List Byte) : '\n' ∉ escaped s := by
  unfold escaped
  intro h
  obtain ⟨b, -, h⟩ := List.mem_flatMap.1 h
  exact escapeDefault_newline b h

theorem title_eq {disk : Disk} {h : Header} (hh : disk.header = some h) :
    disk.text = titleLine h := by
  unfold Disk.text titleLine
  rw [hh]
  simp only [petsciiText_eq, chars]
  rw [show decimal 0 ++ lit " \"" = "0 \"".toList from by decide +kernel,
    show lit "\" " = "\" ".toList from by decide +kernel,
    show lit " (" = " (".toList from by decide +kernel]
  cases h.geos <;> rfl

theorem title_newline (h : Header) : '\n' ∉ titleLine h := by
  unfold titleLine
  have hp : ∀ p : List Byte, '\n' ∉ chars p := fun p => by
    have := petsciiText_newline p
    rw [petsciiText_eq] at this
    exact this
  simp only [List.mem_append, not_or]
  refine ⟨⟨⟨⟨⟨⟨by decide +kernel, hp _⟩, by decide +kernel⟩, hp _⟩, by decide⟩, hp _⟩, ?_⟩
  cases h.geos with
  | none => exact List.not_mem_nil
  | some g =>
    simp only [List.mem_append, not_or]
    exact ⟨⟨by decide +kernel, escaped_newline _⟩, by decide⟩

theorem free_eq (n : Nat) : decimal n ++ lit " blocks free." = freeLine n := by
  unfold freeLine
  rw [show lit " blocks free." = " blocks free.".toList from by decide +kernel]
  rfl

theorem free_newline (n : Nat) : '\n' ∉ freeLine n := by
  rw [← free_eq, List.mem_append, not_or]
  exact ⟨not_mem_decimal (by decide), by decide +kernel⟩

theorem splitLines_rows : ∀ (rows : List (List Char)), (∀ r ∈ rows, '\n' ∉ r) → ∀ rest,
    splitLines (rows.flatMap (· ++ ['\n']) ++ rest) = rows ++ splitLines rest
  | [], _, _ => rfl
  | r :: rows, h, rest => by
    rw [List.flatMap_cons, List.append_assoc, List.append_assoc, List.singleton_append,
      splitLines_row (h r (List.mem_cons_self ..)),
      splitLines_rows rows (fun x hx => h x (List.mem_cons_of_mem _ hx))]
    rfl

theorem printListing_says (disk : Disk) :
    match disk.directory, disk.blocksFree with
    | .ok es, .ok free => Says (printListing 0 disk) (.ok ())
        (disk.text ++ ['\n'] ++ (es.flatMap (fun e => e.text false ++ ['\n']) ++
          (freeLine free ++ ['\n'])))
    | .ok _, .error e => Fails (printListing 0 disk) e
    | .error e, _ => Fails (printListing 0 disk) e := by
  have hi := Says.items (f := fun e : DirectoryEntry => println (e.text false))
    (g := fun e => e.text false ++ ['\n']) (fun e => Says.println _) disk.items
  have hf : (fun x : Res DirectoryEntry => M.lift x >>= fun e => println (e.text false)) =
      printEntry disk 0 := rfl
  rw [hf] at hi
  unfold Disk.directory
  cases hd : collectRes disk.items with
  | error e =>
    rw [hd] at hi
    exact Fails.after (Says.println _) (Fails.bind hi)
  | ok es =>
    rw [hd] at hi
    simp only [] at hi
    cases hb : disk.blocksFree with
    | error e =>
      simp only []
      refine Fails.after (Says.println _) (Fails.after hi (Fails.bind ⟨[], ?_⟩))
      rw [hb]
      exact Says.lift _
    | ok free =>
      simp only []
      refine Says.bind (Says.println _) (Says.bind hi (Says.bind_lift hb ?_))
      rw [← free_eq]
      exact Says.println _

/-- What the command `dir` finds and what it prints: they fail together. -/
theorem cmdDir_eq {ext : Option (List Char)} {bytes : List Byte} {disk : Disk}
    (ho : Disk.openPath ext false bytes = .ok disk) :
    (cmdDir ext bytes).1 = (do
      let es ← disk.directory
      let free ← disk.blocksFree
      pure (es, free)) := by
  unfold cmdDir inSession
  rw [ho]
  rfl

theorem header_of_directory {disk : Disk} {es : List DirectoryEntry} (h : disk.directory = .ok es) :
    ∃ hd, disk.header = some hd := by
  cases hh : disk.header with
  | some hd => exact ⟨hd, rfl⟩
  | none =>
    unfold Disk.directory Disk.items Disk.getHeader at h
    rw [hh] at h
    cases hf : disk.diskFormat <;> rw [hf] at h <;> cases h

/-- The listing of an image that can be listed: the title, one line for each file that the
directory lists, in that order, and the number of free blocks. -/
theorem C67_listing (ext : Option (List Char)) (bytes : List Byte) (es : List DirectoryEntry)
    (free : Nat) (h : (cmdDir ext bytes).1 = .ok (es, free)) :
    ∃ disk hd, Disk.openPath ext false bytes = .ok disk ∧ disk.getHeader = .ok hd ∧
      (cmdDirText ext 0 bytes).1 = .ok () ∧
      splitLines (cmdDirText ext 0 bytes).2 =
        titleLine hd :: (es.map (·.text false) ++ [freeLine free, []]) := by
  cases ho : Disk.openPath ext false bytes with
  | error e =>
    unfold cmdDir inSession at h
    rw [ho] at h
    cases h
  | ok disk =>
    rw [cmdDir_eq ho] at h
    obtain ⟨es', h1, h⟩ := res_bind_eq_ok.1 h
    obtain ⟨free', h2, h⟩ := res_bind_eq_ok.1 h
    cases h
    obtain ⟨hd, hh⟩ := header_of_directory h1
    have hs := printListing_says disk
    rw [h1, h2] at hs
    have hs := showing_ok ho hs
    refine ⟨disk, hd, rfl, by unfold Disk.getHeader; rw [hh], ?_⟩
    unfold cmdDirText
    rw [hs]
    refine ⟨rfl, ?_⟩
    rw [title_eq hh, List.append_assoc, List.singleton_append, splitLines_row (title_newline hd),
      show es.flatMap (fun e => e.text false ++ ['\n']) =
        (es.map (·.text false)).flatMap (· ++ ['\n']) from
          (List.flatMap_map (fun e : DirectoryEntry => e.text false) (fun r => r ++ ['\n']) es).symm,
      splitLines_rows, splitLines_row (free_newline free)]
    · rfl
    · intro r hr
      obtain ⟨e, -, rfl⟩ := List.mem_map.1 hr
      exact entry_newline e false

/-- The listing fails exactly when the directory or the number of free blocks cannot be
read, and in the same way. -/
theorem C67_listing_fails (ext : Option (List Char)) (bytes : List Byte) (e : Fail) :
    (cmdDirText ext 0 bytes).1 = .error e ↔ (cmdDir ext bytes).1 = .error e := by
  cases ho : Disk.openPath ext false bytes with
  | error f =>
    unfold cmdDirText cmdDir inSession
    rw [showing_error ho, ho]
    simp only [Except.error.injEq]
  | ok disk =>
    rw [cmdDir_eq ho]
    have hs := printListing_says disk
    unfold cmdDirText
    cases h1 : disk.directory with
    | error f =>
      rw [h1] at hs
      obtain ⟨t, hs⟩ := hs
      rw [showing_ok ho hs]
      exact ⟨fun h => by cases h; rfl, fun h => by cases h; rfl⟩
    | ok es =>
      cases h2 : disk.blocksFree with
      | error f =>
        rw [h1, h2] at hs
        obtain ⟨t, hs⟩ := hs
        rw [showing_ok ho hs]
        exact ⟨fun h => by cases h; rfl, fun h => by cases h; rfl⟩
      | ok free =>
        rw [h1, h2] at hs
        rw [showing_ok ho hs]
        constructor <;> intro h <;> cases h

/-- The entries of a listing come from slots. -/
theorem listed_bytes {disk : Disk} {es : List DirectoryEntry} {e : DirectoryEntry}
    (h : disk.directory = .ok es) (he : e ∈ es) :
    ∃ slot pos border, e = { DirectoryEntry.parse32 slot pos with geosBorder := border } := by
  have hm : .ok e ∈ disk.items := by
    have : ∀ (xs : List (Res DirectoryEntry)) (es : List DirectoryEntry), collectRes xs = .ok es →
        e ∈ es → .ok e ∈ xs := by
      intro xs
      induction xs with
      | nil => intro es h1 h2; cases h1; cases h2
      | cons x xs ih =>
        intro es h1 h2
        cases x with
        | error q => cases h1
        | ok y =>
          unfold collectRes at h1
          obtain ⟨ys, hys, h1⟩ := res_bind_eq_ok.1 h1
          cases h1
          rcases List.mem_cons.1 h2 with rfl | h2
          · exact List.mem_cons_self ..
          · exact List.mem_cons_of_mem _ (ih ys hys h2)
    exact this _ _ h he
  unfold Disk.items at hm
  split at hm
  · simp only [List.mem_singleton, reduceCtorEq] at hm
  · split at hm
    · simp only [List.mem_singleton, reduceCtorEq] at hm
    · unfold directoryItems at hm
      obtain ⟨b, -, hm⟩ := List.mem_flatMap.1 hm
      cases b with
      | error q => simp only [List.mem_singleton, reduceCtorEq] at hm
      | ok cs =>
        obtain ⟨x, hx, hm⟩ := List.mem_map.1 hm
        cases hm
        unfold sectorEntries at hx
        obtain ⟨⟨chunk, i⟩, -, hx⟩ := List.mem_filterMap.1 hx
        simp only [] at hx
        split at hx
        · cases hx
        · split at hx
          · cases hx
          · injection hx with hx
            exact ⟨_, _, _, hx.symm⟩

theorem rows_of_lines : ∀ (es es' : List DirectoryEntry),
    (∀ e ∈ es, ∃ b, e.attributes = .fromByte b) → (∀ e ∈ es', ∃ b, e.attributes = .fromByte b) →
    es.map (·.text false) = es'.map (·.text false) → es.map Row.of = es'.map Row.of
  | [], [], _, _, _ => rfl
  | [], _ :: _, _, _, h => nomatch h
  | _ :: _, [], _, _, h => nomatch h
  | e :: es, e' :: es', h1, h2, h => by
    simp only [List.map_cons, List.cons.injEq] at h ⊢
    obtain ⟨b, hb⟩ := h1 e (List.mem_cons_self ..)
    obtain ⟨b', hb'⟩ := h2 e' (List.mem_cons_self ..)
    exact ⟨(text_of_row hb hb').mp h.1, rows_of_lines es es'
      (fun x hx => h1 x (List.mem_cons_of_mem _ hx)) (fun x hx => h2 x (List.mem_cons_of_mem _ hx)) h.2⟩

/-- Two images with the same listing have the same files in the same order, as far as the
rows tell, and the same number of free blocks. -/
theorem C67_same_listing (ext ext' : Option (List Char)) (bytes bytes' : List Byte)
    (es es' : List DirectoryEntry) (free free' : Nat)
    (h : (cmdDir ext bytes).1 = .ok (es, free)) (h' : (cmdDir ext' bytes').1 = .ok (es', free'))
    (hs : (cmdDirText ext 0 bytes).2 = (cmdDirText ext' 0 bytes').2) :
    es.map Row.of = es'.map Row.of ∧ free = free' := by
  obtain ⟨disk, hd, ho, -, -, hl⟩ := C67_listing ext bytes es free h
  obtain ⟨disk', hd', ho', -, -, hl'⟩ := C67_listing ext' bytes' es' free' h'
  rw [hs, hl'] at hl
  have hb : ∀ {ext bytes disk es free}, Disk.openPath ext false bytes = .ok disk →
      (cmdDir ext bytes).1 = .ok (es, free) → ∀ e ∈ es, ∃ b, e.attributes = .fromByte b := by
    intro ext bytes disk es free ho h e he
    rw [cmdDir_eq ho] at h
    obtain ⟨es', h1, h⟩ := res_bind_eq_ok.1 h
    obtain ⟨free', h2, h⟩ := res_bind_eq_ok.1 h
    cases h
    obtain ⟨slot, pos, border, rfl⟩ := listed_bytes h1 he
    exact ⟨byteAt slot 2, rfl⟩
  simp only [List.cons.injEq] at hl
  obtain ⟨h1, h2⟩ := List.append_inj' hl.2 rfl
  simp only [List.cons.injEq, and_true] at h2
  refine ⟨(rows_of_lines _ _ (hb ho' h') (hb ho h) h1).symm, ?_⟩
  rw [← free_eq, ← free_eq] at h2
  exact (decimal_inj (List.append_cancel_right h2)).symm

theorem row_of_file (f : FileRec) (p : Position) :
    Row.of (f.entry p) = Row.ofFile f.name f.attr f.blocks := by
  have h := attribute_bits f.attr
  unfold Row.of Row.ofFile FileRec.entry
  simp only []
  rw [h.1, h.2.1, h.2.2.1, h.2.2.2]

/-- An image that holds some files: the listing shows the label, a line for each file, with
its name, its size in blocks and its type, and the blocks that are left. -/
theorem C67_files {ext : Option (List Char)} {bytes : List Byte} {c : Contents}
    (h : HoldsFiles ext bytes c) : ∃ (title : List Char) (dos : Byte × Byte),
    title = "0 \"".toList ++ chars c.label.1 ++ "\" ".toList ++ chars [c.label.2.1, c.label.2.2] ++
      [' '] ++ chars [dos.1, dos.2] ∧
    (cmdDirText ext 0 bytes).1 = .ok () ∧
    splitLines (cmdDirText ext 0 bytes).2 =
      title :: ((c.map.files.map fun g =>
          (Row.ofFile g.name g.attr (max 1 ((g.data.length + 253) / 254))).line) ++
        [freeLine c.map.free, []]) := by
  obtain ⟨disk, he, hsz, hn, ho, hr, hi⟩ := holds_inv h
  obtain ⟨s, v, r, b, hrep⟩ := hr.rep
  obtain ⟨disk', hd, hl⟩ := open_readOnly hrep.ready (hrep.saved rfl)
  rw [show disk.dev.image.bytes = bytes by rw [hi]; rfl] at hd
  have ht : c.map.type = s.type := hrep.type
  have hopen : Disk.openPath ext false bytes = .ok disk' := by
    rw [openPath_of he false hsz, ht]; exact hd
  have hfree := hl.blocksFree
  rw [← hrep.room] at hfree
  have hdir := hl.opened.directory
  have hcmd : (cmdDir ext bytes).1 = .ok (v.listing, (storeFor c).room) := by
    rw [cmdDir_eq hopen, hdir, hfree]
    rfl
  obtain ⟨disk'', hh, ho', hg, h1, h2⟩ := C67_listing ext bytes _ _ hcmd
  rw [hopen] at ho'
  cases ho'
  have hhead : hh = v.header := by
    unfold Disk.getHeader at hg
    rw [hl.opened.header] at hg
    cases hg
    rfl
  have hlab : c.label = (v.header.diskName, v.header.diskId) := hrep.label
  refine ⟨_, (v.header.directoryDosVersion, v.header.directoryFormatType), rfl, h1, ?_⟩
  rw [h2, hhead, hlab]
  unfold titleLine
  rw [hl.opened.noGeos, List.append_nil]
  refine congrArg _ (congr (congrArg _ ?_) rfl)
  have hlines : v.files.map (fun f => (f.name, f.attr, f.blocks)) =
      c.map.files.map fun g => (g.name, g.attr, max 1 ((g.data.length + 253) / 254)) :=
    hrep.slots.lines fun f hf => hrep.ready.exact f hf
  have hrows : v.listing.map (·.text false) = (v.files.map fun f => (f.name, f.attr, f.blocks)).map
      fun p => (Row.ofFile p.1 p.2.1 p.2.2).line := by
    rw [List.map_map, files_range]
    unfold Volume.listing
    rw [List.map_filterMap, List.map_filterMap]
    apply filterMap_congr_left
    intro i _
    cases v.slots[i]? with
    | none => rfl
    | some y =>
      cases y with
      | none => rfl
      | some f =>
        simp only [Option.map_some]
        rw [line_of_row (b := f.attr) rfl, row_of_file]
        rfl
  rw [hrows, hlines, List.map_map]
  rfl

/-- A listing of two files. -/
def twoFiles : List Command :=
  [.write [104, 105] .PRG [[1, 2, 3]], .write [105] .SEQ [], .write [120] .SEQ [List.replicate 300 7],
    .delete [105]]

example : ∃ bytes title,
    splitLines (cmdDirText (some "d64".toList) 0 bytes).2 =
      [title, "1    \"hi\"               prg ".toList, "2    \"x\"                seq ".toList,
        "661 blocks free.".toList, []] := by
  obtain ⟨b₀, h₀⟩ := exists_holds (some "d64".toList) [104] [97, 98] (by decide)
  have hs : (Command.steps twoFiles
      ⟨(paddedName (fromStrLossy [104]), idFromBytes (fromStrLossy [97, 98])),
        FileMap.empty (namedType (some "d64".toList))⟩).map (fun p => (p.2.map.files.map fun g =>
          (Row.ofFile g.name g.attr (max 1 ((g.data.length + 253) / 254))).line) ++
        [freeLine p.2.map.free, []]) = some [
        "1    \"hi\"               prg ".toList, "2    \"x\"                seq ".toList,
        "661 blocks free.".toList, []] := by
    decide +kernel
  obtain ⟨⟨rs, c⟩, h1, h2⟩ := Option.map_eq_some_iff.1 hs
  obtain ⟨b₁, -, h₁⟩ := C63_commands_partial _ h₀ h1
  obtain ⟨title, dos, -, -, h₂⟩ := C67_files h₁
  refine ⟨b₁, title, ?_⟩
  rw [h₂]
  exact congrArg _ h2

end Cbm
