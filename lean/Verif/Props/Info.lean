import Verif.Lemmas.Info
import Verif.Props.Geos
import Verif.Props.Text
import Verif.Props.Display
/-!
# C72: the text of an info block; C73: the names of file types
-/

namespace Cbm

open Spec

/-! ## C73 -/

/-- **C73.** The words that name a type are the five names of the listing, in letters of
either case: a word names the type with number `i` in the directory exactly if it spells
the name of that type. -/
theorem C73_names (s : List Char) (ty : FileType) : FileType.fromString s = some ty ↔
    ∃ i < 5, Spells s (typeName i) ∧ ty = (FileAttributes.fromByte (UInt8.ofNat i)).fileType := by
  have h0 : (s.map upperChar = lit "DEL") ↔ Spells s (typeName 0) := by
    rw [lit_eq]; exact spells_three (by decide) (by decide) (by decide)
  have h1 : (s.map upperChar = lit "SEQ") ↔ Spells s (typeName 1) := by
    rw [lit_eq]; exact spells_three (by decide) (by decide) (by decide)
  have h2 : (s.map upperChar = lit "PRG") ↔ Spells s (typeName 2) := by
    rw [lit_eq]; exact spells_three (by decide) (by decide) (by decide)
  have h3 : (s.map upperChar = lit "USR") ↔ Spells s (typeName 3) := by
    rw [lit_eq]; exact spells_three (by decide) (by decide) (by decide)
  have h4 : (s.map upperChar = lit "REL") ↔ Spells s (typeName 4) := by
    rw [lit_eq]; exact spells_three (by decide) (by decide) (by decide)
  have t0 : (FileAttributes.fromByte (UInt8.ofNat 0)).fileType = .DEL := by decide
  have t1 : (FileAttributes.fromByte (UInt8.ofNat 1)).fileType = .SEQ := by decide
  have t2 : (FileAttributes.fromByte (UInt8.ofNat 2)).fileType = .PRG := by decide
  have t3 : (FileAttributes.fromByte (UInt8.ofNat 3)).fileType = .USR := by decide
  have t4 : (FileAttributes.fromByte (UInt8.ofNat 4)).fileType = .REL := by decide
  constructor
  · intro h
    unfold FileType.fromString at h
    simp only [] at h
    split at h
    next e => exact ⟨0, by decide, h0.1 e, t0 ▸ (Option.some.inj h).symm⟩
    next e =>
    split at h
    next e => exact ⟨1, by decide, h1.1 e, t1 ▸ (Option.some.inj h).symm⟩
    next e =>
    split at h
    next e => exact ⟨2, by decide, h2.1 e, t2 ▸ (Option.some.inj h).symm⟩
    next e =>
    split at h
    next e => exact ⟨3, by decide, h3.1 e, t3 ▸ (Option.some.inj h).symm⟩
    next e =>
    split at h
    next e => exact ⟨4, by decide, h4.1 e, t4 ▸ (Option.some.inj h).symm⟩
    · cases h
  · have ne : lit "SEQ" ≠ lit "DEL" ∧ lit "PRG" ≠ lit "DEL" ∧ lit "PRG" ≠ lit "SEQ" ∧
        lit "USR" ≠ lit "DEL" ∧ lit "USR" ≠ lit "SEQ" ∧ lit "USR" ≠ lit "PRG" ∧
        lit "REL" ≠ lit "DEL" ∧ lit "REL" ≠ lit "SEQ" ∧ lit "REL" ≠ lit "PRG" ∧
        lit "REL" ≠ lit "USR" := by decide +kernel
    obtain ⟨n1, n2, n3, n4, n5, n6, n7, n8, n9, n10⟩ := ne
    rintro ⟨i, hi, hs, rfl⟩
    unfold FileType.fromString
    simp only []
    match i, hi with
    | 0, _ => rw [if_pos (h0.2 hs), t0]
    | 1, _ => rw [h1.2 hs, if_neg n1, if_pos rfl, t1]
    | 2, _ => rw [h2.2 hs, if_neg n2, if_neg n3, if_pos rfl, t2]
    | 3, _ => rw [h3.2 hs, if_neg n4, if_neg n5, if_neg n6, if_pos rfl, t3]
    | 4, _ => rw [h4.2 hs, if_neg n7, if_neg n8, if_neg n9, if_neg n10, if_pos rfl, t4]

example : FileType.fromString "pRg".toList = some .PRG ∧ FileType.fromString "prog".toList = none := by
  unfold FileType.fromString; simp only [lit_eq]; decide +kernel

/-- **C73.** The name that the listing gives to a type is read back as that type, and the
name of the types without a name is not read at all. -/
theorem C73_listed (attr : Byte) :
    FileType.fromString (FileAttributes.fromByte attr).fileType.text =
      if attr.toNat % 16 < 5 then some (FileAttributes.fromByte attr).fileType else none := by
  refine forall_byte (P := fun attr => FileType.fromString (FileAttributes.fromByte attr).fileType.text =
      if attr.toNat % 16 < 5 then some (FileAttributes.fromByte attr).fileType else none) ?_ attr
  unfold FileType.fromString FileType.text
  simp only [lit_eq]
  decide +kernel

/-- **C73.** `cdisk write`: the type named by the argument; without an argument, and with
one that names no type, a sequential file. -/
theorem C73_argument :
    writeType none = .SEQ ∧
    (∀ s i, i < 5 → Spells s (typeName i) →
      writeType (some s) = (FileAttributes.fromByte (UInt8.ofNat i)).fileType) ∧
    (∀ s, (∀ i < 5, ¬ Spells s (typeName i)) → writeType (some s) = .SEQ) := by
  refine ⟨rfl, fun s i hi hs => ?_, fun s hs => ?_⟩
  · show (FileType.fromString s).getD _ = _
    rw [(C73_names s _).2 ⟨i, hi, hs, rfl⟩]
    rfl
  · show (FileType.fromString s).getD _ = _
    cases h : FileType.fromString s with
    | none => rfl
    | some ty =>
      obtain ⟨i, hi, h, -⟩ := (C73_names s ty).1 h
      exact absurd h (hs i hi)

example : Spells "USr".toList (typeName 3) ∧ Spells "uſr".toList (typeName 3) ∧ writeType (some "usr".toList) = .USR := by
  refine ⟨(spells_three (a' := 'U') (b' := 'S') (c' := 'R') (by decide) (by decide) (by decide)).1 (by decide),
    (spells_three (a' := 'U') (b' := 'S') (c' := 'R') (by decide) (by decide) (by decide)).1 (by decide), ?_⟩
  unfold writeType FileType.fromString; simp only [lit_eq]; decide +kernel

/-! ## C72 -/

theorem fieldLines_chars (v : InfoView) : ∀ r ∈ v.fieldLines, '\n' ∉ r ∧ '\r' ∉ r := by
  have hn : ∀ (names : List String) (b : Byte) (c : Char), (∀ n ∈ names, c ∉ n.toList) →
      c ∉ "Unknown(0x)".toList → c ∉ "0123456789abcdef".toList → c ∉ nameOfCode names b := by
    intro names b c h1 h2 h3
    unfold nameOfCode
    split
    next n hn => exact h1 n (List.mem_of_getElem? hn)
    next =>
      rw [List.mem_append, List.mem_append]
      rintro ((h | h) | h)
      · refine h2 ?_
        have : ∀ c ∈ "Unknown(0x".toList, c ∈ "Unknown(0x)".toList := by decide
        exact this c h
      · have := mem_hexPair h
        rw [lit_eq] at this
        exact h3 this
      · rw [List.mem_singleton.1 h] at h2
        exact h2 (by decide)
  have hx : ∀ (n : Nat) (c : Char), c ∉ "0123456789abcdef".toList → c ∉ hexNumber n :=
    fun n c h h' => h (mem_hexNumber h')
  have hr : ∀ (s : List Byte) (c : Char), ¬ ' ' ≤ c → c ∉ s.flatMap readable :=
    fun s c h h' => h (readables_chars h').1
  have key : ∀ (c : Char), (∀ n ∈ geosTypeNames, c ∉ n.toList) →
      (∀ n ∈ ["Sequential", "VLIR"], c ∉ n.toList) → c ∉ "Unknown(0x)".toList →
      c ∉ "0123456789abcdef".toList → ¬ ' ' ≤ c →
      c ∉ "Type:  ()Program addresses: load=0x end=0x start=0xClass: Author: Application: Description: ".toList →
      ∀ r ∈ v.fieldLines, c ∉ r := by
    intro c h1 h2 h3 h4 h5 h6 r hm
    have sub : ∀ w ∈ ["Type: ", " (", ")", "Program addresses: load=0x", " end=0x", " start=0x", "Class: ",
        "Author: ", "Application: ", "Description: "], ∀ x ∈ w.toList, x ∈
        "Type:  ()Program addresses: load=0x end=0x start=0xClass: Author: Application: Description: ".toList := by
      decide +kernel
    have sub' : ∀ w ∈ ["Type: ", " (", ")", "Program addresses: load=0x", " end=0x", " start=0x", "Class: ",
        "Author: ", "Application: ", "Description: "], c ∉ w.toList := fun w hw hc => h6 (sub w hw c hc)
    unfold InfoView.fieldLines at hm
    simp only [List.mem_cons, List.not_mem_nil, or_false] at hm sub'
    simp only [forall_eq_or_imp, forall_eq] at sub'
    obtain ⟨w1, w2, w3, w4, w5, w6, w7, w8, w9, w10⟩ := sub'
    rcases hm with rfl | rfl | rfl | rfl | rfl | rfl <;> simp only [List.mem_append, not_or]
    · exact ⟨⟨⟨⟨w1, hn _ _ c h1 h3 h4⟩, w2⟩, hn _ _ c h2 h3 h4⟩, w3⟩
    · exact ⟨⟨⟨⟨⟨w4, hx _ c h4⟩, w5⟩, hx _ c h4⟩, w6⟩, hx _ c h4⟩
    · exact ⟨w7, hr _ c h5⟩
    · exact ⟨w8, hr _ c h5⟩
    · exact ⟨w9, hr _ c h5⟩
    · exact ⟨w10, hr _ c h5⟩
  intro r hr'
  exact ⟨key '\n' (by decide +kernel) (by decide +kernel) (by decide +kernel) (by decide +kernel)
    (by decide +kernel) (by decide +kernel) r hr',
    key '\r' (by decide +kernel) (by decide +kernel) (by decide +kernel) (by decide +kernel)
    (by decide +kernel) (by decide +kernel) r hr'⟩

theorem fields_eq (b : List Byte) :
    (infoOf b).fields = (InfoView.ofBlock b).fieldLines.flatMap (· ++ ['\n']) := by
  have hc : ∀ x y : Nat, x * 256 + y = y + 256 * x := fun x y => by omega
  unfold GEOSInfo.fields InfoView.fieldLines
  simp only [infoOf, InfoView.ofBlock, nameOfCode_type, nameOfCode_structure, escaped_eq, paddedHex_four,
    lit_eq, hc, wordAt, fieldBytes, List.flatMap_cons, List.flatMap_nil, List.append_assoc, List.append_nil]
  rfl

theorem iconRow_chars (icon : List Byte) (r : Nat) :
    ∀ x ∈ (List.range 12).map (squareGlyph icon r), x ≠ '\n' ∧ x ≠ '\r' := by
  intro x hx
  obtain ⟨c, -, rfl⟩ := List.mem_map.1 hx
  have : ∀ a b c d, quadrant a b c d ≠ '\n' ∧ quadrant a b c d ≠ '\r' := by decide +kernel
  exact this _ _ _ _

theorem fieldLines_length (v : InfoView) : v.fieldLines.length = 6 := rfl

theorem takeWhile_true {α : Type} {p : α → Bool} : ∀ {xs : List α}, (∀ x ∈ xs, p x = true) → xs.takeWhile p = xs
  | [], _ => rfl
  | x :: xs, h => by
    rw [List.takeWhile_cons, if_pos (h x (List.mem_cons_self ..)),
      takeWhile_true fun y hy => h y (List.mem_cons_of_mem _ hy)]

theorem sideBySide_eq (icon : List Byte) (fields : List (List Char)) (hf : fields.length ≤ 11) :
    sideBySide ((List.range 11).map fun r => (List.range 12).map (squareGlyph icon r)) fields =
      ((List.range 11).map fun r => (List.range 12).map (squareGlyph icon r) ++ [' '] ++ fields.getD r []).flatMap
        (· ++ ['\n']) := by
  unfold sideBySide
  simp only [List.length_map, List.length_range]
  rw [show max 11 fields.length = 11 by omega, takeWhile_true]
  · rw [List.flatMap_map, List.flatMap_map]
    refine flatMap_congr_left fun r hr => ?_
    have hr := List.mem_range.1 hr
    simp only [List.getD_eq_getElem?_getD, List.getElem?_map, List.getElem?_range hr, Option.map_some, Option.getD_some]
    unfold padRight
    rw [List.length_map, List.length_range, Nat.sub_self, List.replicate_zero, List.append_nil]
  · intro p hp
    obtain ⟨r, hr, rfl⟩ := List.mem_map.1 hp
    have hr := List.mem_range.1 hr
    simp only [List.getD_eq_getElem?_getD, List.getElem?_map, List.getElem?_range hr, Option.map_some, Option.getD_some]
    rfl

theorem info_text {b : List Byte} (h : b.length = 256) :
    (infoOf b).text = .ok ((InfoView.ofBlock b).lines.flatMap (· ++ ['\n'])) := by
  unfold GEOSInfo.text
  rw [toUnicode_eq (s := (infoOf b).icon) (length_slice _ _ _ (by omega)), res_bind_ok]
  show Except.ok _ = _
  congr 1
  rw [fields_eq, strLines_rows _ (fieldLines_chars _)]
  have hi : strLines [] ((List.range 11).flatMap fun r =>
      (List.range 12).map (squareGlyph (infoOf b).icon.data r) ++ ['\n']) =
      (List.range 11).map fun r => (List.range 12).map (squareGlyph (infoOf b).icon.data r) := by
    have := strLines_rows ((List.range 11).map fun r => (List.range 12).map (squareGlyph (infoOf b).icon.data r)) ?_
    · rw [List.flatMap_map] at this
      exact this
    · intro r hr
      obtain ⟨k, -, rfl⟩ := List.mem_map.1 hr
      exact ⟨fun hm => (iconRow_chars _ _ _ hm).1 rfl, fun hm => (iconRow_chars _ _ _ hm).2 rfl⟩
  rw [hi, sideBySide_eq _ _ (by rw [fieldLines_length]; omega)]
  rfl

theorem infoLines_newline (v : InfoView) : ∀ r ∈ v.lines, '\n' ∉ r := by
  intro r hr
  obtain ⟨k, -, rfl⟩ := List.mem_map.1 hr
  rw [List.mem_append, List.mem_append, not_or, not_or]
  refine ⟨⟨fun hm => (iconRow_chars _ _ _ hm).1 rfl, by decide⟩, ?_⟩
  rw [List.getD_eq_getElem?_getD]
  cases hk : v.fieldLines[k]? with
  | none => simp
  | some l => exact (fieldLines_chars v l (List.mem_of_getElem? hk)).1

/-- **C72.** The text of an info block is eleven lines: the rows of the icon, and beside
the first six of them the type and the structure, the three addresses, and the four texts
up to the first zero byte, with the bytes that cannot be shown escaped. -/
theorem C72_text (b : List Byte) (h : b.length = 256) :
    ∃ i text, GEOSInfo.fromBytes b = .ok i ∧ i.text = .ok text ∧
      splitLines text = (InfoView.ofBlock b).lines ++ [[]] := by
  refine ⟨infoOf b, _, info_parse h, info_text h, ?_⟩
  have := splitLines_rows _ (infoLines_newline (InfoView.ofBlock b)) []
  rw [List.append_nil] at this
  exact this

/-- An info block of an application with a diagonal line as its icon, in which a carriage
return and something after the end of the class are set. -/
def sampleInfo : List Byte :=
  let text (s : String) (n : Nat) : List Byte :=
    (s.toList.map fun c => UInt8.ofNat c.toNat) ++ List.replicate (n - s.length) 0
  [0, 255, 3, 21, 191] ++ (0x80 :: List.replicate 62 0) ++ [0x83, 6, 1, 0x00, 0x04, 0xff, 0x1f, 0x03, 0x04] ++
    text "geoTest" 20 ++ text "N.\r" 20 ++ text "" 20 ++ List.replicate 23 0 ++ text "A \"test\"." 96

example : sampleInfo.length = 256 ∧ (InfoView.ofBlock sampleInfo).lines.take 6 =
    ["▘            Type: Application (VLIR)".toList,
     "             Program addresses: load=0x0400 end=0x1fff start=0x0403".toList,
     "             Class: geoTest".toList, "             Author: N.\\r".toList,
     "             Application: ".toList, "             Description: A \\\"test\\\".".toList] := by
  decide +kernel

theorem field_inj {w : List Char} {s t : List Byte} (h : w ++ s.flatMap readable = w ++ t.flatMap readable) : s = t :=
  readables_inj (List.append_cancel_left h)

theorem nameOfCode_structure_blank (b : Byte) : ' ' ∉ nameOfCode ["Sequential", "VLIR"] b := by
  unfold nameOfCode
  split
  next n hn =>
    have : ∀ n ∈ ["Sequential", "VLIR"], ' ' ∉ n.toList := by decide
    exact this n (List.mem_of_getElem? hn)
  next =>
    rw [List.mem_append, List.mem_append, not_or, not_or]
    exact ⟨⟨by decide, (hexPair_chars b).2⟩, by decide⟩

theorem InfoView.ext_fields {v w : InfoView} (h1 : v.type = w.type) (h2 : v.structure_ = w.structure_)
    (h3 : v.load = w.load) (h4 : v.end = w.end) (h5 : v.start = w.start) (h6 : v.class = w.class)
    (h7 : v.author = w.author) (h8 : v.application = w.application) (h9 : v.description = w.description) :
    v = { w with icon := v.icon } := by
  cases v; cases w
  simp only at h1 h2 h3 h4 h5 h6 h7 h8 h9
  subst h1 h2 h3 h4 h5 h6 h7 h8 h9
  rfl

theorem fieldLines_inj {v w : InfoView} (h : v.fieldLines = w.fieldLines) :
    v = { w with icon := v.icon } := by
  unfold InfoView.fieldLines at h
  simp only [List.cons.injEq, and_true] at h
  obtain ⟨h1, h2, h3, h4, h5, h6⟩ := h
  have hb : ∀ n, ' ' ∉ hexNumber n := fun n hm => absurd (mem_hexNumber hm) (by decide)
  -- type and structure
  have h1 : nameOfCode geosTypeNames v.type ++ ' ' :: ('(' :: (nameOfCode ["Sequential", "VLIR"] v.structure_ ++ [')'])) =
      nameOfCode geosTypeNames w.type ++ ' ' :: ('(' :: (nameOfCode ["Sequential", "VLIR"] w.structure_ ++ [')'])) := by
    refine List.append_cancel_left (as := "Type: ".toList) ?_
    simp only [List.append_assoc] at h1
    exact h1
  have hs : ∀ b, ' ' ∉ '(' :: (nameOfCode ["Sequential", "VLIR"] b ++ [')']) := by
    intro b
    simp only [List.mem_cons, List.mem_append, not_or]
    exact ⟨by decide, nameOfCode_structure_blank b, by decide, by simp⟩
  obtain ⟨ht, hs⟩ := split_last (hs _) (hs _) h1
  have ht' : v.type = w.type := by
    rw [← nameOfCode_type, ← nameOfCode_type] at ht
    have := geosType_text_inj ht
    rw [← geosType_toByte_fromByte v.type, this, geosType_toByte_fromByte]
  have hs' : v.structure_ = w.structure_ := by
    have hs := List.append_cancel_right (List.cons.inj hs).2
    rw [← nameOfCode_structure, ← nameOfCode_structure] at hs
    have := geosStructure_text_inj hs
    rw [← structure_toByte_fromByte v.structure_, this, structure_toByte_fromByte]
  -- addresses
  have h2 : hexNumber v.load ++ ' ' :: ("end=0x".toList ++ (hexNumber v.end ++ ' ' :: ("start=0x".toList ++ hexNumber v.start))) =
      hexNumber w.load ++ ' ' :: ("end=0x".toList ++ (hexNumber w.end ++ ' ' :: ("start=0x".toList ++ hexNumber w.start))) := by
    refine List.append_cancel_left (as := "Program addresses: load=0x".toList) ?_
    simp only [List.append_assoc] at h2
    exact h2
  obtain ⟨hl, h2⟩ := split_first (hb _) (hb _) h2
  obtain ⟨he, h2⟩ := split_first (hb _) (hb _) (List.append_cancel_left h2)
  have hst := hexNumber_inj (List.append_cancel_left h2)
  exact InfoView.ext_fields ht' hs' (hexNumber_inj hl) (hexNumber_inj he) hst (field_inj h3) (field_inj h4)
    (field_inj h5) (field_inj h6)

theorem infoLines_inj {v w : InfoView} (hv : v.icon.length = 63) (hw : w.icon.length = 63)
    (h : v.lines = w.lines) : v = w := by
  unfold InfoView.lines at h
  have hrow := fun r hr => List.map_inj_left.mp h r hr
  have split : ∀ r ∈ List.range 11, (List.range 12).map (squareGlyph v.icon r) = (List.range 12).map (squareGlyph w.icon r) ∧
      v.fieldLines.getD r [] = w.fieldLines.getD r [] := by
    intro r hr
    have := hrow r hr
    obtain ⟨h1, h2⟩ := List.append_inj this (by simp)
    exact ⟨List.append_cancel_right h1, h2⟩
  have hf : v.fieldLines = w.fieldLines := by
    apply List.ext_getElem? 
    intro r
    by_cases hr : r < 6
    · have := (split r (List.mem_range.2 (by omega))).2
      have h1 : r < v.fieldLines.length := by rw [fieldLines_length]; exact hr
      have h2 : r < w.fieldLines.length := by rw [fieldLines_length]; exact hr
      rw [List.getD_eq_getElem?_getD, List.getD_eq_getElem?_getD, List.getElem?_eq_getElem h1,
        List.getElem?_eq_getElem h2] at this
      rw [List.getElem?_eq_getElem h1, List.getElem?_eq_getElem h2]
      exact congrArg some this
    · rw [List.getElem?_eq_none (by rw [fieldLines_length]; omega),
        List.getElem?_eq_none (by rw [fieldLines_length]; omega)]
  have hicon : v.icon = w.icon := by
    refine (C48_injective ⟨v.icon⟩ ⟨w.icon⟩ _ v.icon w.icon (if_pos hv) (if_pos hw) (toUnicode_eq hv) ?_).1
    rw [toUnicode_eq (s := ⟨w.icon⟩) hw]
    congr 1
    refine flatMap_congr_left fun r hr => ?_
    rw [(split r hr).1]
  have := fieldLines_inj hf
  rw [this, hicon]

/-- **C72.** Two info blocks have the same text exactly if they have the same icon, type,
structure and addresses, and the same texts up to the first zero byte. -/
theorem C72_same_text (b b' : List Byte) (h : b.length = 256) (h' : b'.length = 256) (i i' : GEOSInfo)
    (hi : GEOSInfo.fromBytes b = .ok i) (hi' : GEOSInfo.fromBytes b' = .ok i') :
    i.text = i'.text ↔ InfoView.ofBlock b = InfoView.ofBlock b' := by
  rw [info_parse h] at hi
  rw [info_parse h'] at hi'
  cases hi
  cases hi'
  rw [info_text h, info_text h']
  constructor
  · intro ht
    have ht := congrArg splitLines (Except.ok.inj ht)
    have e1 := splitLines_rows _ (infoLines_newline (InfoView.ofBlock b)) []
    have e2 := splitLines_rows _ (infoLines_newline (InfoView.ofBlock b')) []
    rw [List.append_nil] at e1 e2
    rw [e1, e2] at ht
    exact infoLines_inj (length_slice _ _ _ (by omega)) (length_slice _ _ _ (by omega)) (List.append_cancel_right ht)
  · intro ht
    rw [ht]

/-- The bytes behind the end of a text do not show. -/
example : InfoView.ofBlock (sampleInfo.set (0x4D + 10) 0x41) = InfoView.ofBlock sampleInfo ∧
    InfoView.ofBlock (sampleInfo.set (0x4D + 6) 0x41) ≠ InfoView.ofBlock sampleInfo ∧
    sampleInfo.set (0x4D + 10) 0x41 ≠ sampleInfo := by decide +kernel

end Cbm
