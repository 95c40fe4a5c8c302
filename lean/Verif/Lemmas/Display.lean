import Verif.Spec.Display
import Verif.Lemmas.Hex
import Verif.Lemmas.M
/-!
# Facts about printed texts
-/

namespace Cbm

open Spec

/-! ## Taking texts apart -/

/-- A text can be split at the first place of a separator in one way only. -/
theorem split_first {α : Type} {c : α} {a b x y : List α} (ha : c ∉ a) (hb : c ∉ b)
    (h : a ++ c :: x = b ++ c :: y) : a = b ∧ x = y := by
  induction a generalizing b with
  | nil =>
    cases b with
    | nil => exact ⟨rfl, by simpa using h⟩
    | cons d b =>
      simp only [List.nil_append, List.cons_append, List.cons.injEq] at h
      exact absurd (h.1 ▸ List.mem_cons_self ..) hb
  | cons d a ih =>
    cases b with
    | nil =>
      simp only [List.nil_append, List.cons_append, List.cons.injEq] at h
      exact absurd (h.1 ▸ List.mem_cons_self ..) ha
    | cons e b =>
      simp only [List.cons_append, List.cons.injEq] at h
      simp only [List.mem_cons, not_or] at ha hb
      obtain ⟨h1, h2⟩ := ih ha.2 hb.2 h.2
      exact ⟨by rw [h.1, h1], h2⟩

/-- … and at the last one. -/
theorem split_last {α : Type} {c : α} {a b x y : List α} (hx : c ∉ x) (hy : c ∉ y)
    (h : a ++ c :: x = b ++ c :: y) : a = b ∧ x = y := by
  have h' := congrArg List.reverse h
  simp only [List.reverse_append, List.reverse_cons, List.append_assoc, List.singleton_append] at h'
  obtain ⟨h1, h2⟩ := split_first (c := c) (by simpa using hx) (by simpa using hy) h'
  exact ⟨List.reverse_inj.mp h2, List.reverse_inj.mp h1⟩

/-! ## Numbers -/

theorem decimal_inj {m n : Nat} (h : decimal m = decimal n) : m = n := by
  have := congrArg (fun l => Nat.ofDigitChars 10 l 0) h
  simpa only [decimal, Nat.ofDigitChars_ten_toDigits] using this

theorem decimal_digit {n : Nat} {c : Char} (h : c ∈ decimal n) : c.isDigit = true :=
  Nat.isDigit_of_mem_toDigits (by decide) (by decide) h

theorem not_mem_decimal {n : Nat} {c : Char} (hc : c.isDigit = false) : c ∉ decimal n := by
  intro h
  rw [decimal_digit h] at hc
  cases hc

theorem decimal_ne_nil (n : Nat) : decimal n ≠ [] := Nat.toDigits_ne_nil

theorem decimal_length {n k : Nat} (hk : 0 < k) : (decimal n).length ≤ k ↔ n < 10 ^ k :=
  Nat.length_toDigits_le_iff (by decide) hk

theorem mem_zeroPadded {w n : Nat} {c : Char} (hc : c.isDigit = false) : c ∉ zeroPadded w n := by
  simp only [zeroPadded, List.mem_append, List.mem_replicate, not_or, not_and]
  refine ⟨fun _ h => ?_, not_mem_decimal hc⟩
  subst h
  cases hc

theorem zeroPadded_inj {w m n : Nat} (h : zeroPadded w m = zeroPadded w n) : m = n := by
  have := congrArg (fun l => Nat.ofDigitChars 10 l 0) h
  simpa only [zeroPadded, decimal, Nat.ofDigitChars_append, Nat.ofDigitChars_replicate_zero,
    Nat.mul_zero, Nat.ofDigitChars_ten_toDigits] using this

/-! ## Padding -/

theorem padRight_length {w : Nat} {s : List Char} (h : s.length ≤ w) :
    (padRight w s).length = w := by
  simp only [padRight, List.length_append, List.length_replicate]
  omega

theorem mem_padRight {w : Nat} {s : List Char} {c : Char} (hc : c ≠ ' ') :
    c ∈ padRight w s ↔ c ∈ s := by
  simp only [padRight, List.mem_append, List.mem_replicate]
  exact ⟨fun h => h.elim id fun h => absurd h.2 hc, Or.inl⟩

/-! ## PETSCII -/

/-- No PETSCII character is shown as a control character or as a backslash. -/
theorem petscii_table (b : Byte) :
    ' ' ≤ Char.ofNat (petsciiToUnicodeChar b) ∧ Char.ofNat (petsciiToUnicodeChar b) ≠ '\\' := by
  have : ∀ n, n < 256 → ' ' ≤ Char.ofNat (petsciiToUnicodeChar (UInt8.ofNat n)) ∧
      Char.ofNat (petsciiToUnicodeChar (UInt8.ofNat n)) ≠ '\\' := by decide +kernel
  have h := this b.toNat b.toNat_lt
  rwa [UInt8.ofNat_toNat] at h

theorem petsciiText_eq (p : Petscii) :
    petsciiText p = p.map fun b => Char.ofNat (petsciiToUnicodeChar b) := by
  simp only [petsciiText, petsciiToString, List.map_map]
  rfl

theorem petsciiText_newline (p : Petscii) : '\n' ∉ petsciiText p := by
  rw [petsciiText_eq]
  simp only [List.mem_map, not_exists, not_and]
  intro b _ h
  exact absurd (h ▸ (petscii_table b).1) (by decide)

theorem petsciiText_backslash (p : Petscii) : '\\' ∉ petsciiText p := by
  rw [petsciiText_eq]
  simp only [List.mem_map, not_exists, not_and]
  exact fun b _ => (petscii_table b).2

theorem petsciiText_length (p : Petscii) : (petsciiText p).length = p.length := by
  rw [petsciiText_eq, List.length_map]

/-! ## Attributes -/

theorem fileType_text_length (t : FileType) : t.text.length = 3 := by
  cases t with
  | unknown b => exact (by decide +kernel : (lit "unk").length = 3)
  | _ => decide +kernel

theorem fileType_text_chars (t : FileType) : '"' ∉ t.text ∧ '\n' ∉ t.text := by
  cases t with
  | unknown b => exact (by decide +kernel : '"' ∉ lit "unk" ∧ '\n' ∉ lit "unk")
  | _ => decide +kernel

theorem attributes_chars (a : FileAttributes) : '"' ∉ a.text ∧ '\n' ∉ a.text := by
  have ht := fileType_text_chars a.fileType
  simp only [FileAttributes.text, List.mem_append, not_or]
  cases a.closed <;> cases a.locked <;> cases a.saveWithReplace <;> simp [ht, marks]

theorem marks_inj : ∀ {l r l' r' : Bool} {x y : List Char}, (x = [] ∨ ∃ t, x = ' ' :: t) →
    (y = [] ∨ ∃ t, y = ' ' :: t) → marks l r ++ x = marks l' r' ++ y → l = l' ∧ r = r' ∧ x = y := by
  intro l r l' r' x y hx hy h
  rcases hx with rfl | ⟨t, rfl⟩ <;> rcases hy with rfl | ⟨u, rfl⟩ <;>
    cases l <;> cases r <;> cases l' <;> cases r' <;> simp_all [marks]

/-- The attributes can be read off, if what follows them is nothing or begins with a
blank. -/
theorem attributes_inj {a b : FileAttributes} {x y : List Char}
    (hx : x = [] ∨ ∃ t, x = ' ' :: t) (hy : y = [] ∨ ∃ t, y = ' ' :: t)
    (h : a.text ++ x = b.text ++ y) :
    a.closed = b.closed ∧ a.fileType.text = b.fileType.text ∧ a.locked = b.locked ∧
      a.saveWithReplace = b.saveWithReplace ∧ x = y := by
  simp only [FileAttributes.text, List.append_assoc, List.cons_append, List.nil_append, List.cons.injEq] at h
  obtain ⟨h1, h2⟩ := h
  obtain ⟨h2, h3⟩ := List.append_inj h2 (by rw [fileType_text_length, fileType_text_length])
  refine ⟨?_, h2, marks_inj hx hy h3⟩
  cases ha : a.closed <;> cases hb : b.closed <;> rw [ha, hb] at h1 <;>
    first | rfl | exact absurd h1 (by decide)

/-! ## Extra information -/

theorem mem_hexPair {b : Byte} {c : Char} (h : c ∈ hexPair b) : c ∈ lit "0123456789abcdef" := by
  have : ∀ n, n < 256 → ∀ c ∈ hexPair (UInt8.ofNat n), c ∈ lit "0123456789abcdef" := by
    decide +kernel
  have h' := this b.toNat b.toNat_lt c
  rw [UInt8.ofNat_toNat] at h'
  exact h' h

theorem lit_eq (s : String) : lit s = s.toList := by unfold lit; rfl

theorem unknown_inj {a b : Byte}
    (h : lit "Unknown(0x" ++ paddedHex 2 a.toNat ++ [')'] =
      lit "Unknown(0x" ++ paddedHex 2 b.toNat ++ [')']) : a = b := by
  rw [paddedHex_two, paddedHex_two] at h
  exact hexPair_inj (List.append_cancel_left (List.append_cancel_right h))

theorem unknown_chars {b : Byte} {c : Char}
    (h : c ∈ lit "Unknown(0x" ++ paddedHex 2 b.toNat ++ [')']) :
    c ∈ lit "Unknow(x)0123456789abcdef" := by
  rw [paddedHex_two] at h
  simp only [List.mem_append, List.mem_singleton] at h
  rcases h with (h | h) | h
  · exact (by decide +kernel : ∀ c ∈ lit "Unknown(0x", c ∈ lit "Unknow(x)0123456789abcdef") c h
  · exact (by decide +kernel : ∀ c ∈ lit "0123456789abcdef",
      c ∈ lit "Unknow(x)0123456789abcdef") c (mem_hexPair h)
  · subst h; decide +kernel

theorem unknown_head (b : Byte) (s : List Char) :
    (lit "Unknown(0x" ++ paddedHex 2 b.toNat ++ s).head? = some 'U' := by
  rw [show lit "Unknown(0x" = 'U' :: lit "nknown(0x" from by decide +kernel]
  rfl

theorem geosStructure_text_inj {s t : GEOSFileStructure} (h : s.text = t.text) : s = t := by
  have h0 := congrArg List.head? h
  have hs : GEOSFileStructure.sequential.text.head? = some 'S' := by decide +kernel
  have hv : GEOSFileStructure.vlir.text.head? = some 'V' := by decide +kernel
  have hu : ∀ b, (GEOSFileStructure.undefined b).text.head? = some 'U' := fun b => unknown_head b _
  cases s <;> cases t <;> simp only [hs, hv, hu] at h0 <;>
    first
      | rfl
      | exact congrArg _ (unknown_inj h)
      | exact absurd h0 (by decide)

/-- The characters of the names of GEOS structures. -/
def wordChars : List Char :=
  lit "ABCDEFGHIJKLMNOPQRSTUVWXYZabcdefghijklmnopqrstuvwxyz0123456789()"

theorem geosStructure_text_chars {s : GEOSFileStructure} {c : Char} (h : c ∈ s.text) :
    c ∈ wordChars := by
  cases s with
  | undefined b =>
    exact (by decide +kernel : ∀ c ∈ lit "Unknow(x)0123456789abcdef", c ∈ wordChars) c
      (unknown_chars h)
  | sequential => exact (by decide +kernel : ∀ c ∈ lit "Sequential", c ∈ wordChars) c h
  | vlir => exact (by decide +kernel : ∀ c ∈ lit "VLIR", c ∈ wordChars) c h

theorem geosType_known : ∀ (t : GEOSFileType), (∃ b, t = .undefined b) ∨
    ∃ i : Fin 15, t = .fromByte (UInt8.ofNat i) := by
  intro t
  cases t with
  | undefined b => exact .inl ⟨b, rfl⟩
  | nonGEOS => exact .inr ⟨0, by decide⟩
  | basic => exact .inr ⟨1, by decide⟩
  | assembler => exact .inr ⟨2, by decide⟩
  | dataFile => exact .inr ⟨3, by decide⟩
  | systemFile => exact .inr ⟨4, by decide⟩
  | deskAccessory => exact .inr ⟨5, by decide⟩
  | application => exact .inr ⟨6, by decide⟩
  | applicationData => exact .inr ⟨7, by decide⟩
  | fontFile => exact .inr ⟨8, by decide⟩
  | printerDriver => exact .inr ⟨9, by decide⟩
  | inputDriver => exact .inr ⟨10, by decide⟩
  | diskDriver => exact .inr ⟨11, by decide⟩
  | systemBootFile => exact .inr ⟨12, by decide⟩
  | temporary => exact .inr ⟨13, by decide⟩
  | autoExecuteFile => exact .inr ⟨14, by decide⟩

theorem geosType_text_inj {s t : GEOSFileType} (h : s.text = t.text) : s = t := by
  have hu : ∀ i : Fin 15, (GEOSFileType.fromByte (UInt8.ofNat i)).text.head? ≠ some 'U' := by
    decide +kernel
  rcases geosType_known s with ⟨a, rfl⟩ | ⟨i, rfl⟩ <;> rcases geosType_known t with ⟨b, rfl⟩ | ⟨j, rfl⟩
  · exact congrArg _ (unknown_inj h)
  · exact absurd ((congrArg List.head? h).symm.trans (unknown_head a _)) (hu j)
  · exact absurd ((congrArg List.head? h).trans (unknown_head b _)) (hu i)
  · have : ∀ i j : Fin 15, (GEOSFileType.fromByte (UInt8.ofNat i)).text =
        (GEOSFileType.fromByte (UInt8.ofNat j)).text → i = j := by decide +kernel
    rw [this i j h]

theorem geosType_text_chars {t : GEOSFileType} {c : Char} (h : c ∈ t.text) :
    c ∈ ' ' :: '-' :: wordChars := by
  rcases geosType_known t with ⟨b, rfl⟩ | ⟨i, rfl⟩
  · exact (by decide +kernel : ∀ c ∈ lit "Unknow(x)0123456789abcdef", c ∈ ' ' :: '-' :: wordChars) c
      (unknown_chars h)
  · exact (by decide +kernel : ∀ i : Fin 15, ∀ c ∈ (GEOSFileType.fromByte (UInt8.ofNat i)).text,
      c ∈ ' ' :: '-' :: wordChars) i c h

/-- What a user reads in the extra part of a verbose line. -/
def Extra.more : Extra → More
  | .linear _ => .ordinary
  | .relative e => .relative (e.firstSideSector.track, e.firstSideSector.sector) e.recordLength
  | .geos e => .geos e.structure_.toByte e.geosFileType.toByte e.year e.month e.day e.hour e.minute

theorem byte_of_toNat {a b : Byte} (h : a.toNat = b.toNat) : a = b := UInt8.toNat_inj.mp h

theorem digit_blank : ' '.isDigit = false := by decide

theorem locationText_inj {l m : Location} {x y : List Char} (h : l.text ++ x = m.text ++ y) :
    l = m ∧ x = y := by
  simp only [Location.text, List.append_assoc, List.cons_append, List.nil_append,
    List.cons.injEq, true_and] at h
  obtain ⟨h1, h2⟩ := split_first (not_mem_decimal (by decide)) (not_mem_decimal (by decide)) h
  obtain ⟨h2, h3⟩ := split_first (not_mem_decimal (by decide)) (not_mem_decimal (by decide)) h2
  refine ⟨?_, h3⟩
  cases l; cases m
  exact congr (congrArg Location.mk (byte_of_toNat (decimal_inj h1))) (byte_of_toNat (decimal_inj h2))

theorem regular_text (u : List Byte) : (Extra.linear u).text = 'R' :: 'E' :: 'G' :: lit "ULAR" := by
  show lit "REGULAR" = _
  decide +kernel

theorem relative_text (e : RelativeExtra) : ∃ t, (Extra.relative e).text = 'R' :: 'E' :: 'L' :: t := by
  have : lit "REL(side=" = 'R' :: 'E' :: 'L' :: lit "(side=" := by decide +kernel
  show ∃ t, e.text = _
  unfold RelativeExtra.text
  rw [this]
  exact ⟨_, rfl⟩

theorem geos_text (e : GEOSExtra) : ∃ t, (Extra.geos e).text = 'G' :: t := by
  have : lit "GEOS(" = 'G' :: lit "EOS(" := by decide +kernel
  show ∃ t, e.text = _
  unfold GEOSExtra.text
  rw [this]
  exact ⟨_, rfl⟩

theorem extra_inj {e e' : Extra} {x y : List Char} (h : e.text ++ x = e'.text ++ y) :
    e.more = e'.more ∧ x = y := by
  have hLR : ∀ u r (x y : List Char), (Extra.linear u).text ++ x ≠ (Extra.relative r).text ++ y := by
    intro u r x y h
    obtain ⟨t, ht⟩ := relative_text r
    rw [regular_text, ht] at h
    simp only [List.cons_append, List.cons.injEq] at h
    exact absurd h.2.2.1 (by decide)
  have hLG : ∀ u r (x y : List Char), (Extra.linear u).text ++ x ≠ (Extra.geos r).text ++ y := by
    intro u r x y h
    obtain ⟨t, ht⟩ := geos_text r
    rw [regular_text, ht] at h
    simp only [List.cons_append, List.cons.injEq] at h
    exact absurd h.1 (by decide)
  have hRG : ∀ u r (x y : List Char), (Extra.relative u).text ++ x ≠ (Extra.geos r).text ++ y := by
    intro u r x y h
    obtain ⟨t, ht⟩ := geos_text r
    obtain ⟨t', ht'⟩ := relative_text u
    rw [ht', ht] at h
    simp only [List.cons_append, List.cons.injEq] at h
    exact absurd h.1 (by decide)
  cases e with
  | linear u =>
    cases e' with
    | linear u' => exact ⟨rfl, List.append_cancel_left h⟩
    | relative r => exact absurd h (hLR _ _ _ _)
    | geos g => exact absurd h (hLG _ _ _ _)
  | relative r =>
    cases e' with
    | linear u => exact absurd h.symm (hLR _ _ _ _)
    | geos g => exact absurd h (hRG _ _ _ _)
    | relative r' =>
      change r.text ++ x = r'.text ++ y at h
      simp only [RelativeExtra.text, List.append_assoc] at h
      generalize lit "REL(side=" = p at h
      generalize lit " rec_len=" = q at h
      have h := List.append_cancel_left h
      obtain ⟨h1, h3⟩ := locationText_inj h
      have h3 := List.append_cancel_left h3
      simp only [List.cons_append, List.nil_append] at h3
      obtain ⟨h3, h4⟩ := split_first (not_mem_decimal (by decide)) (not_mem_decimal (by decide)) h3
      refine ⟨?_, h4⟩
      simp only [Extra.more, h1, byte_of_toNat (decimal_inj h3)]
  | geos g =>
    cases e' with
    | linear u => exact absurd h.symm (hLG _ _ _ _)
    | relative r => exact absurd h.symm (hRG _ _ _ _)
    | geos g' =>
      change g.text ++ x = g'.text ++ y at h
      simp only [GEOSExtra.text, List.append_assoc] at h
      generalize lit "GEOS(" = p at h
      have h := List.append_cancel_left h
      rw [show lit ", " = [',', ' '] from by decide +kernel] at h
      simp only [List.cons_append, List.nil_append] at h
      have hs : ∀ s : GEOSFileStructure, ',' ∉ s.text := fun s hm =>
        absurd (geosStructure_text_chars hm) (by decide +kernel)
      have ht : ∀ s : GEOSFileType, ',' ∉ s.text := fun s hm =>
        absurd (geosType_text_chars hm) (by decide +kernel)
      obtain ⟨a1, h⟩ := split_first (hs _) (hs _) h
      obtain ⟨a2, h⟩ := split_first (ht _) (ht _) (List.cons.inj h).2
      have hz : ∀ {w n : Nat}, '-' ∉ zeroPadded w n := mem_zeroPadded (by decide)
      obtain ⟨a3, h⟩ := split_first hz hz (List.cons.inj h).2
      obtain ⟨a4, h⟩ := split_first hz hz h
      obtain ⟨a5, h⟩ := split_first hz hz h
      obtain ⟨a6, h⟩ := split_first (mem_zeroPadded (by decide)) (mem_zeroPadded (by decide)) h
      obtain ⟨a7, h⟩ := split_first (mem_zeroPadded (by decide)) (mem_zeroPadded (by decide)) h
      refine ⟨?_, h⟩
      have a3 := zeroPadded_inj a3
      simp only [Extra.more, geosStructure_text_inj a1, geosType_text_inj a2,
        byte_of_toNat (by omega : g.year.toNat = g'.year.toNat), byte_of_toNat (zeroPadded_inj a4),
        byte_of_toNat (zeroPadded_inj a5), byte_of_toNat (zeroPadded_inj a6),
        byte_of_toNat (zeroPadded_inj a7)]

theorem location_chars {l : Location} {c : Char} (h : c ∈ l.text) :
    c.isDigit = true ∨ c ∈ ['(', ',', ')'] := by
  simp only [Location.text, List.mem_append, List.mem_singleton] at h
  rcases h with (((h | h) | h) | h) | h
  · subst h; decide
  · exact .inl (decimal_digit h)
  · subst h; decide
  · exact .inl (decimal_digit h)
  · subst h; decide

theorem zeroPadded_digit {w n : Nat} {c : Char} (h : c ∈ zeroPadded w n) : c.isDigit = true := by
  cases hc : c.isDigit with
  | true => rfl
  | false => exact absurd h (mem_zeroPadded hc)

theorem wordChars_plain : ∀ c ∈ ' ' :: '-' :: wordChars, c ≠ '"' ∧ c ≠ '\n' := by decide +kernel

theorem digit_plain {c : Char} (h : c.isDigit = true) : c ≠ '"' ∧ c ≠ '\n' := by
  constructor <;> (intro hc; subst hc; exact absurd h (by decide))

theorem extra_chars {e : Extra} {c : Char} (h : c ∈ e.text) : c ≠ '"' ∧ c ≠ '\n' := by
  cases e with
  | linear u =>
    exact (by decide +kernel : ∀ c ∈ lit "REGULAR", c ≠ '"' ∧ c ≠ '\n') c h
  | relative r =>
    change c ∈ r.text at h
    simp only [RelativeExtra.text, List.mem_append, List.mem_singleton] at h
    rcases h with (((h | h) | h) | h) | h
    · exact (by decide +kernel : ∀ c ∈ lit "REL(side=", c ≠ '"' ∧ c ≠ '\n') c h
    · rcases location_chars h with h | h
      · exact digit_plain h
      · exact (by decide : ∀ c ∈ ['(', ',', ')'], c ≠ '"' ∧ c ≠ '\n') c h
    · exact (by decide +kernel : ∀ c ∈ lit " rec_len=", c ≠ '"' ∧ c ≠ '\n') c h
    · exact digit_plain (decimal_digit h)
    · subst h; decide
  | geos g =>
    change c ∈ g.text at h
    have hp : ∀ c ∈ lit ", ", c ≠ '"' ∧ c ≠ '\n' := by decide +kernel
    simp only [GEOSExtra.text, List.mem_append, List.mem_singleton] at h
    rcases h with ((((((((((((((h | h) | h) | h) | h) | h) | h) | h) | h) | h) | h) | h) | h) | h) | h)
    · exact (by decide +kernel : ∀ c ∈ lit "GEOS(", c ≠ '"' ∧ c ≠ '\n') c h
    · exact wordChars_plain c (List.mem_cons_of_mem _ (List.mem_cons_of_mem _ (geosStructure_text_chars h)))
    · exact hp c h
    · exact wordChars_plain c (geosType_text_chars h)
    · exact hp c h
    · exact digit_plain (zeroPadded_digit h)
    · subst h; decide
    · exact digit_plain (zeroPadded_digit h)
    · subst h; decide
    · exact digit_plain (zeroPadded_digit h)
    · subst h; decide
    · exact digit_plain (zeroPadded_digit h)
    · subst h; decide
    · exact digit_plain (zeroPadded_digit h)
    · subst h; decide

/-! ## Directory lines -/

/-- What follows the attributes on a line. -/
def lineTail (e : DirectoryEntry) (alternate : Bool) : List Char :=
  (if alternate then [' '] ++ e.extra.text else [])
    ++ (if e.geosBorder then lit " (GEOS border)" else [])

theorem border_text : lit " (GEOS border)" = ' ' :: lit "(GEOS border)" := by decide +kernel

theorem lineTail_blank (e : DirectoryEntry) (alternate : Bool) :
    lineTail e alternate = [] ∨ ∃ t, lineTail e alternate = ' ' :: t := by
  unfold lineTail
  rw [border_text]
  cases alternate <;> cases e.geosBorder <;> simp

theorem lineTail_chars {e : DirectoryEntry} {alternate : Bool} {c : Char}
    (h : c ∈ lineTail e alternate) : c ≠ '"' ∧ c ≠ '\n' := by
  simp only [lineTail, List.mem_append] at h
  rcases h with h | h
  · cases alternate with
    | false => cases h
    | true =>
      rw [if_pos rfl] at h
      rcases List.mem_cons.mp h with h | h
      · subst h; decide
      · exact extra_chars h
  · cases hb : e.geosBorder with
    | false => rw [hb] at h; cases h
    | true =>
      rw [hb, if_pos rfl] at h
      exact (by decide +kernel : ∀ c ∈ lit " (GEOS border)", c ≠ '"' ∧ c ≠ '\n') c h

theorem entry_text (e : DirectoryEntry) (alternate : Bool) :
    e.text alternate = (padRight 4 (decimal e.fileSize) ++ ' ' :: '"' :: petsciiText e.filename)
      ++ '"' :: (List.replicate (16 - e.filename.length) ' ' ++ (e.attributes.text ++ lineTail e alternate)) := by
  have hl : 18 - (['"'] ++ petsciiText e.filename ++ ['"']).length = 16 - e.filename.length := by
    simp only [List.length_append, List.length_singleton, petsciiText_length]
    omega
  unfold DirectoryEntry.text
  rw [show padRight 18 (['"'] ++ petsciiText e.filename ++ ['"']) =
    ['"'] ++ petsciiText e.filename ++ ['"'] ++ List.replicate (16 - e.filename.length) ' ' from by
      unfold padRight; rw [hl]]
  simp only [lineTail, List.append_assoc, List.cons_append, List.nil_append]

theorem entry_newline (e : DirectoryEntry) (alternate : Bool) : '\n' ∉ e.text alternate := by
  rw [entry_text]
  simp only [List.mem_append, List.mem_cons, not_or]
  refine ⟨⟨?_, by decide, by decide, petsciiText_newline _⟩, by decide, ?_, (attributes_chars _).2,
    fun h => (lineTail_chars h).2 rfl⟩
  · rw [mem_padRight (by decide)]
    exact not_mem_decimal (by decide)
  · simp

theorem lineTail_inj {e e' : DirectoryEntry} {alternate : Bool}
    (h : lineTail e alternate = lineTail e' alternate) :
    (alternate = true → e.extra.more = e'.extra.more) ∧ e.geosBorder = e'.geosBorder := by
  unfold lineTail at h
  have hb : ∀ {x y : Bool}, (if x then lit " (GEOS border)" else []) =
      (if y then lit " (GEOS border)" else []) → x = y := by
    intro x y hxy
    rw [border_text] at hxy
    cases x <;> cases y <;> simp at hxy <;> rfl
  cases alternate with
  | false =>
    refine ⟨nofun, hb ?_⟩
    simpa using h
  | true =>
    simp only [if_true, List.cons_append, List.nil_append, List.cons.injEq, true_and] at h
    obtain ⟨h1, h2⟩ := extra_inj h
    exact ⟨fun _ => h1, hb h2⟩

theorem entry_inj {e e' : DirectoryEntry} {alternate : Bool} (h : e.text alternate = e'.text alternate) :
    e.fileSize = e'.fileSize ∧ petsciiText e.filename = petsciiText e'.filename ∧
      e.attributes.closed = e'.attributes.closed ∧
      e.attributes.fileType.text = e'.attributes.fileType.text ∧
      e.attributes.locked = e'.attributes.locked ∧
      e.attributes.saveWithReplace = e'.attributes.saveWithReplace ∧
      e.geosBorder = e'.geosBorder ∧ (alternate = true → e.extra.more = e'.extra.more) := by
  have hq : ∀ e : DirectoryEntry, '"' ∉ List.replicate (16 - e.filename.length) ' ' ++
      (e.attributes.text ++ lineTail e alternate) := by
    intro e
    simp only [List.mem_append, not_or]
    exact ⟨by simp, (attributes_chars _).1, fun h => (lineTail_chars h).1 rfl⟩
  rw [entry_text, entry_text] at h
  obtain ⟨h1, h2⟩ := split_last (hq e) (hq e') h
  have hs : ∀ n (t : List Char), padRight 4 (decimal n) ++ ' ' :: t =
      decimal n ++ ' ' :: (List.replicate (4 - (decimal n).length) ' ' ++ t) := by
    intro n t
    unfold padRight
    rw [List.append_assoc]
    congr 1
    rw [← List.cons_append, ← List.replicate_succ, List.replicate_succ', List.append_assoc]
    rfl
  rw [hs, hs] at h1
  obtain ⟨hn, h1⟩ := split_first (not_mem_decimal (by decide)) (not_mem_decimal (by decide)) h1
  rw [hn] at h1
  have hname := (List.cons.inj (List.append_cancel_left h1)).2
  have hlen : e.filename.length = e'.filename.length := by
    rw [← petsciiText_length, hname, petsciiText_length]
  rw [hlen] at h2
  obtain ⟨a1, a2, a3, a4, h2⟩ := attributes_inj (lineTail_blank _ _) (lineTail_blank _ _)
    (List.append_cancel_left h2)
  obtain ⟨b1, b2⟩ := lineTail_inj h2
  exact ⟨decimal_inj hn, hname, a1, a2, a3, a4, b2, b1⟩

end Cbm
