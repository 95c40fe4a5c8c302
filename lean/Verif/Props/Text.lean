import Verif.Lemmas.Hex
/-!
# C48, C49: sprites and hex dumps
-/

namespace Cbm

open Spec

/-! ## C48 -/

/-- The rendering of any sprite: eleven lines of twelve glyphs, each of which shows the
2×2 square of pixels at its place. -/
theorem C48_rendering (bytes : List Byte) (h : bytes.length = 63) :
    ∃ sprite text, Sprite.fromBytes bytes = .ok sprite ∧ sprite.toUnicode = .ok text ∧
      splitLines text =
        (List.range 11).map (fun r => (List.range 12).map fun c => squareGlyph bytes r c) ++ [[]] := by
  refine ⟨⟨bytes⟩, _, by simp [Sprite.fromBytes, spriteSize, h], toUnicode_eq h, ?_⟩
  have : ∀ (xs : List Nat), splitLines (xs.flatMap fun r =>
      (List.range 12).map (squareGlyph bytes r) ++ ['\n']) =
      xs.map (fun r => (List.range 12).map fun c => squareGlyph bytes r c) ++ [[]] := by
    intro xs
    induction xs with
    | nil => rfl
    | cons r xs ih =>
      have hr : '\n' ∉ (List.range 12).map (squareGlyph bytes r) := by
        simp only [List.mem_map, not_exists, not_and]
        intro c _
        unfold squareGlyph
        exact fun hq => quadrant_ne_newline _ _ _ _ hq
      rw [List.flatMap_cons, List.append_assoc, List.singleton_append, splitLines_row hr, ih]
      rfl
  exact this _

/-- Different sprites look different, and the bytes of a sprite can be read back. -/
theorem C48_injective (a b : Sprite) (text : List Char) (bytes bytes' : List Byte)
    (ha : Sprite.fromBytes bytes = .ok a) (hb : Sprite.fromBytes bytes' = .ok b)
    (hta : a.toUnicode = .ok text) (htb : b.toUnicode = .ok text) :
    bytes = bytes' ∧ a.toBytes 63 = .ok bytes := by
  simp only [Sprite.fromBytes] at ha hb
  have hla : bytes.length = spriteSize := by
    apply Decidable.byContradiction; intro hn; rw [if_neg hn] at ha; cases ha
  have hlb : bytes'.length = spriteSize := by
    apply Decidable.byContradiction; intro hn; rw [if_neg hn] at hb; cases hb
  rw [if_pos hla] at ha
  rw [if_pos hlb] at hb
  injection ha with ha
  injection hb with hb
  subst ha hb
  change bytes.length = 63 at hla
  change bytes'.length = 63 at hlb
  refine ⟨?_, by simp [Sprite.toBytes, spriteSize, hla]⟩
  rw [toUnicode_eq hla] at hta
  rw [toUnicode_eq hlb] at htb
  have h := (Except.ok.inj hta).trans (Except.ok.inj htb).symm
  have hrow := flatMap_inj_length (fun r _ => by simp) h
  have hbit : ∀ r, r < 11 → ∀ o, o < 3 → ∀ k, k < 4 →
      squareGlyph bytes r (4 * o + k) = squareGlyph bytes' r (4 * o + k) := by
    intro r hr o ho k hk
    have h1 := List.append_cancel_right (hrow r (List.mem_range.mpr hr))
    exact List.map_inj_left.mp h1 (4 * o + k) (List.mem_range.mpr (by omega))
  have hbyte : ∀ i, i < 63 → bytes.getD i 0 = bytes'.getD i 0 := by
    intro i hi
    apply byte_of_bits
    intro j hj
    have hr := hbit (i / 3 / 2) (by omega) (i % 3) (by omega) ((7 - j) / 2) (by omega)
    rw [squareGlyph_eq _ _ _ _ (by omega), squareGlyph_eq _ _ _ _ (by omega)] at hr
    obtain ⟨q1, q2, q3, q4⟩ := quadrant_inj hr
    by_cases hy : i / 3 % 2 = 0 <;> by_cases hx : j % 2 = 0
    · rw [show 3 * (2 * (i / 3 / 2)) + i % 3 = i by omega, show 6 - 2 * ((7 - j) / 2) = j by omega] at q2
      exact q2
    · rw [show 3 * (2 * (i / 3 / 2)) + i % 3 = i by omega, show 7 - 2 * ((7 - j) / 2) = j by omega] at q1
      exact q1
    · rw [show 3 * (2 * (i / 3 / 2) + 1) + i % 3 = i by omega, show 6 - 2 * ((7 - j) / 2) = j by omega] at q4
      exact q4
    · rw [show 3 * (2 * (i / 3 / 2) + 1) + i % 3 = i by omega, show 7 - 2 * ((7 - j) / 2) = j by omega] at q3
      exact q3
  apply List.ext_getElem (by omega)
  intro i h1 h2
  have := hbyte i (by omega)
  simpa [List.getD_eq_getElem?_getD, h1, h2] using this

/-- A sprite with a few pixels set in the first and in the last line. -/
example : ∃ sprite text, Sprite.fromBytes (0xC0 :: List.replicate 61 0 ++ [0x03]) = .ok sprite ∧
    sprite.toUnicode = .ok text ∧ text.head? = some '▀' ∧ text.getD 141 '?' = '▀' ∧
    text.getD 142 '?' = '\n' := by
  refine ⟨_, _, rfl, rfl, ?_, ?_, ?_⟩ <;> decide +kernel

/-! ## C49 -/

/-- The dump of `n > 0` bytes has ⌈n / 16⌉ lines, and line `k` shows bytes `16 k` to
`16 k + 15`.  (The dump of no bytes is one line with the offset.) -/
theorem C49_lines (pre : List Char) (hp : '\n' ∉ pre) (bytes : List Byte) :
    (bytes ≠ [] → splitLines (hexdump pre bytes) =
      (List.range ((bytes.length + 15) / 16)).map (dumpLine pre bytes)) ∧
    (bytes = [] → splitLines (hexdump pre bytes) = [pre ++ "0000: ".toList]) := by
  refine ⟨hexdump_lines hp, ?_⟩
  rintro rfl
  rw [hexdump_nil, splitLines_plain]
  · rw [List.append_assoc]
    rfl
  · simp only [List.mem_append, not_or]
    exact ⟨⟨hp, hexNumber_newline _⟩, by decide⟩

/-- Every byte is shown as two hexadecimal digits, at the place that its offset says. -/
theorem C49_every_byte_shown (pre : List Char) (hp : '\n' ∉ pre) (bytes : List Byte) (i : Nat)
    (hi : i < bytes.length) :
    ∃ line, (splitLines (hexdump pre bytes))[i / 16]? = some line ∧
      (pre ++ hexNumber (16 * (i / 16)) ++ [':', ' ']) <+: line ∧
      slice line (pre.length + (hexNumber (16 * (i / 16))).length + 2 + 3 * (i % 16)) 2 =
        hexPair bytes[i] := by
  have hne : bytes ≠ [] := by rintro rfl; simp at hi
  refine ⟨dumpLine pre bytes (i / 16), ?_, ?_, line_digits pre bytes hi⟩
  · rw [hexdump_lines hp hne, List.getElem?_map, List.getElem?_range (by omega)]
    rfl
  · simp only [dumpLine, List.append_assoc]
    exact ⟨_, by simp only [List.append_assoc]; rfl⟩

/-- Two digits determine the byte. -/
theorem C49_digits_injective (a b : Byte) : hexPair a = hexPair b ↔ a = b :=
  ⟨hexPair_inj, fun h => h ▸ rfl⟩

/-- Different contents give different dumps, whatever the prefix. -/
theorem C49_injective (pre : List Char) (a b : List Byte) :
    hexdump pre a = hexdump pre b ↔ a = b := by
  refine ⟨fun h => ?_, fun h => h ▸ rfl⟩
  by_cases ha : a = [] <;> by_cases hb : b = []
  · rw [ha, hb]
  · have := hexdump_length pre hb
    rw [← h, ha, hexdump_nil] at this
    omega
  · have := hexdump_length pre ha
    rw [h, hb, hexdump_nil] at this
    omega
  · rw [hexdump_cons pre ha, hexdump_cons pre hb] at h
    have h1 : 0 < a.length := List.length_pos_iff.mpr ha
    have h2 : 0 < b.length := List.length_pos_iff.mpr hb
    have := hexLoop_inj pre (a := a) (b := b) a.length 0 (by omega) (by omega) (by omega) h
    simpa using this

example : dumpLine "> ".toList (List.replicate 16 0x41 ++ [0x00, 0x7E]) 1 =
    "> 0010: 00 7e                                           .~".toList := by decide +kernel

example : (splitLines (hexdump "> ".toList (List.replicate 16 0x41 ++ [0x00, 0x7E]))).length = 2 := by
  rw [(C49_lines _ (by decide) _).1 (by decide)]
  rfl

end Cbm
