import Verif.Model.Basic
/-!
# What the textual renderings must look like

Written from the documentation of the renderings, without the code that prints
them.
-/

namespace Cbm.Spec

/-- The lines of a text: what lies between the newlines, so that a text without
a newline is one line. -/
def splitLines : List Char → List (List Char)
  | [] => [[]]
  | c :: cs =>
    if c = '\n' then [] :: splitLines cs
    else
      match splitLines cs with
      | [] => [[c]]
      | l :: ls => (c :: l) :: ls

/-! ## Hex dumps -/

/-- A byte as two lower-case hexadecimal digits. -/
def hexPair (b : Byte) : List Char :=
  let digits := "0123456789abcdef".toList
  [digits.getD (b.toNat / 16) '?', digits.getD (b.toNat % 16) '?']

/-- A number in hexadecimal, with leading zeros up to four digits (Lean's own
digit printer). -/
def hexNumber (n : Nat) : List Char := List.leftpad 4 '0' (Nat.toDigits 16 n)

/-- A byte in the character column of the dump: itself if it is printable ASCII. -/
def shown (b : Byte) : Char := if ' '.toNat ≤ b.toNat ∧ b.toNat ≤ '~'.toNat then Char.ofNat b.toNat else '.'

/-- One of the sixteen columns: a byte and a blank, or three blanks. -/
def dumpCell : Option Byte → List Char
  | some b => hexPair b ++ [' ']
  | none => [' ', ' ', ' ']

/-- Line `k` of the dump of `bytes`: the prefix, the offset, sixteen columns of
which those beyond the last byte are blank, and the characters. -/
def dumpLine (pre : List Char) (bytes : List Byte) (k : Nat) : List Char :=
  pre ++ hexNumber (16 * k) ++ [':', ' ']
    ++ (List.range 16).flatMap (fun j => dumpCell bytes[16 * k + j]?)
    ++ ((bytes.drop (16 * k)).take 16).map shown

/-! ## Sprites -/

/-- The pixel in column `x` (0–23) and line `y` of a sprite: three bytes a line, the
leftmost pixel in the highest bit; there is nothing below line 20. -/
def pixel (data : List Byte) (x y : Nat) : Bool :=
  match data[3 * y + x / 8]? with
  | some b => b.toNat.testBit (7 - x % 8)
  | none => false

/-- The Unicode block element with the given quadrants set (upper left, upper
right, lower left, lower right), by the names of the code charts. -/
def quadrant : Bool → Bool → Bool → Bool → Char
  | false, false, false, false => Char.ofNat 0x20    -- SPACE
  | false, false, false, true => Char.ofNat 0x2597   -- QUADRANT LOWER RIGHT
  | false, false, true, false => Char.ofNat 0x2596   -- QUADRANT LOWER LEFT
  | false, false, true, true => Char.ofNat 0x2584    -- LOWER HALF BLOCK
  | false, true, false, false => Char.ofNat 0x259D   -- QUADRANT UPPER RIGHT
  | false, true, false, true => Char.ofNat 0x2590    -- RIGHT HALF BLOCK
  | false, true, true, false => Char.ofNat 0x259E    -- UPPER RIGHT AND LOWER LEFT
  | false, true, true, true => Char.ofNat 0x259F     -- UPPER RIGHT, LOWER LEFT AND LOWER RIGHT
  | true, false, false, false => Char.ofNat 0x2598   -- QUADRANT UPPER LEFT
  | true, false, false, true => Char.ofNat 0x259A    -- UPPER LEFT AND LOWER RIGHT
  | true, false, true, false => Char.ofNat 0x258C    -- LEFT HALF BLOCK
  | true, false, true, true => Char.ofNat 0x2599     -- UPPER LEFT, LOWER LEFT AND LOWER RIGHT
  | true, true, false, false => Char.ofNat 0x2580    -- UPPER HALF BLOCK
  | true, true, false, true => Char.ofNat 0x259C     -- UPPER LEFT, UPPER RIGHT AND LOWER RIGHT
  | true, true, true, false => Char.ofNat 0x259B     -- UPPER LEFT, UPPER RIGHT AND LOWER LEFT
  | true, true, true, true => Char.ofNat 0x2588      -- FULL BLOCK

/-- The glyph in column `c` and text row `r`: the four pixels of its square. -/
def squareGlyph (data : List Byte) (r c : Nat) : Char :=
  quadrant (pixel data (2 * c) (2 * r)) (pixel data (2 * c + 1) (2 * r))
    (pixel data (2 * c) (2 * r + 1)) (pixel data (2 * c + 1) (2 * r + 1))

end Cbm.Spec
