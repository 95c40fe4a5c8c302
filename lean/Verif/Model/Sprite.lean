import Verif.Model.Basic
/-!
# src/sprite.rs: sprites and their Unicode rendering
-/

namespace Cbm

/-- src/sprite.rs:1-3. -/
def spriteSize : Nat := 63
def spriteWidth : Nat := 24
def spriteHeight : Nat := 21

/-- src/sprite.rs:7-9 `Sprite`. -/
structure Sprite where
  data : List Byte
  deriving DecidableEq, Repr

/-- src/sprite.rs:15-20 `UNICODE_BLOCK_ELEMENTS`. -/
def unicodeBlockElements : List Char :=
  [' ', '▗', '▖', '▄',
   '▝', '▐', '▞', '▟',
   '▘', '▚', '▌', '▙',
   '▀', '▜', '▛', '█']

/-- src/sprite.rs:23-28 `from_bytes`. -/
def Sprite.fromBytes (bytes : List Byte) : Res Sprite :=
  if bytes.length = spriteSize then .ok ⟨bytes⟩ else rpanic

/-- src/sprite.rs:30-33 `to_bytes` into a slice of `len` bytes: the new content. -/
def Sprite.toBytes (s : Sprite) (len : Nat) : Res (List Byte) :=
  if len = spriteSize ∧ s.data.length = len then .ok s.data else rpanic

/-- src/sprite.rs:52-55: the glyph of the `block`-th pair of columns of two bytes. -/
def spriteGlyph (top bottom : Byte) (block : Nat) : Res Char :=
  let shift := UInt8.ofNat ((3 - block) * 2)
  let topBits := (top >>> shift) &&& 0x03
  let bottomBits := (bottom >>> shift) &&& 0x03
  indexRes unicodeBlockElements ((topBits <<< 2) ||| bottomBits).toNat

/-- src/sprite.rs:45-51: the two bytes that byte column `offset` of a text row shows. -/
def spriteBytes (data : List Byte) (row offset : Nat) : Res (Byte × Byte) := do
  let top ← indexRes data (row * 2 * 3 + offset)
  let bottom ←
    if row * 2 + 1 < spriteHeight then indexRes data ((row * 2 + 1) * 3 + offset) else .ok 0
  return (top, bottom)

/-- src/sprite.rs:52-57: the four glyphs of two bytes, pushed to the string. -/
def pushGlyphs (p : Byte × Byte) (string : List Char) : Res (List Char) :=
  foldRes (fun string block => do
    let c ← spriteGlyph p.1 p.2 block
    return string ++ [c]) (List.range 4) string

/-- src/sprite.rs:43-59: one text row, pushed to the string. -/
def pushRow (data : List Byte) (string : List Char) (row : Nat) : Res (List Char) := do
  let string ← foldRes (fun string offset => do
    let p ← spriteBytes data row offset
    pushGlyphs p string) (List.range 3) string
  return string ++ ['\n']

/-- src/sprite.rs:35-61 `to_unicode`. -/
def Sprite.toUnicode (s : Sprite) : Res (List Char) :=
  foldRes (pushRow s.data) (List.range ((spriteHeight + 1) / 2)) []

end Cbm
