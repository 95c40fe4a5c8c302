import Verif.Model.Display
import Verif.Spec.Text
/-!
# What the printed texts must tell (specification)

Stated on the bytes of the directory slot, of the sector, of the info block, without the
code that prints.
-/

namespace Cbm.Spec

/-! ## Directory lines -/

/-- The name of a file type in a listing, from the low half of the attribute byte. -/
def typeName : Nat → List Char
  | 0 => "del".toList
  | 1 => "seq".toList
  | 2 => "prg".toList
  | 3 => "usr".toList
  | 4 => "rel".toList
  | _ => "unk".toList

/-- What a line of the listing tells about a file. -/
structure Row where
  size : Nat
  name : List Char
  type : List Char
  splat : Bool
  locked : Bool
  replace : Bool
  border : Bool
  deriving DecidableEq, Repr

/-- The row of a 32-byte directory slot: the little-endian size in its last two bytes, the
characters of the name up to the padding, and the attribute byte, in which the three top
bits are "closed", "locked" and "save with replace". -/
def Row.ofSlot (slot : List Byte) (border : Bool) : Row :=
  let attr := (byteAt slot 2).toNat
  { size := (byteAt slot 30).toNat + 256 * (byteAt slot 31).toNat
    name := (fromPaddedBytes ((slot.drop 5).take 16) 0xA0).map
      fun b => Char.ofNat (petsciiToUnicodeChar b)
    type := typeName (attr % 16)
    splat := !attr.testBit 7
    locked := attr.testBit 6
    replace := attr.testBit 5
    border }

/-- The row of a directory entry in memory. -/
def Row.of (e : DirectoryEntry) : Row :=
  { size := e.fileSize
    name := e.filename.map fun b => Char.ofNat (petsciiToUnicodeChar b)
    type := typeName (e.attributes.toByte.toNat % 16)
    splat := !e.attributes.closed
    locked := e.attributes.locked
    replace := e.attributes.saveWithReplace
    border := e.geosBorder }

/-- The line that is to be printed for a row: the size from column 0, the quoted name from
column 5 and the rest from column 23, provided that the size has at most four digits and
the name at most sixteen characters. -/
def Row.line (r : Row) : List Char :=
  List.rightpad 4 ' ' (Nat.toDigits 10 r.size) ++ [' '] ++
  List.rightpad 18 ' ' ('"' :: r.name ++ ['"']) ++
  [if r.splat then '*' else ' '] ++ r.type ++
  (if r.locked || r.replace then
    (if r.locked then ['<'] else []) ++ (if r.replace then ['@'] else [])
   else [' ']) ++
  (if r.border then " (GEOS border)".toList else [])

/-- The row of an ordinary file, from its name, its attribute byte and its size. -/
def Row.ofFile (name : List Byte) (attr : Byte) (size : Nat) : Row :=
  { size
    name := name.map fun b => Char.ofNat (petsciiToUnicodeChar b)
    type := typeName (attr.toNat % 16)
    splat := !attr.toNat.testBit 7
    locked := attr.toNat.testBit 6
    replace := attr.toNat.testBit 5
    border := false }

/-- What the verbose line tells besides: nothing for ordinary files, the side sector and
the record length of a relative file, the structure, the type and the time of a GEOS
file. -/
inductive More where
  | ordinary
  | relative (side : Byte × Byte) (recordLength : Byte)
  | geos (structure_ type year month day hour minute : Byte)
  deriving DecidableEq, Repr

/-- The further information in the slot, by the kind of file: relative files have type
4; a slot of one of the types 0–3 is a GEOS file if bytes 23 and 24 are not both zero and
byte 23 is 0 or 1. -/
def More.ofSlot (slot : List Byte) : More :=
  let type := (byteAt slot 2).toNat % 16
  if type = 4 then .relative (byteAt slot 21, byteAt slot 22) (byteAt slot 23)
  else if type % 8 < 4 ∧ (byteAt slot 23 ≠ 0 ∨ byteAt slot 24 ≠ 0) ∧ (byteAt slot 23).toNat ≤ 1 then
    .geos (byteAt slot 23) (byteAt slot 24) (byteAt slot 25) (byteAt slot 26) (byteAt slot 27)
      (byteAt slot 28) (byteAt slot 29)
  else .ordinary

/-- Bytes of PETSCII text as characters. -/
def chars (p : List Byte) : List Char := p.map fun b => Char.ofNat (petsciiToUnicodeChar b)

/-- The first line of a listing: the name of the disk in quotes, its id, and the DOS
version and format type; on a GEOS disk also the GEOS label. -/
def titleLine (h : Header) : List Char :=
  "0 \"".toList ++ chars h.diskName ++ "\" ".toList ++ chars [h.diskId.1, h.diskId.2] ++ [' '] ++
    chars [h.directoryDosVersion, h.directoryFormatType] ++
    (match h.geos with
     | some g => " (".toList ++ escaped g.id ++ [')']
     | none => [])

/-- The last line of a listing. -/
def freeLine (n : Nat) : List Char := Nat.toDigits 10 n ++ " blocks free.".toList

end Cbm.Spec
