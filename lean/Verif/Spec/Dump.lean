import Verif.Spec.Layout
import Verif.Spec.Text
import Verif.Spec.Report
/-!
# What a dump must show (specification)
-/

namespace Cbm.Spec

/-- The lines of one block: an empty line, its number, and sixteen lines of sixteen bytes. -/
def blockLines (track sector : Nat) (block : List Byte) : List (List Char) :=
  [[], "track ".toList ++ twoDigits track ++ " sector ".toList ++ twoDigits sector] ++
    (List.range 16).map (dumpLine [] block)

/-- The block with the given number in the bytes of an image. -/
def blockOf (ty : DiskType) (bytes : List Byte) (track sector : Nat) : List Byte :=
  slice bytes (256 * (sectorsUpTo ty (track - 1) + sector)) 256

/-- The line of the error table for one track: two digits and a blank for each sector. -/
def errorRow (ty : DiskType) (table : List Byte) (track : Nat) : List Char :=
  "track ".toList ++ twoDigits track ++ ": ".toList ++
    (slice table (sectorsUpTo ty (track - 1)) (sectorsPerTrack ty track)).flatMap fun b =>
      hexPair b ++ [' ']

/-- The lines of an image: all blocks in order, and the error table if there is one. -/
def imageLines (s : Shape) (bytes : List Byte) : List (List Char) :=
  ((allSectors s.type s.tracks).flatMap fun p => blockLines p.1 p.2 (blockOf s.type bytes p.1 p.2)) ++
    if s.errorTable then
      [[], "Error table:".toList] ++
        (List.range s.tracks).map fun t => errorRow s.type (slice bytes (256 * s.sectors) s.sectors) (t + 1)
    else []

/-- The lines of some bytes: sixteen bytes a line; a line with the offset if there are
none. -/
def hexLines (content : List Byte) : List (List Char) :=
  if content = [] then ["0000: ".toList]
  else (List.range ((content.length + 15) / 16)).map (dumpLine [] content)

/-- The lines of the records of a file, from number `i` on. -/
def recordLines : Nat → List (List Byte) → List (List Char)
  | _, [] => []
  | i, c :: cs => ("Record: ".toList ++ Nat.toDigits 10 i) :: (hexLines c ++ recordLines (i + 1) cs)

/-- The lines of a file: its name, and the records with their numbers. -/
def fileLines (name : List Byte) (records : List (List Byte)) : List (List Char) :=
  ("Filename: \"".toList ++ chars name ++ "\"".toList) :: recordLines 0 records

end Cbm.Spec
