import Verif.Model.Basic
/-!
# src/util/mod.rs: the hex dump

Output is a list of characters.  The formatter `f` is taken to accept every
write, so `fmt::Result` is not modelled.
-/

namespace Cbm

/-- The digit that `{:x}` prints for a value below 16. -/
def hexDigit (n : Nat) : Char :=
  if n < 10 then Char.ofNat ('0'.toNat + n) else Char.ofNat ('a'.toNat + (n - 10))

/-- `{:x}` of an unsigned integer: no leading zeros, one digit for zero. -/
def lowerHex (n : Nat) : List Char :=
  if n < 16 then [hexDigit n] else lowerHex (n / 16) ++ [hexDigit (n % 16)]
termination_by n
decreasing_by omega

/-- `{:0wx}`: padded with zeros on the left to at least `w` digits. -/
def paddedHex (w n : Nat) : List Char :=
  List.replicate (w - (lowerHex n).length) '0' ++ lowerHex n

/-- src/util/mod.rs:10 `COLUMNS`. -/
def hexColumns : Nat := 16

/-- src/util/mod.rs:38-44: the character shown for a byte. -/
def asciiOf (b : Byte) : Char :=
  if 0x20 ≤ b.toNat ∧ b.toNat ≤ 0x7E then Char.ofNat b.toNat else '.'

/-- src/util/mod.rs:20-44: what one pass of the loop prints before the newline. -/
def hexRow (prefix_ : List Char) (offset : Nat) (buffer : List Byte) : List Char :=
  let nextOffset := offset + hexColumns
  let rowSize := if nextOffset ≤ buffer.length then hexColumns else buffer.length - offset
  let padding := if nextOffset ≤ buffer.length then 0 else nextOffset - buffer.length
  let row := slice buffer offset rowSize
  prefix_ ++ paddedHex 4 offset ++ [':', ' ']
    ++ row.flatMap (fun b => paddedHex 2 b.toNat ++ [' '])
    ++ (List.range padding).flatMap (fun _ => [' ', ' ', ' '])
    ++ row.map asciiOf

/-- src/util/mod.rs:18-50: the loop from a given `offset` on. -/
def hexLoop (prefix_ : List Char) (buffer : List Byte) (offset : Nat) : List Char :=
  if offset < buffer.length then
    hexRow prefix_ offset buffer
      ++ (if offset + hexColumns < buffer.length then ['\n'] else [])
      ++ hexLoop prefix_ buffer (offset + hexColumns)
  else []
termination_by buffer.length - offset
decreasing_by simp only [hexColumns] at *; omega

/-- src/util/mod.rs:5-53 `hexdump`. -/
def hexdump (prefix_ : List Char) (buffer : List Byte) : List Char :=
  (if buffer = [] then prefix_ ++ paddedHex 4 0 ++ [':', ' '] else [])
    ++ hexLoop prefix_ buffer 0

end Cbm
