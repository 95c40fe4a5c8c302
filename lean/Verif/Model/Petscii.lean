import Verif.Model.Basic
/-!
# PETSCII strings (src/petscii.rs)
-/

namespace Cbm

/-- A `Petscii` (src/petscii.rs:99-100) is a byte vector. -/
abbrev Petscii := List Byte

/-- src/petscii.rs:13 `PETSCII_NONE`. -/
def PETSCII_NONE : Byte := 0x7F

/-- src/petscii.rs:9 `NONE` = U+FFFD. -/
def REPLACEMENT : Nat := 0xFFFD

/-- src/petscii.rs:17-75 `PETSCII_TO_CHAR_MAP`, transcribed by script, each
`char` as its Unicode code point (`NONE` is U+FFFD). -/
def PETSCII_TO_CHAR_MAP : List Nat := [
  0xfffd, 0xfffd, 0xfffd, 0xfffd, 0xfffd, 0xfffd, 0xfffd, 0xfffd,
  0xfffd, 0xfffd, 0xfffd, 0xfffd, 0xfffd, 0xfffd, 0xfffd, 0xfffd,
  0xfffd, 0xfffd, 0xfffd, 0xfffd, 0xfffd, 0xfffd, 0xfffd, 0xfffd,
  0xfffd, 0xfffd, 0xfffd, 0xfffd, 0xfffd, 0xfffd, 0xfffd, 0xfffd,
  0x20, 0x21, 0x22, 0x23, 0x24, 0x25, 0x26, 0x27,
  0x28, 0x29, 0x2a, 0x2b, 0x2c, 0x2d, 0x2e, 0x2f,
  0x30, 0x31, 0x32, 0x33, 0x34, 0x35, 0x36, 0x37,
  0x38, 0x39, 0x3a, 0x3b, 0x3c, 0x3d, 0x3e, 0x3f,
  0x40, 0x61, 0x62, 0x63, 0x64, 0x65, 0x66, 0x67,
  0x68, 0x69, 0x6a, 0x6b, 0x6c, 0x6d, 0x6e, 0x6f,
  0x70, 0x71, 0x72, 0x73, 0x74, 0x75, 0x76, 0x77,
  0x78, 0x79, 0x7a, 0x5b, 0xa3, 0x5d, 0x2191, 0x2190,
  0x2501, 0x41, 0x42, 0x43, 0x44, 0x45, 0x46, 0x47,
  0x48, 0x49, 0x4a, 0x4b, 0x4c, 0x4d, 0x4e, 0x4f,
  0x50, 0x51, 0x52, 0x53, 0x54, 0x55, 0x56, 0x57,
  0x58, 0x59, 0x5a, 0x254b, 0xfffd, 0x2503, 0x2592, 0xfffd,
  0xfffd, 0xfffd, 0xfffd, 0xfffd, 0xfffd, 0xfffd, 0xfffd, 0xfffd,
  0xfffd, 0xfffd, 0xfffd, 0xfffd, 0xfffd, 0xfffd, 0xfffd, 0xfffd,
  0xfffd, 0xfffd, 0xfffd, 0xfffd, 0xfffd, 0xfffd, 0xfffd, 0xfffd,
  0xfffd, 0xfffd, 0xfffd, 0xfffd, 0xfffd, 0xfffd, 0xfffd, 0xfffd,
  0xa0, 0x258c, 0x2584, 0x2594, 0x2581, 0x258e, 0x2592, 0x2595,
  0xfffd, 0xfffd, 0x2595, 0x2523, 0x2597, 0x2517, 0x2513, 0x2582,
  0x250f, 0x253b, 0x2533, 0x252b, 0x258e, 0x258d, 0x2595, 0x2594,
  0x2594, 0x2583, 0x2713, 0x2596, 0x259d, 0x2518, 0x2598, 0x259a,
  0x2501, 0x41, 0x42, 0x43, 0x44, 0x45, 0x46, 0x47,
  0x48, 0x49, 0x4a, 0x4b, 0x4c, 0x4d, 0x4e, 0x4f,
  0x50, 0x51, 0x52, 0x53, 0x54, 0x55, 0x56, 0x57,
  0x58, 0x59, 0x5a, 0x254b, 0xfffd, 0x2503, 0x2592, 0xfffd,
  0xa0, 0x258c, 0x2584, 0x2594, 0x2581, 0x258e, 0x2592, 0x2595,
  0xfffd, 0xfffd, 0x2595, 0x2523, 0x2597, 0x2517, 0x2513, 0x2582,
  0x250f, 0x253b, 0x2533, 0x252b, 0x258e, 0x258d, 0x2595, 0x2594,
  0x2594, 0x2583, 0x2713, 0x2596, 0x259d, 0x2518, 0x2598, 0x2592
]

/-- src/petscii.rs:77-79 `petscii_to_unicode_char` (the table has 256 rows, so a
byte index is always in range). -/
def petsciiToUnicodeChar (b : Byte) : Nat := PETSCII_TO_CHAR_MAP.getD b.toNat REPLACEMENT

/-- src/petscii.rs:107-117 `Petscii::from_padded_bytes`: the loop runs backwards
over the bytes and stops at the first byte that is not the pad byte. -/
def fromPaddedBytes (bytes : List Byte) (pad : Byte) : Petscii :=
  (bytes.reverse.dropWhile (· == pad)).reverse

/-- One character of src/petscii.rs:122-135 `Petscii::from_str_lossy`: the index
of the first table row equal to `c`, else `PETSCII_NONE`. -/
def fromCharLossy (c : Nat) : Byte :=
  match PETSCII_TO_CHAR_MAP.findIdx? (· == c) with
  | some p => UInt8.ofNat p
  | none => PETSCII_NONE

/-- src/petscii.rs:122-135 `Petscii::from_str_lossy`; the string is its list of
code points. -/
def fromStrLossy (s : List Nat) : Petscii := s.map fromCharLossy

/-- src/petscii.rs:207-215 `Display for Petscii` / `to_string`. -/
def petsciiToString (p : Petscii) : List Nat := p.map petsciiToUnicodeChar

/-- src/petscii.rs:152-168 `write_bytes_with_padding` into a destination slice of
`dstLen` bytes: `none` is `PetsciiError::BufferExceeded`, otherwise the new
contents of the slice. -/
def writeBytesWithPadding (p : Petscii) (dstLen : Nat) (pad : Byte) : Option (List Byte) :=
  if p.length > dstLen then none
  else some (p ++ List.replicate (dstLen - p.length) pad)

end Cbm
