import Verif.Spec.Display
import Verif.Spec.Chain
import Verif.Spec.Text
/-!
# File type names, info blocks and file details (specification)
-/

namespace Cbm.Spec

/-! ## Names of file types -/

/-- `c` is the lower-case letter `l` or its upper case.  The long s also counts as an s. -/
def Letter (c l : Char) : Prop := c = l ∨ c.toNat + 32 = l.toNat ∨ (c = 'ſ' ∧ l = 's')

/-- `s` is the lower-case word `w`, in letters of either case. -/
def Spells (s w : List Char) : Prop :=
  s.length = w.length ∧ ∀ (i : Nat) (c l : Char), s[i]? = some c → w[i]? = some l → Letter c l

/-! ## Text of an info block -/

/-- The names of the GEOS file types 0–14. -/
def geosTypeNames : List String :=
  ["Non-GEOS", "BASIC", "Assembler", "Data file", "System File", "Desk Accessory", "Application",
   "Application Data", "Font File", "Printer Driver", "Input Driver", "Disk Driver",
   "System Boot File", "Temporary", "Auto-Execute File"]

/-- A code with a name, or else the code itself. -/
def nameOfCode (names : List String) (b : Byte) : List Char :=
  match names[b.toNat]? with
  | some name => name.toList
  | none => "Unknown(0x".toList ++ hexPair b ++ [')']

/-- A byte of text that is to be readable: printable ASCII stands for itself, except for the
backslash and the quotes; a few bytes have an escape of their own; the others are given in
hexadecimal. -/
def readable (b : Byte) : List Char :=
  match "\t\r\n'\"\\".toList.zip "trn'\"\\".toList |>.lookup (Char.ofNat b.toNat) with
  | some c => ['\\', c]
  | none =>
    if ' '.toNat ≤ b.toNat ∧ b.toNat ≤ '~'.toNat then [Char.ofNat b.toNat]
    else ['\\', 'x'] ++ hexPair b

/-- The bytes of a text field of an info block up to the first zero byte. -/
def fieldBytes (b : List Byte) (off size : Nat) : List Byte := (slice b off size).takeWhile (· != 0)

/-- A little-endian number in a block. -/
def wordAt (b : List Byte) (off : Nat) : Nat := (byteAt b off).toNat + 256 * (byteAt b (off + 1)).toNat

/-- What the text of an info block tells. -/
structure InfoView where
  icon : List Byte
  type : Byte
  structure_ : Byte
  load : Nat
  «end» : Nat
  start : Nat
  «class» : List Byte
  author : List Byte
  application : List Byte
  description : List Byte
  deriving DecidableEq, Repr

/-- The places of the fields in an info block. -/
def InfoView.ofBlock (b : List Byte) : InfoView :=
  { icon := slice b 5 63
    type := byteAt b 0x45
    structure_ := byteAt b 0x46
    load := wordAt b 0x47
    «end» := wordAt b 0x49
    start := wordAt b 0x4B
    «class» := fieldBytes b 0x4D 20
    author := fieldBytes b 0x61 20
    application := fieldBytes b 0x75 20
    description := fieldBytes b 0xA0 96 }

/-- The six lines of fields. -/
def InfoView.fieldLines (v : InfoView) : List (List Char) :=
  ["Type: ".toList ++ nameOfCode geosTypeNames v.type ++ " (".toList ++
     nameOfCode ["Sequential", "VLIR"] v.structure_ ++ ")".toList,
   "Program addresses: load=0x".toList ++ hexNumber v.load ++ " end=0x".toList ++ hexNumber v.end ++
     " start=0x".toList ++ hexNumber v.start,
   "Class: ".toList ++ v.class.flatMap readable,
   "Author: ".toList ++ v.author.flatMap readable,
   "Application: ".toList ++ v.application.flatMap readable,
   "Description: ".toList ++ v.description.flatMap readable]

/-- The eleven lines of an info block: the icon, and the fields beside its first six rows. -/
def InfoView.lines (v : InfoView) : List (List Char) :=
  (List.range 11).map fun r =>
    (List.range 12).map (squareGlyph v.icon r) ++ [' '] ++ v.fieldLines.getD r []

end Cbm.Spec
