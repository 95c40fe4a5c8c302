import Verif.Spec.Ready
/-!
# What the `cdisk` commands are asked to do (specification)
-/

namespace Cbm.Spec

/-- The tracks meant by a `TRACK` argument: a number, or `all`, which is tracks 1 to
35. -/
def trackSelected (track : Option Nat) (t : Nat) : Bool :=
  match track with
  | some x => t == x
  | none => decide (1 ≤ t) && decide (t ≤ 35)

/-- The sectors of track `t` meant by a `SECTOR` argument: a number, or `all`. -/
def sectorSelected (ty : DiskType) (sector : Option Nat) (t n : Nat) : Bool :=
  match sector with
  | some y => n == y
  | none => decide (n < sectorsPerTrack ty t)

/-- A disk of a known shape, open for writing, with its BAM in cell `r`. -/
structure OpenAt (disk : Disk) (s : Shape) (r : Nat) (b : Bam) : Prop where
  wf : Wf disk.dev s
  writable : Writable disk.dev
  format : ∃ geos, disk.format = some { s.type.format with geos := geos }
  bam : disk.bam = some r
  cell : disk.cells[r]? = some b

/-- The text is a decimal numeral for `n`, perhaps with a plus sign. -/
def Numeral (text : List Char) (n : Nat) : Prop :=
  ∃ digits, (text = digits ∨ text = '+' :: digits) ∧ digits ≠ [] ∧ (∀ c ∈ digits, c.isDigit) ∧
    Nat.ofDigitChars 10 digits 0 = n

end Cbm.Spec
