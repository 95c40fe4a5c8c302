import Verif.Spec.Display
import Verif.Spec.Bam
import Verif.Spec.Observe
/-!
# What the reports must tell (specification)
-/

namespace Cbm.Spec

/-! ## Validation -/

/-- What a line of `cdisk validate` tells: the error, with the names as characters. -/
inductive Finding where
  | system (l : Location)
  | misallocated (l : Location)
  | misoccupied (l : Location) (owner : List Char)
  | overoccupied (l : Location) (owner other : List Char)
  | unreadable (e : DiskError) (name : List Char)
  deriving DecidableEq, Repr

def Finding.of : ValidationError → Finding
  | .systemSectorNotAllocated l => .system l
  | .sectorMisallocated l => .misallocated l
  | .sectorMisoccupied l n => .misoccupied l (chars n)
  | .sectorOveroccupied l a b => .overoccupied l (chars a) (chars b)
  | .fileScanError e n => .unreadable e (chars n)

/-! ## The map of free blocks -/

/-- A number with at least two digits. -/
def twoDigits (n : Nat) : List Char := List.leftpad 2 '0' (Nat.toDigits 10 n)

/-- The line of a track: its number, the recorded count of free sectors, the number of
sectors, and for each sector a dot if it is free, a cross if it is in use. -/
def bamLine (b : Bam) (ty : DiskType) (track : Nat) : List Char :=
  ['t'] ++ twoDigits track ++ ": [".toList ++ twoDigits ((recorded b track).getD 0) ++ ['/'] ++
    twoDigits (sectorsPerTrack ty track) ++ "] ".toList ++
    (List.range (sectorsPerTrack ty track)).map fun s => if freeAt b track s then '.' else 'x'

end Cbm.Spec
