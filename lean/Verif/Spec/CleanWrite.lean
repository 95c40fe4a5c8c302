import Verif.Spec.Rename
import Verif.Model.Session
/-!
# Writing to a file of a disk with files of any kind (specification)
-/

namespace Cbm.Spec

/-- An entry of a listing after the size of the file in slot `p` became `n`. -/
def sizedAt (p : Position) (n : Nat) (e : DirectoryEntry) : DirectoryEntry :=
  if e.position = some p then { e with fileSize := n } else e

/-- What may be left of the bytes given to a number of calls: the first so many of each. -/
inductive Partly : List (List Byte) → List Byte → Prop
  | nil : Partly [] []
  | cons {buf bufs more} (n : Nat) : Partly bufs more → Partly (buf :: bufs) (buf.take n ++ more)

/-- A call on writer `i`: a write of these bytes, or a flush. -/
def writerCall (i : Nat) : Option (List Byte) → Call
  | some buf => .write i buf
  | none => .flush i

/-- Every one of the calls succeeds. -/
def AllOk : List Call → Session → Prop
  | [], _ => True
  | c :: cs, x => (Session.step c x).1 = .ok () ∧ AllOk cs (Session.step c x).2

end Cbm.Spec
