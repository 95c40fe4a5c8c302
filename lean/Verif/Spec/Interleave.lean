import Verif.Spec.Observe
/-!
# Interleaved writers (specification)

A schedule says which writer does what, in which order.  Writers are named by the order
in which they were opened; a call names a writer by its place among the open ones.
-/

namespace Cbm.Spec

/-- What a writer does. -/
inductive Act where
  | write (buf : List Byte)
  | flush
  | drop
  deriving DecidableEq, Repr

/-- The calls of a schedule, given the open writers; `none` if a writer is used that is
not open. -/
def callsOf (live : List Nat) : List (Nat × Act) → Option (List Call)
  | [] => some []
  | (k, act) :: rest =>
    match live.findIdx? (· == k) with
    | none => none
    | some w =>
      match act with
      | .write buf => (callsOf live rest).map (Call.write w buf :: ·)
      | .flush => (callsOf live rest).map (Call.flush w :: ·)
      | .drop => (callsOf (live.eraseIdx w) rest).map (Call.drop w :: ·)

/-- The data writer `k` writes, in order. -/
def writtenBy (k : Nat) : List (Nat × Act) → List Byte
  | [] => []
  | (j, .write buf) :: rest => (if j = k then buf else []) ++ writtenBy k rest
  | _ :: rest => writtenBy k rest

/-- The last thing writer `k` does is a flush or a drop. -/
def Finished (k : Nat) (sched : List (Nat × Act)) : Prop :=
  (sched.filter (·.1 == k)).getLast? = some (k, .flush) ∨
  (sched.filter (·.1 == k)).getLast? = some (k, .drop)

end Cbm.Spec
