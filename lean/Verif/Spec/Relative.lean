import Verif.Spec.Chain
import Verif.Spec.Slots
/-!
# Relative files (specification)

A relative file is a stream of bytes in data sectors, cut into records of equal
length.  The data sectors are named, in order, by the side sectors: a chain of at
most six sectors, each of which also lists all side sectors.
-/

namespace Cbm.Spec

/-- Consecutive pairs of bytes, as locations. -/
def pairs : List Byte → List Location
  | a :: b :: rest => ⟨a, b⟩ :: pairs rest
  | _ => []

/-- The side sectors listed in a side sector: six pairs from offset 4, track 0
marking an unused one. -/
def listedSides (b : List Byte) : List Location :=
  (pairs (slice b 4 12)).filter fun l => l.track != 0

/-- The data sectors listed in a side sector: from offset 16 to the end of its
used bytes. -/
def listedData (b : List Byte) : List Location := pairs (slice b 16 (usedBytes b - 16))

/-- `side` are the side sectors of a relative file, starting at `first`, and
`data` the data sectors they name. -/
structure SideSectors (d : Device) (s : Shape) (first : Location) (side data : List Location) :
    Prop where
  start : side.head? = some first
  chain : ∃ content, IsChain d s side content
  few : side.length ≤ 6
  listed : ∀ l ∈ side, listedSides (d.blk s l) = side
  whole : ∀ l ∈ side, 16 ≤ usedBytes (d.blk s l) ∧ usedBytes (d.blk s l) % 2 = 0
  data : data = side.flatMap fun l => listedData (d.blk s l)

/-- The last data sector is marked as the last of its chain and the data sectors
hold `size` bytes: 254 in each but the last. -/
def DataSize (d : Device) (s : Shape) (data : List Location) (size : Nat) : Prop :=
  (data = [] ∧ size = 0) ∨
  ∃ init t, data = init ++ [t] ∧ s.Valid t ∧ byteAt (d.blk s t) 0 = 0 ∧ byteAt (d.blk s t) 1 ≠ 0 ∧
    size = 254 * init.length + ((byteAt (d.blk s t) 1).toNat - 1)

/-- The data sectors exist and hold the bytes `stream`. -/
def DataStream (d : Device) (s : Shape) (data : List Location) (stream : List Byte) : Prop :=
  (data = [] ∧ stream = []) ∨
  ∃ init t, data = init ++ [t] ∧ (∀ l ∈ data, s.Valid l) ∧ byteAt (d.blk s t) 0 = 0 ∧
    byteAt (d.blk s t) 1 ≠ 0 ∧
    stream = payload d s init ++ slice (d.blk s t) 2 ((byteAt (d.blk s t) 1).toNat - 1)

/-- In particular the data sectors of an ordinary chain. -/
theorem IsChain.dataStream {d : Device} {s : Shape} {data : List Location} {stream : List Byte}
    (h : IsChain d s data stream) : DataStream d s data stream := by
  obtain ⟨init, t, h1, h2, h3, h4⟩ := h.last
  exact .inr ⟨init, t, h1, h.valid, h2, h3, h4⟩

end Cbm.Spec
