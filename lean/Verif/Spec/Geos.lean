import Verif.Spec.Relative
import Verif.Spec.Chain
import Verif.Model.Directory
/-!
# GEOS files (specification)

A GEOS file has a directory entry, an info block, and either one chain of data
(sequential) or an index sector naming up to 127 records, each a chain (VLIR).
The Convert program flattens such a file to a stream of 254-byte blocks: the
directory entry with a signature, the info block, for VLIR files the index with
each location replaced by the length of the record, and the records.
-/

namespace Cbm.Spec

/-- The records named by an index sector: the pairs of bytes after the link, up to
the first `00 00`. -/
def vlirIndex (b : List Byte) : List Location :=
  (pairs (b.drop 2)).takeWhile fun l => l != ⟨0, 0⟩

/-- The mark of a record that is not there. -/
def noRecord : Location := ⟨0x00, 0xFF⟩

/-- `content` is what the record named by `p` holds: nothing if it is not there,
otherwise the content of the chain that starts at `p`. -/
def RecordAt (d : Device) (s : Shape) (p : Location) (content : List Byte) : Prop :=
  (p = noRecord ∧ content = []) ∨
  (p ≠ noRecord ∧ ∃ locs, locs.head? = some p ∧ IsChain d s locs content)

/-- `records` are the contents of the records that are there, and `lengths` the
converted index: for each record its number of sectors and the last used byte of
the last of them. -/
inductive Converted (d : Device) (s : Shape) :
    List Location → List (List Byte) → List Byte → Prop
  | nil : Converted d s [] [] []
  | absent {ps records lengths} : Converted d s ps records lengths →
      Converted d s (noRecord :: ps) records (0x00 :: 0xFF :: lengths)
  | present {p init t content ps records lengths} : p ≠ noRecord →
      (init ++ [t]).head? = some p → IsChain d s (init ++ [t]) content → init.length < 255 →
      Converted d s ps records lengths →
      Converted d s (p :: ps) (content :: records)
        (UInt8.ofNat (init.length + 1) :: byteAt (d.blk s t) 1 :: lengths)

/-- Zeros up to the next multiple of 254. -/
def padded (xs : List Byte) : List Byte := xs ++ List.replicate ((254 - xs.length % 254) % 254) 0

/-- The records one after the other, each but the last padded. -/
def joined : List (List Byte) → List Byte
  | [] => []
  | [x] => x
  | x :: y :: rest => padded x ++ joined (y :: rest)

/-- `"PRG"` or `"SEQ"`, then `" formatted GEOS file V1.0"`. -/
def signature (vlir : Bool) : List Byte :=
  (if vlir then "PRG formatted GEOS file V1.0" else "SEQ formatted GEOS file V1.0").toUTF8.data.toList

/-- The first block of the stream: the directory entry without its link, and the
signature. -/
def exportHead (slot : List Byte) (vlir : Bool) : List Byte := padded (slot.drop 2 ++ signature vlir)

/-- `stream` is the export of the GEOS file with the directory entry `slot`. -/
inductive Exports (d : Device) (s : Shape) (slot : List Byte) : List Byte → Prop
  | sequential {info : Location} {locs content} :
      entryScheme slot = .geosSequential → info = ⟨byteAt slot 0x15, byteAt slot 0x16⟩ →
      s.Valid info → locs.head? = some ⟨byteAt slot 3, byteAt slot 4⟩ →
      IsChain d s locs content →
      Exports d s slot (exportHead slot false ++ (d.blk s info).drop 2 ++ content)
  | vlir {info index : Location} {records lengths} :
      entryScheme slot = .geosVLIR → info = ⟨byteAt slot 0x15, byteAt slot 0x16⟩ → s.Valid info →
      index = ⟨byteAt slot 3, byteAt slot 4⟩ → s.Valid index →
      Converted d s (vlirIndex (d.blk s index)) records lengths →
      Exports d s slot (exportHead slot true ++ (d.blk s info).drop 2 ++
        (lengths ++ List.replicate (254 - lengths.length) 0) ++ joined records)

/-- `content` is held by one of the chains of the GEOS file with the directory entry `slot`:
the chain of a sequential file, or one of the records of a VLIR file. -/
def PartOf (d : Device) (s : Shape) (slot content : List Byte) : Prop :=
  (entryScheme slot = .geosSequential ∧
    ∃ locs, locs.head? = some ⟨byteAt slot 3, byteAt slot 4⟩ ∧ IsChain d s locs content) ∨
  (entryScheme slot = .geosVLIR ∧ ∃ p ∈ vlirIndex (d.blk s ⟨byteAt slot 3, byteAt slot 4⟩),
    p ≠ noRecord ∧ ∃ locs, locs.head? = some p ∧ IsChain d s locs content)

end Cbm.Spec
