import Verif.Spec.Layout
/-!
# Block chains (specification)

The first two bytes of a sector either name the next sector of the chain (first
byte not zero), or mark the last sector: `00 n` says that bytes `2..n` are used.
`00 00` is not a link.
-/

namespace Cbm.Spec

/-- The first two bytes of a sector, as a location. -/
def linkBytes (b : List Byte) : Location := ⟨byteAt b 0, byteAt b 1⟩

/-- Each sector's link names the next element of the list. -/
def Linked (d : Device) (s : Shape) : List Location → Prop
  | [] => True
  | [_] => True
  | l :: m :: rest => linkBytes (d.blk s l) = m ∧ Linked d s (m :: rest)

/-- Bytes `2..255` of each sector, joined. -/
def payload (d : Device) (s : Shape) (locs : List Location) : List Byte :=
  locs.flatMap fun l => (d.blk s l).drop 2

/-- `locs` is a complete well-formed chain holding `content`: existing sectors,
none twice, each linked to the next, the last one marked as last; the content is
the payload of the full sectors followed by the used bytes of the last. -/
structure IsChain (d : Device) (s : Shape) (locs : List Location) (content : List Byte) : Prop where
  valid : ∀ l ∈ locs, s.Valid l
  nodup : locs.Nodup
  linked : Linked d s locs
  last : ∃ init t, locs = init ++ [t] ∧ byteAt (d.blk s t) 0 = 0 ∧ byteAt (d.blk s t) 1 ≠ 0 ∧
    content = payload d s init ++ slice (d.blk s t) 2 ((byteAt (d.blk s t) 1).toNat - 1)

/-- Following links from `start` visits exactly `locs` (existing, distinct
sectors that link onward) and arrives at `stop`. -/
structure Path (d : Device) (s : Shape) (start : Location) (locs : List Location)
    (stop : Location) : Prop where
  valid : ∀ l ∈ locs, s.Valid l
  nodup : locs.Nodup
  onward : ∀ l ∈ locs, byteAt (d.blk s l) 0 ≠ 0
  linked : Linked d s (locs ++ [stop])
  start : (locs ++ [stop]).head? = some start

end Cbm.Spec
