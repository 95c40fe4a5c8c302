import Verif.Spec.Bam
/-!
# Which block is allocated next (specification)

The two allocation policies, as the comments in the code and the descriptions of the
drives give them: the order in which the tracks are tried, and the order in which the
sectors of the chosen track are.
-/

namespace Cbm.Spec

/-- Tracks `a, a + 1, …, b` that may hold file data. -/
def dataUp (ty : DiskType) (a b : Nat) : List Nat :=
  ((List.range (b + 1 - a)).map (a + ·)).filter fun t => !systemTrack ty t

/-- Tracks `a, a - 1, …, 1` that may hold file data. -/
def dataDown (ty : DiskType) (a : Nat) : List Nat :=
  ((List.range a).map (a - ·)).filter fun t => !systemTrack ty t

/-- The tracks tried for the block after one on track `p`, each with a flag that says
whether the search has moved to another part of the disk.  CBM: away from the directory
track, then the whole other half, then the whole own half.  GEOS: upwards to the last
track, then all tracks from the first.  The directory stays on its track. -/
def trackOrder (ty : DiskType) (geos : Bool) (p : Nat) : List (Nat × Bool) :=
  let dir := directoryTrack ty
  let last := bamTracks ty
  if p = dir then [(p, false)]
  else if geos then
    (p :: dataUp ty (p + 1) last).map (·, false) ++
      if p = 1 then [] else (dataUp ty 1 last).map (·, true)
  else if p < dir then
    (p :: dataDown ty (p - 1)).map (·, false) ++
      (dataUp ty (dir + 1) last ++ dataDown ty (dir - 1)).map (·, true)
  else
    (p :: dataUp ty (p + 1) last).map (·, false) ++
      (dataDown ty (dir - 1) ++ dataUp ty (dir + 1) last).map (·, true)

/-- The tracks tried for the first block of a file (CBM): by distance from the directory
track, the lower one first. -/
def firstTracks (ty : DiskType) : List Nat :=
  let dir := directoryTrack ty
  ((List.range (bamTracks ty)).flatMap fun k => [dir - (k + 1), dir + (k + 1)]).filter
    fun t => decide (1 ≤ t) && decide (t ≤ bamTracks ty)

/-- The distance between consecutive sectors of a file on a track. -/
def interleaveOn (ty : DiskType) (t : Nat) : Nat :=
  if t = directoryTrack ty then
    match ty with
    | .d64 => 3
    | .d71 => 3
    | .d81 => 1
  else
    match ty with
    | .d64 => 10
    | .d71 => 6
    | .d81 => 1

/-- The sector of track `t` at which the search for the block after `p` starts. -/
def startSector (ty : DiskType) (geos : Bool) (p : Location) (t : Nat) (moved : Bool) : Nat :=
  let n := sectorsPerTrack ty t
  if moved then 0
  else if geos then
    if t = p.track.toNat then
      (p.sector.toNat + interleaveOn ty t - if 25 ≤ t then 1 else 0) % n
    else (2 * (t - p.track.toNat) + 4 + interleaveOn ty t) % n
  else
    let s := p.sector.toNat + interleaveOn ty t
    if s < n then s else if s = n then 0 else s - n - 1

/-- Is a sector of the track free? -/
def anyFree (ty : DiskType) (free : Nat → Nat → Bool) (t : Nat) : Bool :=
  (List.range (sectorsPerTrack ty t)).any (free t)

/-- The first free sector of track `t` from sector `s` on, going round the track. -/
def sectorFrom (ty : DiskType) (free : Nat → Nat → Bool) (t s : Nat) : Option Nat :=
  ((List.range (sectorsPerTrack ty t)).map fun k => (s + k) % sectorsPerTrack ty t).find? (free t)

/-- The block allocated after block `p`. -/
def nextBlock (ty : DiskType) (geos : Bool) (free : Nat → Nat → Bool) (p : Location) :
    Option Location :=
  ((trackOrder ty geos p.track.toNat).find? fun x => anyFree ty free x.1).bind fun x =>
    (sectorFrom ty free x.1 (startSector ty geos p x.1 x.2)).map fun s =>
      ⟨UInt8.ofNat x.1, UInt8.ofNat s⟩

/-- The first block of a file. -/
def firstBlock (ty : DiskType) (geos : Bool) (free : Nat → Nat → Bool) : Option Location :=
  if geos then nextBlock ty true free ⟨1, 0⟩
  else ((firstTracks ty).find? fun t => anyFree ty free t).bind fun t =>
    (sectorFrom ty free t 0).map fun s => ⟨UInt8.ofNat t, UInt8.ofNat s⟩

/-- The block, or the error that the disk is full. -/
def orFull : Option Location → Res Location
  | some l => .ok l
  | none => fail .diskFull

/-- The free sectors once block `l` is taken. -/
def without (free : Nat → Nat → Bool) (l : Location) : Nat → Nat → Bool := fun t s =>
  if t = l.track.toNat ∧ s = l.sector.toNat then false else free t s

/-- The first `n` blocks that are taken when each is chosen like the first block of a
file. -/
def firstBlocks (ty : DiskType) (geos : Bool) (free : Nat → Nat → Bool) : Nat → List Location
  | 0 => []
  | n + 1 =>
    match firstBlock ty geos free with
    | none => []
    | some l => l :: firstBlocks ty geos (without free l) n

end Cbm.Spec
