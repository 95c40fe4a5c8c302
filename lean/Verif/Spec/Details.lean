import Verif.Spec.Info
import Verif.Spec.Special
/-!
# The details of files in a directory listing (specification)
-/

namespace Cbm.Spec

/-- A sector. -/
def place (l : Location) : List Char :=
  "(".toList ++ Nat.toDigits 10 l.track.toNat ++ ",".toList ++ Nat.toDigits 10 l.sector.toNat ++ ")".toList

/-- Some sectors, with blanks between them. -/
def places (ls : List Location) : List Char := [' '].intercalate (ls.map place)

/-- The line with the place of a directory slot. -/
def slotLine (p : Position) : List Char :=
  "Directory position: (".toList ++ Nat.toDigits 10 p.location.track.toNat ++ ",".toList ++
    Nat.toDigits 10 p.location.sector.toNat ++ "@0x".toList ++ hexPair p.offset ++ ")".toList

/-- The lines of an info block, if there is one. -/
def infoLines (d : Device) (s : Shape) : List Location → List (List Char)
  | [] => []
  | l :: _ => "GEOS info block:".toList :: (InfoView.ofBlock (d.blk s l)).lines

/-- The records that an index names, each with its sectors unless it is not there. -/
inductive RecordPlaces (d : Device) (s : Shape) : List Location → List (Option (List Location)) → Prop
  | nil : RecordPlaces d s [] []
  | absent {ps rs} : RecordPlaces d s ps rs → RecordPlaces d s (noRecord :: ps) (none :: rs)
  | present {p locs content ps rs} : p ≠ noRecord → locs.head? = some p →
      IsChain d s locs content → RecordPlaces d s ps rs →
      RecordPlaces d s (p :: ps) (some locs :: rs)

/-- The records without those at the end that are not there; all of them if none is there. -/
def shownRecords (rs : List (Option (List Location))) : List (Option (List Location)) :=
  if rs.all Option.isNone then rs else (rs.reverse.dropWhile Option.isNone).reverse

/-- One line for each of the shown records, with its number, and a line that says how many
are not shown. -/
def vlirLines (rs : List (Option (List Location))) : List (List Char) :=
  (shownRecords rs).mapIdx (fun i r =>
    "Record ".toList ++ Nat.toDigits 10 i ++ " sectors: ".toList ++ places (r.getD [])) ++
  if (shownRecords rs).length < rs.length then
    [Nat.toDigits 10 (rs.length - (shownRecords rs).length) ++ " unavailable records follow...".toList]
  else []

/-- The lines that describe the file of a directory entry; where the file is stored is shown
only if `full` is set.  The records of VLIR files are numbered from 1: the link at the
beginning of the index sector counts as an empty record 0. -/
inductive Details (d : Device) (s : Shape) (e : DirectoryEntry) (full : Bool) :
    List (List Char) → Prop
  | ordinary {p locs content} : e.scheme = .linear → e.position = some p →
      locs.head? = some e.firstSector → IsChain d s locs content →
      Details d s e full
        (if full then [slotLine p, "Occupied sectors: ".toList ++ places locs] else [])
  | relative {p ex side data size} : e.scheme = .relative → e.position = some p →
      e.extra = .relative ex → SideSectors d s ex.firstSideSector side data →
      DataSize d s data size → ex.recordLength ≠ 0 → ex.recordLength.toNat ∣ size →
      Details d s e full
        (if full then [slotLine p, "Data sectors: ".toList ++ places data,
          "Side sectors: ".toList ++ places side] else [])
  | sequential {p data info} : e.scheme = .geosSequential → e.position = some p →
      SequentialBlocks d s e data info → (∀ l ∈ info, s.Valid l) →
      Details d s e full
        ((if full then [slotLine p, "Occupied sectors: ".toList ++ places data] else []) ++
          infoLines d s info)
  | vlir {p info rs} : e.scheme = .geosVLIR → e.position = some p → s.Valid e.firstSector →
      linkBytes (d.blk s e.firstSector) = ⟨0, 0xFF⟩ → InfoBlock e info → (∀ l ∈ info, s.Valid l) →
      RecordPlaces d s (vlirIndex (d.blk s e.firstSector)) rs →
      Details d s e full
        ((if full then
            [slotLine p, "VLIR record sector: ".toList ++ place e.firstSector] ++ vlirLines (none :: rs)
          else ["VLIR records: ".toList ++ Nat.toDigits 10 (shownRecords (none :: rs)).length]) ++
          infoLines d s info)

/-- A number with at least `w` digits. -/
def digits (w n : Nat) : List Char := List.leftpad w '0' (Nat.toDigits 10 n)

/-- The time of a GEOS file. -/
def timeWords (year month day hour minute : Byte) : List Char :=
  digits 4 (1900 + year.toNat) ++ "-".toList ++ digits 2 month.toNat ++ "-".toList ++
    digits 2 day.toNat ++ "-".toList ++ digits 2 hour.toNat ++ ":".toList ++ digits 2 minute.toNat

/-- The kind of a GEOS file: its structure, type and time. -/
def geosWords (structure_ type : Byte) (time : List Char) : List Char :=
  "GEOS(".toList ++ nameOfCode ["Sequential", "VLIR"] structure_ ++ ", ".toList ++
    nameOfCode geosTypeNames type ++ ", ".toList ++ time ++ ")".toList

/-- What the verbose line says about the kind of a file: for a relative file the first side
sector and the record length, for a GEOS file the structure, the type and the time. -/
def More.words : More → List Char
  | .ordinary => "REGULAR".toList
  | .relative side len =>
    "REL(side=".toList ++ place ⟨side.1, side.2⟩ ++ " rec_len=".toList ++
      Nat.toDigits 10 len.toNat ++ ")".toList
  | .geos structure_ type year month day hour minute =>
    geosWords structure_ type (timeWords year month day hour minute)

/-- The verbose line of a file: the ordinary line, and after a blank the kind of the file,
before the note about the border. -/
def verboseLine (r : Row) (m : More) : List Char :=
  ({ r with border := false } : Row).line ++ " ".toList ++ m.words ++
    (if r.border then " (GEOS border)".toList else [])

/-- The first entry with the same name. -/
def firstNamed (es : List DirectoryEntry) (e : DirectoryEntry) : DirectoryEntry :=
  (es.find? fun x => x.filename == e.filename).getD e

end Cbm.Spec
