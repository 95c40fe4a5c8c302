import Verif.Model.Cdisk
import Verif.Model.Geos
/-!
# `cdisk geosread`: exporting a GEOS file
-/

namespace Cbm

/-- `io::copy` (std) from a GEOS reader: read again and again until a read delivers nothing.
`sizes` are the sizes of the buffers; if they are used up before the end of the stream the
result is `diverge`. -/
def GEOSReader.copyOut (d : Device) : GEOSReader → List Nat → Res (List Byte)
  | _, [] => .error .diverge
  | r, n :: ns =>
    match r.read d n with
    | (.error e, _) => .error e
    | (.ok piece, r') =>
      if piece.isEmpty then .ok []
      else do
        let rest ← GEOSReader.copyOut d r' ns
        pure (piece ++ rest)

/-- src/bin/cdisk.rs:326-337 `open_geos_file`.  Files that are not GEOS files reach
`unreachable!()`. -/
def openGeosFile (disk : Disk) (name : Petscii) : Res GEOSFile := do
  let (f, _) ← disk.openFile name
  match f with
  | .geosVLIR f => pure f
  | .geosSequential f => pure f
  | _ => rpanic

/-- src/bin/cdisk.rs:340-342 `open_geos_reader`, 410-420 `cmd_geosread`,
src/disk/geos/file.rs:80-82 `reader`: the bytes copied out. -/
def cmdGeosread (ext : Option (List Char)) (name : List Nat) (sizes : List Nat) :
    List Byte → Res (List Byte) × List Byte :=
  inSession ext false (M.read fun s => do
    let f ← openGeosFile s.disk (fromStrLossy name)
    let r ← GEOSReader.new f.entry
    r.copyOut s.disk.dev sizes)

end Cbm
