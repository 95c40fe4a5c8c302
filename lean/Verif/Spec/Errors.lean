import Verif.Model.Error
/-!
# What each error means (specification)
-/

namespace Cbm.Spec

/-- The meaning of each error as documented where it is defined (the doc comments of src/disk/error.rs:9-60). -/
def documented : DiskError → String
  | .unknown => "Unknown error"
  | .readOnly => "Write access attempted to read-only media"
  | .invalidLocation => "Bad track or sector"
  | .invalidOffset => "Offset out of bounds"
  | .invalidHeader => "Invalid header"
  | .invalidBAM => "Invalid BAM"
  | .invalidLayout => "Invalid layout"
  | .invalidRecord => "Record out of bounds"
  | .readOverflow => "Read overflow"
  | .readUnderrun => "Read underrun"
  | .writeUnderrun => "Write underrun"
  | .unformatted => "Attempt to use unformatted media"
  | .notFound => "File not found"
  | .chainLoop => "Chain loop detected"
  | .invalidChainLink => "Invalid chain link"
  | .invalidRelativeFile => "Invalid relative file layout"
  | .unpositioned => "Attempt to write a resource with no embedded position"
  | .filenameTooLong => "Filename exceeds maximum length"
  | .fileExists => "A file with the specified filename already exists"
  | .diskFull => "Disk is full"
  | .invalidRecordIndex => "Invalid record index"
  | .unknownFormat => "Unknown format"
  | .geosInfoNotFound => "A required GEOS info block was not found."
  | .recordTooLarge => "A record exceeded the maximum size."
  | .nonLinearFile => "Attempt to linearly access non-linear file."

/-- As part of a message: without a capital at the beginning and without a full stop at the end. -/
def inSentence (text : String) : List Char :=
  match text.toList with
  | [] => []
  | c :: cs => c.toLower :: (if cs.getLast? = some '.' then cs.dropLast else cs)

end Cbm.Spec
