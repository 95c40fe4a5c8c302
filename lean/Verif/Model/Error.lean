import Verif.Model.Basic
/-!
# Error conversion (src/disk/error.rs)
-/

namespace Cbm

/-- The `std::io::ErrorKind`s used by the library, plus `misc` for any other
kind an operating-system error can have. -/
inductive IoKind where
  | other | invalidInput | invalidData | notFound | misc
  deriving DecidableEq, Repr

/-- What an `io::Error` may carry as its inner error: nothing (an OS error), a
`DiskError`, or some foreign error type. -/
inductive IoPayload where
  | none | disk (e : DiskError) | foreign
  deriving DecidableEq, Repr

/-- `std::io::Error`: a kind and an optional boxed inner error. -/
structure IoError where
  kind : IoKind
  payload : IoPayload
  deriving DecidableEq, Repr

/-- src/disk/error.rs:81-113 `impl From<DiskError> for io::Error`. -/
def DiskError.toIo (e : DiskError) : IoError :=
  match e with
  | .unknown => ⟨.other, .disk e⟩
  | .readOnly => ⟨.other, .disk e⟩
  | .invalidLocation => ⟨.invalidInput, .disk e⟩
  | .invalidOffset => ⟨.invalidInput, .disk e⟩
  | .invalidHeader => ⟨.invalidData, .disk e⟩
  | .invalidBAM => ⟨.invalidData, .disk e⟩
  | .invalidLayout => ⟨.invalidData, .disk e⟩
  | .invalidRecord => ⟨.invalidInput, .disk e⟩
  | .readOverflow => ⟨.invalidInput, .disk e⟩
  | .readUnderrun => ⟨.invalidInput, .disk e⟩
  | .writeUnderrun => ⟨.invalidInput, .disk e⟩
  | .unformatted => ⟨.invalidData, .disk e⟩
  | .notFound => ⟨.notFound, .disk e⟩
  | .chainLoop => ⟨.invalidData, .disk e⟩
  | .invalidChainLink => ⟨.invalidData, .disk e⟩
  | .invalidRelativeFile => ⟨.invalidData, .disk e⟩
  | .unpositioned => ⟨.invalidInput, .disk e⟩
  | .filenameTooLong => ⟨.invalidInput, .disk e⟩
  | .fileExists => ⟨.invalidInput, .disk e⟩
  | .diskFull => ⟨.other, .disk e⟩
  | .invalidRecordIndex => ⟨.invalidInput, .disk e⟩
  | .unknownFormat => ⟨.invalidData, .disk e⟩
  | .geosInfoNotFound => ⟨.invalidData, .disk e⟩
  | .recordTooLarge => ⟨.invalidData, .disk e⟩
  | .nonLinearFile => ⟨.invalidInput, .disk e⟩

/-- src/disk/error.rs:115-125 `impl From<io::Error> for DiskError`. -/
def DiskError.fromIo (e : IoError) : DiskError :=
  match e.payload with
  | .disk d => d
  | .foreign => .unknown
  | .none => .unknown

/-- src/disk/error.rs:130-135 `DiskError::from_io_error`. -/
def DiskError.fromIoError (e : IoError) : Option DiskError :=
  match e.payload with
  | .disk d => some d
  | .foreign => none
  | .none => none

/-- src/disk/error.rs:146-175 `DiskError::message`. -/
def DiskError.message : DiskError → String
  | .unknown => "unknown error"
  | .readOnly => "write access attempted to read-only media"
  | .invalidLocation => "bad track or sector"
  | .invalidOffset => "offset out of bounds"
  | .invalidHeader => "invalid header"
  | .invalidBAM => "invalid BAM"
  | .invalidLayout => "invalid layout"
  | .invalidRecord => "record out of bounds"
  | .readOverflow => "read overflow"
  | .readUnderrun => "read underrun"
  | .writeUnderrun => "write underrun"
  | .unformatted => "attempt to use unformatted media"
  | .notFound => "file not found"
  | .chainLoop => "chain loop detected"
  | .invalidChainLink => "invalid chain link"
  | .invalidRelativeFile => "invalid relative file layout"
  | .unpositioned => "attempt to write a resource with no embedded position"
  | .filenameTooLong => "filename exceeds maximum length"
  | .fileExists => "a file with the specified filename already exists"
  | .diskFull => "disk is full"
  | .invalidRecordIndex => "invalid record index"
  | .unknownFormat => "unknown format"
  | .geosInfoNotFound => "a required GEOS info block was not found"
  | .recordTooLarge => "a record exceeded the maximum size"
  | .nonLinearFile => "attempt to linearly access non-linear file"

end Cbm
