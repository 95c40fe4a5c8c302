import Verif.Model.Cdisk
/-!
# src/disk/image.rs, src/disk/mod.rs: image files of the host

The host's file system is a map from paths to the contents of regular files.  Two different paths are two
different files (no links), every file can be read and written, and there is always room.
A mapped file is a shared memory map: what is written to the image is in the file.
-/

namespace Cbm

/-- A path of the host, with `/` between its components. -/
abbrev Path := List Char

/-- The regular files of the host. -/
abbrev Host := Path → Option (List Byte)

/-- The host with other contents for a file. -/
def Host.put (h : Host) (p : Path) (bytes : List Byte) : Host := fun q => if q = p then some bytes else h q

/-- Why a file could not be opened: `ErrorKind::NotFound` and `ErrorKind::AlreadyExists` from
`OpenOptions::open` (std), the refusal of `memmap` to map an empty file, or the library's own. -/
inductive OpenFail where
  | notFound
  | alreadyExists
  | emptyMap
  | lib (f : Fail)
  deriving DecidableEq, Repr

/-- `MmapOptions::map` and `map_mut` (memmap 0.6). -/
def mapped (kind : ImageKind) (bytes : List Byte) : Except OpenFail Image :=
  if bytes = [] then .error .emptyMap else .ok ⟨kind, bytes⟩

/-- src/disk/image.rs:21-25 `open_read_only`. -/
def Image.openReadOnly (p : Path) (h : Host) : Except OpenFail Image :=
  match h p with
  | none => .error .notFound
  | some bytes => mapped .readOnlyMap bytes

/-- src/disk/image.rs:27-31 `open_read_write`. -/
def Image.openReadWrite (p : Path) (h : Host) : Except OpenFail Image :=
  match h p with
  | none => .error .notFound
  | some bytes => mapped .readWriteMap bytes

/-- `File::set_len` (std): cut off, or filled up with zeros. -/
def setLen (length : Nat) (bytes : List Byte) : List Byte :=
  bytes.take length ++ List.replicate (length - bytes.length) 0

/-- src/disk/image.rs:33-42 `create`.  `OpenOptions` has `read`, `write` and `create_new(create_new)` set,
and neither `create` nor `truncate`: with `create_new` the file must not exist and is made; without, it must
exist, and keeps its contents. -/
def Image.create (p : Path) (length : Nat) (createNew : Bool) (h : Host) : Except OpenFail Image × Host :=
  match createNew, h p with
  | true, some _ => (.error .alreadyExists, h)
  | false, none => (.error .notFound, h)
  | true, none => (mapped .readWriteMap (setLen length []), h.put p (setLen length []))
  | false, some bytes => (mapped .readWriteMap (setLen length bytes), h.put p (setLen length bytes))

/-- The `?` and the constructor: `Self::new(image?)`. -/
def diskFrom (ty : DiskType) : Except OpenFail Image → Except OpenFail Disk
  | .error e => .error e
  | .ok image =>
    match Disk.new ty image with
    | .ok disk => .ok disk
    | .error f => .error (.lib f)

/-- src/disk/d64.rs:166-173 `open`; d71.rs:197-204; d81.rs. -/
def Disk.openTyped (ty : DiskType) (p : Path) (writable : Bool) (h : Host) : Except OpenFail Disk :=
  diskFrom ty (if writable then Image.openReadWrite p h else Image.openReadOnly p h)

/-- src/disk/d64.rs:178-184 `create`; d71.rs:209-215; d81.rs. -/
def Disk.create (ty : DiskType) (p : Path) (geometry : Geometry) (createNew : Bool) (h : Host) :
    Except OpenFail Disk × Host :=
  (diskFrom ty (Image.create p geometry.size createNew h).1, (Image.create p geometry.size createNew h).2)

/-- src/disk/d64.rs:187-189 `open_memory`, image.rs:17-19; d71.rs:218-220; d81.rs. -/
def Disk.openMemory (ty : DiskType) (geometry : Geometry) : Res Disk :=
  Disk.new ty (Image.openMemory geometry.size)

/-! ## The type of an image by its name -/

/-- The components of a path: what is between the slashes. -/
def splitSlash : List Char → List (List Char)
  | [] => [[]]
  | c :: cs =>
    if c = '/' then [] :: splitSlash cs
    else match splitSlash cs with
      | [] => [[c]]
      | w :: ws => (c :: w) :: ws

/-- `Path::file_name` (std) on a Unix host: the last component; empty components and `.` do not count, and
`..` is no name. -/
def fileName (p : Path) : Option (List Char) :=
  match ((splitSlash p).filter fun w => w ≠ [] ∧ w ≠ ['.']).getLast? with
  | none => none
  | some w => if w = ['.', '.'] then none else some w

/-- Split at the last dot: what is before it and what is behind it. -/
def splitDot : List Char → Option (List Char × List Char)
  | [] => none
  | c :: cs =>
    match splitDot cs with
    | some (a, b) => some (c :: a, b)
    | none => if c = '.' then some ([], cs) else none

/-- `Path::extension` (std): what follows the last dot of the file name, unless there is none or the name
begins with it. -/
def extension (p : Path) : Option (List Char) :=
  match fileName p with
  | none => none
  | some w =>
    match splitDot w with
    | none => none
    | some (before, after) => if before = [] then none else some after

/-- src/disk/mod.rs:172-197 `open`, with the files of the host: each attempt opens the file again. -/
def Disk.openAt (p : Path) (writable : Bool) (h : Host) : Except OpenFail Disk :=
  match DiskType.fromExtension (extension p) with
  | some ty => Disk.openTyped ty p writable h
  | none =>
    match Disk.openTyped .d64 p writable h with
    | .ok disk => .ok disk
    | .error (.lib (.err .invalidLayout)) =>
      match Disk.openTyped .d71 p writable h with
      | .ok disk => .ok disk
      | .error (.lib (.err .invalidLayout)) => Disk.openTyped .d81 p writable h
      | .error e => .error e
    | .error e => .error e

/-- The files of the host while a disk opened from `p` is in use: a writable map is the file itself, other
images are not connected with it. -/
def Host.during (h : Host) (p : Path) (disk : Disk) : Host :=
  match disk.dev.image.kind with
  | .readWriteMap => h.put p disk.dev.image.bytes
  | _ => h

/-- What a disk object opened from `p` has before it when the file was changed through another map of it
(src/disk/image.rs:21-31: both maps are shared): the bytes are those of the file; the header, the format and
the BAM that the object keeps in memory (src/disk/d64.rs:136-141) are as before. -/
def Disk.sees (disk : Disk) (h : Host) (p : Path) : Disk :=
  match h p with
  | some bytes => { disk with dev := { disk.dev with image := { disk.dev.image with bytes := bytes } } }
  | none => disk

end Cbm
