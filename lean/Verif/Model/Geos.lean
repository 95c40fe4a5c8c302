import Verif.Model.File
import Verif.Model.Sprite
/-!
# GEOS info blocks and the export reader (src/disk/geos/mod.rs:193-336,
src/disk/geos/reader.rs)
-/

namespace Cbm

/-! ## Info blocks -/

/-- src/disk/geos/mod.rs:204-206 `GEOSString::to_bytes` into the slice
`bytes[off..off+size]` (util/mod.rs:84-92 `slice_mut`; `copy_from_slice` panics
unless the string has exactly `size` bytes).  A `GEOSString` is its bytes
(198-202). -/
def putString (bytes : List Byte) (off size : Nat) (str : List Byte) : Res (List Byte) := do
  let dst ← subSlice bytes off size
  let new ← copyFromSlice str dst
  pure (splice bytes off new)

/-- src/disk/geos/mod.rs:211-216 `get_trimmed_buffer`: the bytes before the first
zero byte. -/
def trimmed (str : List Byte) : List Byte := str.takeWhile (· != 0)

/-- The digits of `ascii::escape_default` (std): lower-case hexadecimal. -/
def hexLow (n : Nat) : Char := "0123456789abcdef".toList.getD n '0'

/-- `ascii::escape_default` (std): tab, carriage return, line feed, the two
quotes and the backslash get a backslash escape; other bytes from 0x20 to 0x7e
stand for themselves; the rest is `\xNN`. -/
def escapeDefault (b : Byte) : List Char :=
  if b = 0x09 then ['\\', 't'] else if b = 0x0d then ['\\', 'r']
  else if b = 0x0a then ['\\', 'n'] else if b = 0x27 then ['\\', '\'']
  else if b = 0x22 then ['\\', '"'] else if b = 0x5c then ['\\', '\\']
  else if 0x20 ≤ b ∧ b ≤ 0x7e then [Char.ofNat b.toNat]
  else ['\\', 'x', hexLow (b.toNat / 16), hexLow (b.toNat % 16)]

/-- src/disk/geos/mod.rs:219-227 `to_escaped_string` (and 230-234 `Display`). -/
def escaped (str : List Byte) : List Char := (trimmed str).flatMap escapeDefault

/-- src/disk/geos/mod.rs:237-239 `u16_from_le` at an offset. -/
def u16FromLe (bytes : List Byte) (off : Nat) : Res Nat := do
  let lo ← indexRes bytes off
  let hi ← indexRes bytes (off + 1)
  pure (hi.toNat * 256 + lo.toNat)

/-- src/disk/geos/mod.rs:242-245 `u16_to_le` at an offset. -/
def u16ToLe (bytes : List Byte) (off n : Nat) : Res (List Byte) :=
  if off + 2 ≤ bytes.length then
    .ok (splice bytes off [UInt8.ofNat (n % 256), UInt8.ofNat (n / 256 % 256)])
  else rpanic

/-- `bytes[off] = b`. -/
def putByte (bytes : List Byte) (off : Nat) (b : Byte) : Res (List Byte) :=
  if off < bytes.length then .ok (splice bytes off [b]) else rpanic

/-- src/disk/geos/mod.rs:248-261 `GEOSInfo`; the `u16` addresses are `Nat`. -/
structure GEOSInfo where
  icon : Sprite
  attributes : FileAttributes
  fileType : GEOSFileType
  structure_ : GEOSFileStructure
  load : Nat
  «end» : Nat
  start : Nat
  «class» : List Byte
  author : List Byte
  application : List Byte
  reserved : List Byte
  description : List Byte
  deriving DecidableEq, Repr

/-- src/disk/geos/mod.rs:283-304 `GEOSInfo::from_bytes`; out of range indexing
panics. -/
def GEOSInfo.fromBytes (bytes : List Byte) : Res GEOSInfo := do
  let iconBytes ← subSlice bytes 0x05 63
  let icon ← Sprite.fromBytes iconBytes
  let attributes ← indexRes bytes 0x44
  let fileType ← indexRes bytes 0x45
  let structure_ ← indexRes bytes 0x46
  let load ← u16FromLe bytes 0x47
  let «end» ← u16FromLe bytes 0x49
  let start ← u16FromLe bytes 0x4B
  let «class» ← subSlice bytes 0x4D 20
  let author ← subSlice bytes 0x61 20
  let application ← subSlice bytes 0x75 20
  let reserved ← subSlice bytes 0x89 23
  let description ← subSlice bytes 0xA0 96
  pure { icon, attributes := .fromByte attributes, fileType := .fromByte fileType,
         structure_ := .fromByte structure_, load, «end», start, «class», author, application,
         reserved, description }

/-- src/disk/geos/mod.rs:306-335 `GEOSInfo::to_bytes` over the current contents of
the block.  The description goes to the slice of the application (333-334). -/
def GEOSInfo.toBytes (i : GEOSInfo) (bytes : List Byte) : Res (List Byte) := do
  let dst ← subSlice bytes 0x05 63
  let icon ← i.icon.toBytes dst.length
  let bytes := splice bytes 0x05 icon
  let bytes ← putByte bytes 0x44 i.attributes.toByte
  let bytes ← putByte bytes 0x45 i.fileType.toByte
  let bytes ← putByte bytes 0x46 i.structure_.toByte
  let bytes ← u16ToLe bytes 0x47 i.load
  let bytes ← u16ToLe bytes 0x49 i.end
  let bytes ← u16ToLe bytes 0x4B i.start
  let bytes ← putString bytes 0x4D 20 i.class
  let bytes ← putString bytes 0x61 20 i.author
  let bytes ← putString bytes 0x75 20 i.application
  let bytes ← putString bytes 0x89 23 i.reserved
  putString bytes 0x75 20 i.description

/-- src/disk/geos/file.rs:67-77 `GEOSFile::info`. -/
def GEOSFile.info (f : GEOSFile) (d : Device) : Res (Option GEOSInfo) := do
  match ← f.entry.infoLocation with
  | some l =>
    let block ← d.sector l
    let info ← GEOSInfo.fromBytes block
    pure (some info)
  | none => pure none

/-! ## The export reader -/

/-- src/disk/geos/reader.rs:17-23 `GEOSReaderState`. -/
inductive GEOSReaderState where
  | directoryEntry | infoBlock | vlirIndexBlock | records | finished
  deriving DecidableEq, Repr

/-- src/disk/geos/reader.rs:28-36 `GEOSReader`.  The device is passed to each
step instead of being held.  A queued `ChainReader` has not been read from, so it
is given by its start (`ChainReader::new`, chain.rs:140-147). -/
structure GEOSReader where
  state : GEOSReaderState
  buffer : List Byte
  isVlir : Bool
  info : Location
  start : Location
  chains : List Location
  deriving DecidableEq, Repr

/-- src/disk/geos/reader.rs:44-45 `CVT_SIGNATURE_PRG`, `CVT_SIGNATURE_SEQ`. -/
def cvtPrg : List Byte := [0x50, 0x52, 0x47]
@[inherit_doc cvtPrg]
def cvtSeq : List Byte := [0x53, 0x45, 0x51]
/-- src/disk/geos/reader.rs:46 `CVT_SIGNATURE_SUFFIX`, `" formatted GEOS file V1.0"`. -/
def cvtSuffix : List Byte :=
  [0x20, 0x66, 0x6f, 0x72, 0x6d, 0x61, 0x74, 0x74, 0x65, 0x64, 0x20, 0x47, 0x45, 0x4f, 0x53, 0x20,
   0x66, 0x69, 0x6c, 0x65, 0x20, 0x56, 0x31, 0x2e, 0x30]

/-- src/disk/geos/reader.rs:41-82 `GEOSReader::new`. -/
def GEOSReader.new (entry : DirectoryEntry) : Res GEOSReader := do
  let buffer := List.replicate 256 (0 : Byte)
  let front ← entry.toBytes (slice buffer 0 ENTRY_SIZE)
  let buffer := splice buffer 0 front
  let vlir ← entry.isVlir
  let buffer := splice buffer 0x20 (if vlir then cvtPrg else cvtSeq)
  let buffer := splice buffer 0x23 cvtSuffix
  let buffer := buffer.drop 2
  match ← entry.infoLocation with
  | some info => pure ⟨.directoryEntry, buffer, vlir, info, entry.firstSector, []⟩
  | none => fail .geosInfoNotFound

/-- src/disk/geos/reader.rs:95-102: the fold over the chain, counting its sectors
and remembering the length of the last one, less one. -/
def scanItems : List (Res ChainSector) → Nat × Nat → Res (Nat × Nat)
  | [], acc => .ok acc
  | .error e :: _, _ => .error e
  | .ok s :: rest, acc => do
    let last ← subU s.data.length 1
    scanItems rest (acc.1 + 1, last)

/-- src/disk/geos/reader.rs:94-108 `scan_chain`. -/
def scanChain (d : Device) (start : Location) : Res (Byte × Byte) := do
  let (count, last) ← scanItems (chainItems d start) (0, 0)
  if count > 255 then fail .recordTooLarge
  else if last > 255 then rpanic
  else pure (UInt8.ofNat count, UInt8.ofNat last)

/-- src/disk/geos/reader.rs:113-128: the pairs of the index block up to the first
`00 00`, each with its chain (if it has one) and its converted bytes. -/
def convertIndex (d : Device) : List Byte → Res (List (Option Location × Byte × Byte))
  | a :: b :: rest =>
    if a = 0 ∧ b = 0 then .ok []
    else do
      let item ←
        if a = 0 ∧ b = 0xFF then .ok (none, 0x00, 0xFF)
        else do
          let (count, last) ← scanChain d ⟨a, b⟩
          pure (some ⟨a, b⟩, count, last)
      let items ← convertIndex d rest
      pure (item :: items)
  | _ => .ok []

/-- src/disk/geos/reader.rs:134-143: the converted pairs, padded with zeros
(`resize` would also truncate; there are at most 127 pairs). -/
def indexBlock (items : List (Option Location × Byte × Byte)) : List Byte :=
  let block := items.flatMap fun i => [i.2.1, i.2.2]
  (block ++ List.replicate (254 - block.length) 0).take 254

/-- src/disk/geos/reader.rs:88-150 `process_vlir_index_block`. -/
def GEOSReader.processIndex (r : GEOSReader) (d : Device) : Res GEOSReader := do
  let block ← d.sector r.start
  let items ← convertIndex d (block.drop 2)
  pure { r with buffer := indexBlock items, chains := items.filterMap (·.1) }

/-- src/disk/geos/reader.rs:180-189: pad to a multiple of 254 bytes. -/
def padBlock (buffer : List Byte) : List Byte :=
  let remainder := buffer.length % 254
  if remainder > 0 then buffer ++ List.replicate (254 - remainder) 0 else buffer

/-- src/disk/geos/reader.rs:176-194: `next_state` in the state `Records`.
`read_to_end` is `chainContent`; when it fails the bytes it had read before are
left in the buffer by the code, not here. -/
def GEOSReader.nextRecord (r : GEOSReader) (d : Device) : Res Unit × GEOSReader :=
  match r.chains with
  | chain :: rest =>
    match chainContent d chain with
    | .error e => (.error e, { r with chains := rest })
    | .ok content =>
      let buffer := r.buffer ++ content
      (.ok (), { r with
        chains := rest
        buffer := if rest.isEmpty then buffer else padBlock buffer })
  | [] => (.ok (), { r with state := .finished })

/-- src/disk/geos/reader.rs:154-199 `next_state`. -/
def GEOSReader.nextState (r : GEOSReader) (d : Device) : Res Unit × GEOSReader :=
  match r.state with
  | .directoryEntry =>
    let r := { r with state := .infoBlock }
    match d.sector r.info with
    | .error e => (.error e, r)
    | .ok block => (.ok (), { r with buffer := block.drop 2 })
  | .infoBlock =>
    if r.isVlir then
      let r := { r with state := .vlirIndexBlock }
      match r.processIndex d with
      | .error e => (.error e, r)
      | .ok r => (.ok (), r)
    else (.ok (), { r with state := .records, chains := r.chains ++ [r.start] })
  | .vlirIndexBlock => GEOSReader.nextRecord { r with state := .records } d
  | .records => r.nextRecord d
  | .finished => (.ok (), r)

/-- src/disk/geos/reader.rs:209-237: the loop of `read` with `want` bytes of the
caller's buffer left and `acc` already copied.  The fuel stands for the `loop`;
the theorems show that it is never exhausted. -/
def GEOSReader.readLoop (d : Device) :
    Nat → GEOSReader → Nat → List Byte → Res (List Byte) × GEOSReader
  | 0, r, _, _ => (.error .diverge, r)
  | fuel + 1, r, want, acc =>
    let bytes := min want r.buffer.length
    let acc := acc ++ r.buffer.take bytes
    if bytes = want then (.ok acc, r)
    else
      let r := { r with buffer := r.buffer.drop bytes }
      if r.buffer.isEmpty then
        match r.nextState d with
        | (.error e, r) => (.error e, r)
        | (.ok (), r) =>
          if r.state = .finished then (.ok acc, r)
          else readLoop d fuel r (want - bytes) acc
      else readLoop d fuel r (want - bytes) acc

/-- src/disk/geos/reader.rs:203-239 `read` with a buffer of `want` bytes: the
bytes delivered, or the error. -/
def GEOSReader.read (r : GEOSReader) (d : Device) (want : Nat) : Res (List Byte) × GEOSReader :=
  if r.state = .finished then (.ok [], r)
  else r.readLoop d 200 want []

end Cbm
