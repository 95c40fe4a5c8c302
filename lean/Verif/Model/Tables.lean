import Verif.Model.Basic
/-!
# Static tables of the three disk types

Transcribed by script from the `static` items of src/disk/d64.rs, d71.rs and
d81.rs; every number is the one in the Rust source.
-/

namespace Cbm

/-- src/disk/block.rs:12 `BLOCK_SIZE`. -/
abbrev BLOCK_SIZE : Nat := 256

/-- src/disk/mod.rs:131 `PADDING_BYTE`. -/
abbrev PADDING_BYTE : Byte := 0xa0

/-- src/disk/mod.rs:132 `DISK_NAME_SIZE`. -/
abbrev DISK_NAME_SIZE : Nat := 16

/-- src/disk/block.rs:148-149 `Location(track, sector)`. -/
structure Location where
  track : Byte
  sector : Byte
  deriving DecidableEq, Repr

/-- src/disk/format.rs:16-20 `Track`.  The integer widths (u8, u16, u32) are not
modelled: all table values are far below them. -/
structure Track where
  sectors : Nat
  sectorOffset : Nat
  byteOffset : Nat
  deriving DecidableEq, Repr

/-- src/disk/bam.rs:26-45 `BamSection`. -/
structure BamSection where
  bitmapLocation : Location
  bitmapOffset : Nat
  bitmapSize : Nat
  bitmapStride : Nat
  freeLocation : Location
  freeOffset : Nat
  freeStride : Nat
  tracks : Nat
  deriving DecidableEq, Repr

/-- src/disk/header.rs:13-30 `HeaderFormat`. -/
structure HeaderFormat where
  location : Location
  firstDirectoryOffset : Nat
  diskFormatTypeOffset : Nat
  diskNameOffset : Nat
  diskIdOffset : Nat
  directoryDosVersionOffset : Nat
  directoryFormatTypeOffset : Nat
  paddingOffsets : List Nat
  defaultDiskFormatType : Byte
  defaultDirectoryDosVersion : Byte
  defaultDirectoryFormatType : Byte
  doubleSidedFlagExpectation : Option (Nat × Byte)
  deriving DecidableEq, Repr

/-- src/disk/format.rs:22-63 `DiskFormat` (with `BamFormat`, bam.rs:13-16, as the
section list).  Track and sector numbers are `Nat`s here; the places where the
Rust code does `u8` arithmetic on them check the range explicitly. -/
structure DiskFormat where
  directoryTrack : Nat
  firstDirectorySector : Nat
  reservedTrack : Nat
  firstTrack : Nat
  lastTrack : Nat
  lastNonstandardTrack : Nat
  interleave : Nat
  directoryInterleave : Nat
  geos : Bool
  tracks : List Track
  header : HeaderFormat
  bam : List BamSection
  deriving DecidableEq, Repr

/-- src/disk/mod.rs:573-578 `Geometry`. -/
structure Geometry where
  trackLayouts : List Track
  tracks : Nat
  withErrorTable : Bool
  deriving DecidableEq, Repr

/-- src/disk/d64.rs:90-132 `TRACKS` (41 rows). -/
def D64.TRACKS : List Track := [
  ⟨0, 0, 0⟩, ⟨21, 0, 0x00000⟩, ⟨21, 21, 0x01500⟩, ⟨21, 42, 0x02A00⟩,
  ⟨21, 63, 0x03F00⟩, ⟨21, 84, 0x05400⟩, ⟨21, 105, 0x06900⟩, ⟨21, 126, 0x07E00⟩,
  ⟨21, 147, 0x09300⟩, ⟨21, 168, 0x0A800⟩, ⟨21, 189, 0x0BD00⟩, ⟨21, 210, 0x0D200⟩,
  ⟨21, 231, 0x0E700⟩, ⟨21, 252, 0x0FC00⟩, ⟨21, 273, 0x11100⟩, ⟨21, 294, 0x12600⟩,
  ⟨21, 315, 0x13B00⟩, ⟨21, 336, 0x15000⟩, ⟨19, 357, 0x16500⟩, ⟨19, 376, 0x17800⟩,
  ⟨19, 395, 0x18B00⟩, ⟨19, 414, 0x19E00⟩, ⟨19, 433, 0x1B100⟩, ⟨19, 452, 0x1C400⟩,
  ⟨19, 471, 0x1D700⟩, ⟨18, 490, 0x1EA00⟩, ⟨18, 508, 0x1FC00⟩, ⟨18, 526, 0x20E00⟩,
  ⟨18, 544, 0x22000⟩, ⟨18, 562, 0x23200⟩, ⟨18, 580, 0x24400⟩, ⟨17, 598, 0x25600⟩,
  ⟨17, 615, 0x26700⟩, ⟨17, 632, 0x27800⟩, ⟨17, 649, 0x28900⟩, ⟨17, 666, 0x29A00⟩,
  ⟨17, 683, 0x2AB00⟩, ⟨17, 700, 0x2BC00⟩, ⟨17, 717, 0x2CD00⟩, ⟨17, 734, 0x2DE00⟩,
  ⟨17, 751, 0x2EF00⟩
]

/-- src/disk/d64.rs:13-26 `HEADER_FORMAT`. -/
def D64.HEADER_FORMAT : HeaderFormat where
  location := ⟨18, 0⟩
  firstDirectoryOffset := 0x00
  diskFormatTypeOffset := 0x02
  diskNameOffset := 0x90
  diskIdOffset := 0xA2
  directoryDosVersionOffset := 0xA5
  directoryFormatTypeOffset := 0xA6
  paddingOffsets := [0xA0, 0xA1, 0xA4, 0xA7, 0xA8, 0xA9, 0xAA]
  defaultDiskFormatType := 0x41
  defaultDirectoryDosVersion := 0x32
  defaultDirectoryFormatType := 0x41
  doubleSidedFlagExpectation := none

/-- src/disk/d64.rs:29-40 `BAM_FORMAT`. -/
def D64.BAM_FORMAT : List BamSection := [
  { bitmapLocation := ⟨18, 0⟩, bitmapOffset := 0x05,
    bitmapSize := 3, bitmapStride := 4,
    freeLocation := ⟨18, 0⟩, freeOffset := 0x04,
    freeStride := 4, tracks := 35 }]

/-- src/disk/d64.rs:43-56 `DISK_FORMAT`. -/
def D64.DISK_FORMAT : DiskFormat where
  directoryTrack := 18
  firstDirectorySector := 1
  reservedTrack := 0
  firstTrack := 1
  lastTrack := 35
  lastNonstandardTrack := 40
  interleave := 10
  directoryInterleave := 3
  geos := false
  tracks := D64.TRACKS
  header := D64.HEADER_FORMAT
  bam := D64.BAM_FORMAT

/-- src/disk/d64.rs:58-62 `GEOMETRY_35`. -/
def D64.GEOMETRY_35 : Geometry := ⟨D64.TRACKS, 35, false⟩

/-- src/disk/d64.rs:64-68 `GEOMETRY_35_ERRORS`. -/
def D64.GEOMETRY_35_ERRORS : Geometry := ⟨D64.TRACKS, 35, true⟩

/-- src/disk/d64.rs:70-74 `GEOMETRY_40`. -/
def D64.GEOMETRY_40 : Geometry := ⟨D64.TRACKS, 40, false⟩

/-- src/disk/d64.rs:76-80 `GEOMETRY_40_ERRORS`. -/
def D64.GEOMETRY_40_ERRORS : Geometry := ⟨D64.TRACKS, 40, true⟩

/-- src/disk/d64.rs:82-87 `ALLOWED_GEOMETRIES`. -/
def D64.ALLOWED_GEOMETRIES : List Geometry := [D64.GEOMETRY_35, D64.GEOMETRY_35_ERRORS, D64.GEOMETRY_40, D64.GEOMETRY_40_ERRORS]

/-- src/disk/d71.rs:92-164 `TRACKS` (71 rows). -/
def D71.TRACKS : List Track := [
  ⟨0, 0, 0⟩, ⟨21, 0, 0x00000⟩, ⟨21, 21, 0x01500⟩, ⟨21, 42, 0x02A00⟩,
  ⟨21, 63, 0x03F00⟩, ⟨21, 84, 0x05400⟩, ⟨21, 105, 0x06900⟩, ⟨21, 126, 0x07E00⟩,
  ⟨21, 147, 0x09300⟩, ⟨21, 168, 0x0A800⟩, ⟨21, 189, 0x0BD00⟩, ⟨21, 210, 0x0D200⟩,
  ⟨21, 231, 0x0E700⟩, ⟨21, 252, 0x0FC00⟩, ⟨21, 273, 0x11100⟩, ⟨21, 294, 0x12600⟩,
  ⟨21, 315, 0x13B00⟩, ⟨21, 336, 0x15000⟩, ⟨19, 357, 0x16500⟩, ⟨19, 376, 0x17800⟩,
  ⟨19, 395, 0x18B00⟩, ⟨19, 414, 0x19E00⟩, ⟨19, 433, 0x1B100⟩, ⟨19, 452, 0x1C400⟩,
  ⟨19, 471, 0x1D700⟩, ⟨18, 490, 0x1EA00⟩, ⟨18, 508, 0x1FC00⟩, ⟨18, 526, 0x20E00⟩,
  ⟨18, 544, 0x22000⟩, ⟨18, 562, 0x23200⟩, ⟨18, 580, 0x24400⟩, ⟨17, 598, 0x25600⟩,
  ⟨17, 615, 0x26700⟩, ⟨17, 632, 0x27800⟩, ⟨17, 649, 0x28900⟩, ⟨17, 666, 0x29A00⟩,
  ⟨21, 683, 0x2AB00⟩, ⟨21, 704, 0x2C000⟩, ⟨21, 725, 0x2D500⟩, ⟨21, 746, 0x2EA00⟩,
  ⟨21, 767, 0x2FF00⟩, ⟨21, 788, 0x31400⟩, ⟨21, 809, 0x32900⟩, ⟨21, 830, 0x33E00⟩,
  ⟨21, 851, 0x35300⟩, ⟨21, 872, 0x36800⟩, ⟨21, 893, 0x37D00⟩, ⟨21, 914, 0x39200⟩,
  ⟨21, 935, 0x3A700⟩, ⟨21, 956, 0x3BC00⟩, ⟨21, 977, 0x3D100⟩, ⟨21, 998, 0x3E600⟩,
  ⟨21, 1019, 0x3FB00⟩, ⟨19, 1040, 0x41000⟩, ⟨19, 1059, 0x42300⟩, ⟨19, 1078, 0x43600⟩,
  ⟨19, 1097, 0x44900⟩, ⟨19, 1116, 0x45C00⟩, ⟨19, 1135, 0x46F00⟩, ⟨19, 1154, 0x48200⟩,
  ⟨18, 1173, 0x49500⟩, ⟨18, 1191, 0x4A700⟩, ⟨18, 1209, 0x4B900⟩, ⟨18, 1227, 0x4CB00⟩,
  ⟨18, 1245, 0x4DD00⟩, ⟨18, 1263, 0x4EF00⟩, ⟨17, 1281, 0x50100⟩, ⟨17, 1298, 0x51200⟩,
  ⟨17, 1315, 0x52300⟩, ⟨17, 1332, 0x53400⟩, ⟨17, 1349, 0x54500⟩
]

/-- src/disk/d71.rs:17-33 `HEADER_FORMAT`. -/
def D71.HEADER_FORMAT : HeaderFormat where
  location := ⟨18, 0⟩
  firstDirectoryOffset := 0x00
  diskFormatTypeOffset := 0x02
  diskNameOffset := 0x90
  diskIdOffset := 0xA2
  directoryDosVersionOffset := 0xA5
  directoryFormatTypeOffset := 0xA6
  paddingOffsets := [0xA0, 0xA1, 0xA4, 0xA7, 0xA8, 0xA9, 0xAA]
  defaultDiskFormatType := 0x41
  defaultDirectoryDosVersion := 0x32
  defaultDirectoryFormatType := 0x41
  doubleSidedFlagExpectation := some (3, 128)

/-- src/disk/d71.rs:36-59 `BAM_FORMAT`. -/
def D71.BAM_FORMAT : List BamSection := [
  { bitmapLocation := ⟨18, 0⟩, bitmapOffset := 0x05,
    bitmapSize := 3, bitmapStride := 4,
    freeLocation := ⟨18, 0⟩, freeOffset := 0x04,
    freeStride := 4, tracks := 35 },
  { bitmapLocation := ⟨53, 0⟩, bitmapOffset := 0x00,
    bitmapSize := 3, bitmapStride := 3,
    freeLocation := ⟨18, 0⟩, freeOffset := 0xDD,
    freeStride := 1, tracks := 35 }]

/-- src/disk/d71.rs:62-75 `DISK_FORMAT`. -/
def D71.DISK_FORMAT : DiskFormat where
  directoryTrack := 18
  firstDirectorySector := 1
  reservedTrack := 53
  firstTrack := 1
  lastTrack := 70
  lastNonstandardTrack := 70
  interleave := 6
  directoryInterleave := 3
  geos := false
  tracks := D71.TRACKS
  header := D71.HEADER_FORMAT
  bam := D71.BAM_FORMAT

/-- src/disk/d71.rs:77-81 `GEOMETRY`. -/
def D71.GEOMETRY : Geometry := ⟨D71.TRACKS, 70, false⟩

/-- src/disk/d71.rs:83-87 `GEOMETRY_ERRORS`. -/
def D71.GEOMETRY_ERRORS : Geometry := ⟨D71.TRACKS, 70, true⟩

/-- src/disk/d71.rs:89-89 `ALLOWED_GEOMETRIES`. -/
def D71.ALLOWED_GEOMETRIES : List Geometry := [D71.GEOMETRY, D71.GEOMETRY_ERRORS]

/-- src/disk/d81.rs:87-169 `TRACKS` (81 rows). -/
def D81.TRACKS : List Track := [
  ⟨0, 0, 0⟩, ⟨40, 0, 0x00000⟩, ⟨40, 40, 0x02800⟩, ⟨40, 80, 0x05000⟩,
  ⟨40, 120, 0x07800⟩, ⟨40, 160, 0x0A000⟩, ⟨40, 200, 0x0C800⟩, ⟨40, 240, 0x0F000⟩,
  ⟨40, 280, 0x11800⟩, ⟨40, 320, 0x14000⟩, ⟨40, 360, 0x16800⟩, ⟨40, 400, 0x19000⟩,
  ⟨40, 440, 0x1B800⟩, ⟨40, 480, 0x1E000⟩, ⟨40, 520, 0x20800⟩, ⟨40, 560, 0x23000⟩,
  ⟨40, 600, 0x25800⟩, ⟨40, 640, 0x28000⟩, ⟨40, 680, 0x2A800⟩, ⟨40, 720, 0x2D000⟩,
  ⟨40, 760, 0x2F800⟩, ⟨40, 800, 0x32000⟩, ⟨40, 840, 0x34800⟩, ⟨40, 880, 0x37000⟩,
  ⟨40, 920, 0x39800⟩, ⟨40, 960, 0x3C000⟩, ⟨40, 1000, 0x3E800⟩, ⟨40, 1040, 0x41000⟩,
  ⟨40, 1080, 0x43800⟩, ⟨40, 1120, 0x46000⟩, ⟨40, 1160, 0x48800⟩, ⟨40, 1200, 0x4B000⟩,
  ⟨40, 1240, 0x4D800⟩, ⟨40, 1280, 0x50000⟩, ⟨40, 1320, 0x52800⟩, ⟨40, 1360, 0x55000⟩,
  ⟨40, 1400, 0x57800⟩, ⟨40, 1440, 0x5A000⟩, ⟨40, 1480, 0x5C800⟩, ⟨40, 1520, 0x5F000⟩,
  ⟨40, 1560, 0x61800⟩, ⟨40, 1600, 0x64000⟩, ⟨40, 1640, 0x66800⟩, ⟨40, 1680, 0x69000⟩,
  ⟨40, 1720, 0x6B800⟩, ⟨40, 1760, 0x6E000⟩, ⟨40, 1800, 0x70800⟩, ⟨40, 1840, 0x73000⟩,
  ⟨40, 1880, 0x75800⟩, ⟨40, 1920, 0x78000⟩, ⟨40, 1960, 0x7A800⟩, ⟨40, 2000, 0x7D000⟩,
  ⟨40, 2040, 0x7F800⟩, ⟨40, 2080, 0x82000⟩, ⟨40, 2120, 0x84800⟩, ⟨40, 2160, 0x87000⟩,
  ⟨40, 2200, 0x89800⟩, ⟨40, 2240, 0x8C000⟩, ⟨40, 2280, 0x8E800⟩, ⟨40, 2320, 0x91000⟩,
  ⟨40, 2360, 0x93800⟩, ⟨40, 2400, 0x96000⟩, ⟨40, 2440, 0x98800⟩, ⟨40, 2480, 0x9B000⟩,
  ⟨40, 2520, 0x9D800⟩, ⟨40, 2560, 0xA0000⟩, ⟨40, 2600, 0xA2800⟩, ⟨40, 2640, 0xA5000⟩,
  ⟨40, 2680, 0xA7800⟩, ⟨40, 2720, 0xAA000⟩, ⟨40, 2760, 0xAC800⟩, ⟨40, 2800, 0xAF000⟩,
  ⟨40, 2840, 0xB1800⟩, ⟨40, 2880, 0xB4000⟩, ⟨40, 2920, 0xB6800⟩, ⟨40, 2960, 0xB9000⟩,
  ⟨40, 3000, 0xBB800⟩, ⟨40, 3040, 0xBE000⟩, ⟨40, 3080, 0xC0800⟩, ⟨40, 3120, 0xC3000⟩,
  ⟨40, 3160, 0xC5800⟩
]

/-- src/disk/d81.rs:15-28 `HEADER_FORMAT`. -/
def D81.HEADER_FORMAT : HeaderFormat where
  location := ⟨40, 0⟩
  firstDirectoryOffset := 0x00
  diskFormatTypeOffset := 0x02
  diskNameOffset := 0x04
  diskIdOffset := 0x16
  directoryDosVersionOffset := 0x19
  directoryFormatTypeOffset := 0x1A
  paddingOffsets := [0x14, 0x15, 0x18, 0x1B, 0x1C]
  defaultDiskFormatType := 0x44
  defaultDirectoryDosVersion := 0x33
  defaultDirectoryFormatType := 0x44
  doubleSidedFlagExpectation := none

/-- src/disk/d81.rs:31-54 `BAM_FORMAT`. -/
def D81.BAM_FORMAT : List BamSection := [
  { bitmapLocation := ⟨40, 1⟩, bitmapOffset := 0x11,
    bitmapSize := 5, bitmapStride := 6,
    freeLocation := ⟨40, 1⟩, freeOffset := 0x10,
    freeStride := 6, tracks := 40 },
  { bitmapLocation := ⟨40, 2⟩, bitmapOffset := 0x11,
    bitmapSize := 5, bitmapStride := 6,
    freeLocation := ⟨40, 2⟩, freeOffset := 0x10,
    freeStride := 6, tracks := 40 }]

/-- src/disk/d81.rs:57-70 `DISK_FORMAT`. -/
def D81.DISK_FORMAT : DiskFormat where
  directoryTrack := 40
  firstDirectorySector := 3
  reservedTrack := 0
  firstTrack := 1
  lastTrack := 80
  lastNonstandardTrack := 80
  interleave := 1
  directoryInterleave := 1
  geos := false
  tracks := D81.TRACKS
  header := D81.HEADER_FORMAT
  bam := D81.BAM_FORMAT

/-- src/disk/d81.rs:72-76 `GEOMETRY`. -/
def D81.GEOMETRY : Geometry := ⟨D81.TRACKS, 80, false⟩

/-- src/disk/d81.rs:78-82 `GEOMETRY_ERRORS`. -/
def D81.GEOMETRY_ERRORS : Geometry := ⟨D81.TRACKS, 80, true⟩

/-- src/disk/d81.rs:84-84 `ALLOWED_GEOMETRIES`. -/
def D81.ALLOWED_GEOMETRIES : List Geometry := [D81.GEOMETRY, D81.GEOMETRY_ERRORS]

end Cbm
