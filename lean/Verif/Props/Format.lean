import Verif.Lemmas.Start
import Verif.Lemmas.Keeps
/-!
# Formatting and the disk header: C13, C14, C58, C59
-/

namespace Cbm
open Spec

variable {ty : DiskType} {image : Image} {disk : Disk} {name : Petscii} {x : Session}

/-! ## C58, C59: what no call can do -/

/-- **C58** No sequence of calls, with whatever arguments and whether they succeed or not,
changes the size or the kind of the image, the layout, or the type of the disk. -/
theorem C58_shape_is_fixed (x : Session) (calls : List Call) :
    (Session.run calls x).disk.dev.image.bytes.length = x.disk.dev.image.bytes.length ∧
    (Session.run calls x).disk.dev.image.kind = x.disk.dev.image.kind ∧
    (Session.run calls x).disk.dev.geometry = x.disk.dev.geometry ∧
    (Session.run calls x).disk.native = x.disk.native :=
  ⟨(keep_run (R := SameShape) calls x).size, (keep_run (R := SameShape) calls x).kind,
    (keep_run (R := SameShape) calls x).geometry, (kind_run calls x).native⟩

/-- What a program has after opening an image and making any calls. -/
theorem history_ok (hnew : Disk.new ty image = .ok disk) (calls : List Call) :
    ∃ s : Shape, s.type = ty ∧ Wf (Session.run calls ⟨disk, [], []⟩).disk.dev s ∧
      (Session.run calls ⟨disk, [], []⟩).disk.native = ty.format ∧
      (Session.run calls ⟨disk, [], []⟩).disk.dev.image.kind = image.kind ∧
      (∀ r, (Session.run calls ⟨disk, [], []⟩).disk.bam = some r →
        r < (Session.run calls ⟨disk, [], []⟩).disk.cells.length) ∧
      ∀ i, 256 * s.sectors ≤ i →
        (Session.run calls ⟨disk, [], []⟩).disk.dev.image.bytes[i]? = image.bytes[i]? := by
  obtain ⟨s, hty, hwf, hn, hi, -, hr⟩ := new_ok hnew
  have h1 := keep_run (R := SameTail) calls ⟨disk, [], []⟩ s hwf
  have h2 := keep_run (R := SameShape) calls ⟨disk, [], []⟩
  have h3 := kind_run calls ⟨disk, [], []⟩
  refine ⟨s, hty, h1.1, h3.native.trans hn, ?_, h3.cell hr, fun i hle => ?_⟩
  · rw [h2.kind]
    exact congrArg Image.kind hi
  · rw [h1.2 i hle]
    exact congrArg (fun im : Image => im.bytes[i]?) hi

/-- **C59** The error table is one byte per sector, after the sectors, in images that
have it. -/
theorem C59_error_table_place {d : Device} {s : Shape} (h : Wf d s) : d.errorTable =
    .ok (if s.errorTable then some (slice d.image.bytes (256 * s.sectors) s.sectors) else none) := by
  obtain ⟨-, h1, -⟩ := sizes_checked s.type (mem_diskTypes s.type) d.geometry h.geometry
  rw [h.tracks] at h1
  unfold Device.errorTable Geometry.errorTableOffset
  rw [h.errorTable, h1]
  cases he : s.errorTable with
  | false => rfl
  | true =>
    have hs : d.image.len = 256 * sectorsUpTo s.type s.tracks + sectorsUpTo s.type s.tracks := by
      have := h.size
      simp only [Shape.size, he, Shape.sectors, if_true] at this
      exact this
    simp only [if_true, Image.slice, Image.checkBounds, hs, Shape.sectors]
    rw [if_neg (by omega), Nat.add_sub_cancel_left]
    rfl

/-- **C59** The error bytes that follow the sectors in some images are never changed:
after any calls the error table is the one the image was opened with. -/
theorem C59_error_table_untouched (hnew : Disk.new ty image = .ok disk) (calls : List Call) :
    (Session.run calls ⟨disk, [], []⟩).disk.dev.errorTable = disk.dev.errorTable := by
  obtain ⟨s, hty, hwf, hn, hi, -, hr⟩ := new_ok hnew
  have h1 := keep_run (R := SameTail) calls ⟨disk, [], []⟩ s hwf
  rw [C59_error_table_place h1.1, C59_error_table_place hwf]
  congr 3
  apply List.ext_getElem?
  intro i
  rw [getElem?_slice, getElem?_slice, h1.2 _ (by omega)]

/-- Such an image, with error bytes; and calls that write to it. -/
example : ∃ disk, Disk.new .d64 (Image.openMemory 175531) = .ok disk ∧
    disk.dev.errorTable = .ok (some (List.replicate 683 0)) := by
  obtain ⟨disk, hd⟩ := (C05_accepts_exactly .d64 (Image.openMemory 175531)).1.2 (by
    simp only [Image.openMemory, List.length_replicate]; decide)
  refine ⟨disk, hd, ?_⟩
  obtain ⟨s, hty, hwf, -, hi, -, -⟩ := new_ok hd
  have hsize := hwf.size
  have hshape : ∀ s ∈ shapes, s.size = 175531 → s = ⟨.d64, 35, true⟩ := by decide
  have hs := hshape s hwf.shape (by
    rw [← hsize, hi]; simp only [Image.openMemory, List.length_replicate])
  subst hs
  rw [C59_error_table_place hwf, hi]
  simp only [Image.openMemory, slice, List.drop_replicate, List.take_replicate, if_true]
  rfl

/-! ## C13: formatting -/

/-- An empty disk with its whole capacity free: the directory is empty, the blocks of
all tracks but the directory track are free, exactly the system sectors and the first
directory sector are allocated, validate finds nothing; and the disk has the name,
padded to sixteen bytes, and the id. -/
structure EmptyDisk (ty : DiskType) (name : Petscii) (id : Byte × Byte) (disk : Disk) : Prop where
  directory : disk.directory = .ok []
  blocksFree : disk.blocksFree = .ok (match ty with | .d64 => 664 | .d71 => 1328 | .d81 => 3160)
  bam : ∃ b, bamOf disk = some b ∧ ∀ l, ValidLoc ty (bamTracks ty) l →
    (isFree b l = false ↔ ownSector ty l = true)
  valid : disk.validate = .ok []
  name : disk.name = some (name ++ List.replicate (16 - name.length) 0xA0)
  id : disk.header.map Header.diskId = some id

theorem emptyDisk_of_shows {x : Session} {id : Byte × Byte} (h : Shows x (Store.empty ty name id))
    {b : Bam} (hb : bamOf x.disk = some b)
    (hf : ∀ l, ValidLoc ty (bamTracks ty) l → (isFree b l = false ↔ ownSector ty l = true)) :
    EmptyDisk ty name id x.disk := by
  obtain ⟨es, h1, h2⟩ := h.lists
  refine ⟨?_, ?_, ⟨b, hb, hf⟩, h.valid, h.name, h.id⟩
  · have : es = [] := by
      cases es with
      | nil => rfl
      | cons e es => simp [Store.empty, Store.listing, Store.files] at h2
    rw [h1, this]
  · rw [h.blocksFree]
    cases ty <;> rfl

/-- **C13** Whatever the image holds and whatever calls were made before, formatting a
writable disk with a name of at most sixteen bytes succeeds and gives an empty disk;
opening the image again gives an empty disk too; and every sector except the system
sectors and the first directory sector reads as zeros. -/
theorem C13_format (hnew : Disk.new ty image = .ok disk) (hw : image.kind ≠ .readOnlyMap)
    (calls : List Call) (hname : name.length ≤ 16) (id : Byte × Byte) :
    ∃ x disk', Session.step (.format name id) (Session.run calls ⟨disk, [], []⟩) = (.ok (), x) ∧
      EmptyDisk ty name id x.disk ∧
      Disk.new ty x.disk.dev.image = .ok disk' ∧ EmptyDisk ty name id disk' ∧
      ∀ l data, x.disk.readSector l = .ok data → ownSector ty l = false →
        data = List.replicate 256 0 := by
  obtain ⟨s, rfl, hwf, hn, hk, hr, -⟩ := history_ok hnew calls
  generalize Session.run calls ⟨disk, [], []⟩ = y at hwf hn hk hr
  obtain ⟨d', b, ws, hrun, hready, hsync, hd, hws, hb, hz⟩ := writeFormat_ok hwf
    (by unfold Writable; rw [hk]; exact hw) hn hr hname id
  have hrep := rep_start (saved := true) hready (by
    intro f hf; simp [emptyVolume, Volume.files] at hf) (fun _ => hsync)
  rw [storeOf_empty] at hrep
  obtain ⟨disk', hnew', hbam', hcells', himg', hcore'⟩ := hrep.reopen rfl
  refine ⟨_, disk', onDisk_run hrun, ?_, hnew', ?_, ?_⟩
  · refine emptyDisk_of_shows (x := ⟨_, [], []⟩) hrep.shows (b := b) ?_ hb
    simp only [bamOf, Option.bind]
    exact hready.cell
  · exact emptyDisk_of_shows (x := ⟨disk', [], []⟩) hcore'.shows (b := b) (by
      simp [bamOf, hbam', hcells']) hb
  · intro l data hl ho
    obtain ⟨hv, he⟩ := hready.mounted.onDisk.wf.sector_isOk hl
    rw [he]
    exact hz l hv ho

/-- A disk with something on it, formatted. -/
example : ∃ disk, Disk.new .d71 (Image.openMemory 349696) = .ok disk ∧
    ∃ x, Session.step (.format [0x41, 0x42] (0x31, 0x32)) (Session.run
      [.create [0x41] .PRG .linear, .writeSector ⟨18, 0⟩ (List.replicate 256 0x33), .init,
        .setBam none] ⟨disk, [], []⟩) = (.ok (), x) ∧ EmptyDisk .d71 [0x41, 0x42] (0x31, 0x32) x.disk := by
  obtain ⟨disk, hd⟩ := (C05_accepts_exactly .d71 (Image.openMemory 349696)).1.2 (by
    simp only [Image.openMemory, List.length_replicate]; decide)
  obtain ⟨x, -, h1, h2, -⟩ := C13_format hd (show ImageKind.memory ≠ .readOnlyMap by decide)
    [.create [0x41] .PRG .linear, .writeSector ⟨18, 0⟩ (List.replicate 256 0x33), .init,
        .setBam none] (name := [0x41, 0x42]) (by decide) (0x31, 0x32)
  exact ⟨disk, hd, x, h1, h2⟩

/-! ## C14: the disk name and id -/

/-- **C14** Formatting gives the disk the name, padded to sixteen bytes, and the id; so
does opening the image again. -/
theorem C14_format_name (hnew : Disk.new ty image = .ok disk) (hw : image.kind ≠ .readOnlyMap)
    (calls : List Call) (hname : name.length ≤ 16) (id : Byte × Byte) :
    ∃ x disk', Session.step (.format name id) (Session.run calls ⟨disk, [], []⟩) = (.ok (), x) ∧
      Disk.new ty x.disk.dev.image = .ok disk' ∧
      x.disk.name = some (name ++ List.replicate (16 - name.length) 0xA0) ∧
      disk'.name = x.disk.name ∧
      x.disk.header.map Header.diskId = some id ∧ disk'.header.map Header.diskId = some id := by
  obtain ⟨x, disk', h1, h2, h3, h4, -⟩ := C13_format hnew hw calls hname id
  exact ⟨x, disk', h1, h3, h2.name, h4.name.trans h2.name.symm, h2.id, h4.id⟩

/-- **C14** Writing the header, on any image after any calls: it succeeds when the name
in it has at most sixteen bytes; no byte of the image outside the header fields changes;
and opening the image again gives the name, padded, and the id. -/
theorem C14_write_header (hnew : Disk.new ty image = .ok disk) (hw : image.kind ≠ .readOnlyMap)
    (calls : List Call) (hx : Session.run calls ⟨disk, [], []⟩ = x) {hd : Header}
    (hh : x.disk.header = some hd) (hn : hd.diskName.length ≤ 16) :
    ∃ x' disk', Session.step .flushHeader x = (.ok (), x') ∧
      Disk.new ty x'.disk.dev.image = .ok disk' ∧
      disk'.name = some (paddedName hd.diskName) ∧
      disk'.header.map Header.diskId = some hd.diskId ∧
      (∀ l before, x.disk.readSector l = .ok before → ∃ after,
        x'.disk.readSector l = .ok after ∧ after.length = before.length ∧
        ∀ j, ¬ headerArea ty l j → after[j]? = before[j]?) ∧
      x' = { x with disk := { x.disk with dev := x'.disk.dev } } := by
  obtain ⟨s, rfl, hwf, hnat, hk, hr, -⟩ := history_ok hnew calls
  rw [hx] at hwf hnat hk hr
  obtain ⟨new, hrun, hlen, hv, hread, hfr⟩ :=
    headerWrite_ok (hd := hd) hwf (by unfold Writable; rw [hk]; exact hw) hn
  have hwf' := hwf.put hv hlen
  have hstep : Session.step .flushHeader x = (.ok (), { x with
      disk := { x.disk with dev := x.disk.dev.put s (headerSector s.type) new } }) := by
    refine onDisk_run ?_
    unfold Disk.flushHeader
    rw [M.bind_of_ok (s := x.disk) (s' := x.disk) (a := hd) (by
        rw [M.run_read]; simp only [Disk.getHeader, hh])]
    show Disk.onDev (hd.write x.disk.native.header) x.disk = _
    refine onDev_run (disk := x.disk) ?_
    rw [hnat]
    exact hrun
  have hparse : Header.parse s.type.format.header (Device.blk (Device.mk
      (x.disk.dev.put s (headerSector s.type) new).image x.disk.dev.geometry []) s
      s.type.format.header.location) = .ok { hd with
        diskName := paddedName hd.diskName
        geos := GEOSDiskHeader.new (x.disk.dev.blk s (headerSector s.type)) } := by
    rw [← hread, hwf'.headerRead]; rfl
  have hw2 : Wf (Device.mk (x.disk.dev.put s (headerSector s.type) new).image
      x.disk.dev.geometry []) s :=
    ⟨hwf'.shape, hwf'.geometry, hwf'.tracks, hwf'.errorTable, hwf'.size⟩
  refine ⟨_, initialized ⟨s.type.format, ⟨(x.disk.dev.put s (headerSector s.type) new).image,
      x.disk.dev.geometry, []⟩, none, none, none, []⟩ s { hd with
        diskName := paddedName hd.diskName
        geos := GEOSDiskHeader.new (x.disk.dev.blk s (headerSector s.type)) },
    hstep, ?_, rfl, rfl, ?_, rfl⟩
  · unfold Disk.new Disk.fromImage
    have hf := find_geometry hwf'
    rw [hf]
    exact initialize_of_header hw2 rfl hparse
  · intro l before hb
    obtain ⟨hvl, he⟩ := hwf.sector_isOk hb
    refine ⟨_, hwf'.sector hvl, ?_, ?_⟩
    · rw [he, hwf'.blk_length hvl, hwf.blk_length hvl]
    · intro j hj
      rw [he, hwf.blk_put hv hvl hlen]
      split
      · rename_i hl
        rw [hl] at hj ⊢
        exact hfr j hj
      · rfl

/-- A program that renames the disk. -/
example : ∃ disk x x', Disk.new .d81 (Image.openMemory 819200) = .ok disk ∧
    Session.run [.format [0x41] (0x42, 0x43), .setHeader (some { freshHeader .d81 [0x5A] (1, 2) with
      diskName := [0x5A, 0x5A] })] ⟨disk, [], []⟩ = x ∧
    Session.step .flushHeader x = (.ok (), x') := by
  obtain ⟨disk, hd⟩ := (C05_accepts_exactly .d81 (Image.openMemory 819200)).1.2 (by
    simp only [Image.openMemory, List.length_replicate]; decide)
  obtain ⟨x', -, h1, -⟩ := C14_write_header hd (show ImageKind.memory ≠ .readOnlyMap by decide) [.format [0x41] (0x42, 0x43),
    .setHeader (some { freshHeader .d81 [0x5A] (1, 2) with diskName := [0x5A, 0x5A] })] rfl rfl
    (by decide)
  exact ⟨disk, _, x', hd, rfl, h1⟩

end Cbm
