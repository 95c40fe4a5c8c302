import Verif.Model.Export
import Verif.Props.Details
/-!
# C74: exporting GEOS files with `cdisk geosread`
-/

namespace Cbm

open Spec

variable {d : Device} {s : Shape} {e : DirectoryEntry} {ext : Option (List Char)} {bytes : List Byte}
  {disk : Disk} {es : List DirectoryEntry} {free : Nat} {name : List Nat} {p : Position}

/-! ## Copying -/

theorem copyOut_short {r : GEOSReader} {segs : List (List Byte)} (h : Feeds d r segs)
    (hst : r.state ≠ .finished) (hlen : segs.length ≤ 200) {n m : Nat} (hn : segs.flatten.length < n)
    (ns : List Nat) : r.copyOut d (n :: m :: ns) = .ok segs.flatten := by
  obtain ⟨r', h1, h2, -⟩ := readLoop_feeds h 200 n [] hlen
  have hread : r.read d n = (.ok segs.flatten, r') := by
    unfold GEOSReader.read
    rw [if_neg hst, h1, List.nil_append, List.take_of_length_le (by omega)]
  rw [GEOSReader.copyOut, hread]
  simp only
  split
  · rename_i he
    rw [List.isEmpty_iff.1 he]
  · rw [GEOSReader.copyOut, show r'.read d m = (.ok [], r') from if_pos (h2 hn)]
    simp [res_bind_ok, res_pure]

theorem copyOut_long {sizes : List Nat} : ∀ {r : GEOSReader} {segs : List (List Byte)}, Feeds d r segs →
    r.state ≠ .finished → segs.length ≤ 200 → (∀ n ∈ sizes, 0 < n) → ∀ out, r.copyOut d sizes = .ok out →
    segs.flatten.length ≤ out.length ∧
      (∀ n, sizes.head? = some n → n ≤ segs.flatten.length → segs.flatten.length < out.length) := by
  induction sizes with
  | nil => intro r segs _ _ _ _ out h; cases h
  | cons n ns ih =>
    intro r segs hf hst hlen hpos out h
    by_cases hn : n ≤ segs.flatten.length
    · obtain ⟨r', pre, rest, h1, h2, h3, h4, h5⟩ :=
        readLoop_stuck hf 200 n [] hlen (hpos n (by simp)) hn
      have hread : r.read d n = (.ok (segs.flatten.take n), r') := by
        unfold GEOSReader.read
        rw [if_neg hst, h1, List.nil_append]
      rw [GEOSReader.copyOut, hread] at h
      have hl : (segs.flatten.take n).length = n := by rw [List.length_take]; omega
      have h0 := hpos n (by simp)
      simp only at h
      rw [if_neg (by
        rw [List.isEmpty_iff]
        intro hc
        rw [hc] at hl
        simp at hl
        omega)] at h
      obtain ⟨out', ho, h⟩ := res_bind_eq_ok.1 h
      cases h
      have := (ih h3 (h5 hst) (by rw [h2, List.length_append] at hlen; omega)
        (fun m hm => hpos m (by simp [hm])) out' ho).1
      have hsum : segs.flatten.length = pre.flatten.length + rest.flatten.length := by
        rw [h2, List.flatten_append, List.length_append]
      rw [List.length_append, hl]
      exact ⟨by omega, fun _ _ _ => by omega⟩
    · obtain ⟨r', h1, h2, -⟩ := readLoop_feeds hf 200 n [] hlen
      have hread : r.read d n = (.ok segs.flatten, r') := by
        unfold GEOSReader.read
        rw [if_neg hst, h1, List.nil_append, List.take_of_length_le (by omega)]
      rw [GEOSReader.copyOut, hread] at h
      simp only at h
      refine ⟨?_, fun m hm hle => ?_⟩
      · split at h
        · rename_i he
          rw [List.isEmpty_iff.1 he]
          exact Nat.zero_le _
        · obtain ⟨out', ho, h⟩ := res_bind_eq_ok.1 h
          cases h
          rw [List.length_append]
          omega
      · rw [List.head?_cons] at hm
        cases hm
        omega

theorem mem_length_flatten {α : Type} {b : List α} : ∀ {bs : List (List α)}, b ∈ bs → b.length ≤ bs.flatten.length
  | c :: bs, h => by
    rw [List.flatten_cons, List.length_append]
    rcases List.mem_cons.1 h with rfl | h
    · omega
    · have := mem_length_flatten h
      omega

theorem copyOut_endless {b : List Byte} {sizes : List Nat} : ∀ {r : GEOSReader} {segs : List (List Byte)},
    Feeds d r segs → r.state ≠ .finished → segs.length ≤ 200 → b ∈ segs →
    (∀ n ∈ sizes, 0 < n ∧ n ≤ b.length) → r.copyOut d sizes = .error .diverge := by
  induction sizes with
  | nil => intro r segs _ _ _ _ _; rfl
  | cons n ns ih =>
    intro r segs hf hst hlen hb hpos
    obtain ⟨h0, hn⟩ := hpos n (by simp)
    have := mem_length_flatten hb
    obtain ⟨r', pre, rest, h1, h2, h3, h4, h5⟩ := readLoop_stuck hf 200 n [] hlen h0 (by omega)
    have hread : r.read d n = (.ok (segs.flatten.take n), r') := by
      unfold GEOSReader.read
      rw [if_neg hst, h1, List.nil_append]
    have hl : (segs.flatten.take n).length = n := by rw [List.length_take]; omega
    have hrest : b ∈ rest := by
      rw [h2] at hb
      rcases List.mem_append.1 hb with hb | hb
      · have := mem_length_flatten hb
        omega
      · exact hb
    rw [GEOSReader.copyOut, hread]
    simp only
    rw [if_neg (by
      rw [List.isEmpty_iff]
      intro hc
      rw [hc] at hl
      simp at hl
      omega), ih h3 (h5 hst) (by rw [h2, List.length_append] at hlen; omega) hrest
        (fun m hm => hpos m (by simp [hm]))]
    rfl

/-! ## The command -/

/-- The border mark of an entry is of no consequence to the reader. -/
theorem reader_border (e : DirectoryEntry) (b : Bool) :
    GEOSReader.new { e with geosBorder := b } = GEOSReader.new e := rfl

theorem cmdGeosread_eq (ho : Disk.openPath ext false bytes = .ok disk) (sizes : List Nat) :
    (cmdGeosread ext name sizes bytes).1 = (do
      let f ← openGeosFile disk (fromStrLossy name)
      let r ← GEOSReader.new f.entry
      r.copyOut disk.dev sizes) := by
  unfold cmdGeosread inSession
  rw [ho]
  rfl

/-- `e` is the first file with this name in the listing. -/
theorem find_named (h : es.find? (fun x => x.filename == fromStrLossy name) = some e)
    (hes : disk.directory = .ok es) : disk.findDirectoryEntry (fromStrLossy name) = .ok e := by
  unfold Disk.findDirectoryEntry
  rw [collectRes_inv hes]
  exact findItem_map _ h

theorem bamRef_of_free (h : disk.blocksFree = .ok free) : ∃ r, disk.bamRef = .ok r := by
  unfold Disk.blocksFree at h
  obtain ⟨r, hr, -⟩ := res_bind_eq_ok.1 h
  exact ⟨r, hr⟩

/-- What `geosread` does with an exportable file. -/
theorem geosread_feeds (ho : Disk.openPath ext false bytes = .ok disk) (hw : Wf disk.dev s)
    (hdir : (cmdDir ext bytes).1 = .ok (es, free))
    (hfind : es.find? (fun x => x.filename == fromStrLossy name) = some e) (hp : e.position = some p)
    {stream : List Byte} (hx : Exports disk.dev s (slotData disk.dev s p) stream) :
    ∃ r segs, r.state = .directoryEntry ∧ Feeds disk.dev r segs ∧ segs.flatten = stream ∧
      segs.length ≤ 130 ∧
      (∀ content, PartOf disk.dev s (slotData disk.dev s p) content → ∃ b ∈ segs, content.length ≤ b.length) ∧
      ∀ sizes, (cmdGeosread ext name sizes bytes).1 = r.copyOut disk.dev sizes := by
  obtain ⟨hes, hfree⟩ := cmdDir_found ho hdir
  obtain ⟨ref, href⟩ := bamRef_of_free hfree
  obtain ⟨q, hq, hslot⟩ := listed_slot hw hes (List.mem_of_find?_eq_some hfind)
  rw [hp] at hq
  cases hq
  obtain ⟨border, hent⟩ := hslot.entry
  have hl : (slotData disk.dev s p).length = 32 := by
    unfold slotData slice
    have := hslot.fits
    rw [List.length_take, List.length_drop, hw.blk_length hslot.valid]
    omega
  obtain ⟨r, segs, hnew, hst, -, hf, hfl, hlen, hpart⟩ := feeds_export hw hl (some p) hx
  refine ⟨r, segs, hst, hf, hfl, hlen, hpart, fun sizes => ?_⟩
  rw [cmdGeosread_eq ho]
  have hopen : ∃ g, openGeosFile disk (fromStrLossy name) = .ok g ∧ g.entry = e := by
    have hsch : e.scheme = entryScheme (slotData disk.dev s p) := by rw [hent]; rfl
    have hfs : e.firstSector = ⟨byteAt (slotData disk.dev s p) 3, byteAt (slotData disk.dev s p) 4⟩ := by
      rw [hent]; rfl
    unfold openGeosFile Disk.openFile
    rw [find_named hfind hes, res_bind_ok]
    unfold Disk.openFileFromEntry File.fromEntry GEOSFile.new
    rw [href, res_bind_ok]
    cases hx with
    | sequential hs _ _ _ _ =>
      have := (parse32_geos (slotData disk.dev s p) (some p) (.inl hs)).2
      have hv : e.isVlir = .ok false := by
        rw [hent]
        refine Eq.trans this ?_
        rw [hs]; rfl
      rw [hsch, hs]
      simp [hv, res_bind_ok, res_pure]
    | vlir hs _ _ hix hvx _ =>
      have := (parse32_geos (slotData disk.dev s p) (some p) (.inr hs)).2
      have hv : e.isVlir = .ok true := by
        rw [hent]
        refine Eq.trans this ?_
        rw [hs]; rfl
      rw [hsch, hs]
      rw [hix] at hvx
      rw [← hfs] at hvx
      simp [hv, hw.sector hvx, res_bind_ok, res_pure]
  obtain ⟨g, hg, hge⟩ := hopen
  rw [hg, res_bind_ok, hge, show GEOSReader.new e = .ok r by
    rw [hent, reader_border]; exact hnew, res_bind_ok]

/-- **C74** (partial: the stream is shorter than the buffer).  `cdisk geosread` writes the export
stream of the GEOS file. -/
theorem C74_short_partial (ho : Disk.openPath ext false bytes = .ok disk) (hw : Wf disk.dev s)
    (hdir : (cmdDir ext bytes).1 = .ok (es, free))
    (hfind : es.find? (fun x => x.filename == fromStrLossy name) = some e) (hp : e.position = some p)
    {stream : List Byte} (hx : Exports disk.dev s (slotData disk.dev s p) stream) {n m : Nat}
    (hn : stream.length < n) (ns : List Nat) :
    (cmdGeosread ext name (n :: m :: ns) bytes).1 = .ok stream := by
  obtain ⟨r, segs, hst, hf, hfl, hlen, -, hrun⟩ := geosread_feeds ho hw hdir hfind hp hx
  rw [hrun, ← hfl]
  exact copyOut_short hf (by rw [hst]; nofun) (by omega) (by rw [hfl]; exact hn) ns

/-- **C74** refuted: when the first buffer is not larger than the stream, whatever is written is
longer than the stream, whatever the sizes of the buffers are. -/
theorem C74_long_refuted (ho : Disk.openPath ext false bytes = .ok disk) (hw : Wf disk.dev s)
    (hdir : (cmdDir ext bytes).1 = .ok (es, free))
    (hfind : es.find? (fun x => x.filename == fromStrLossy name) = some e) (hp : e.position = some p)
    {stream : List Byte} (hx : Exports disk.dev s (slotData disk.dev s p) stream) {n : Nat}
    {ns : List Nat} (hn : n ≤ stream.length) (hpos : ∀ m ∈ n :: ns, 0 < m) :
    (cmdGeosread ext name (n :: ns) bytes).1 ≠ .ok stream ∧
    ∀ out, (cmdGeosread ext name (n :: ns) bytes).1 = .ok out → stream.length < out.length := by
  obtain ⟨r, segs, hst, hf, hfl, hlen, -, hrun⟩ := geosread_feeds ho hw hdir hfind hp hx
  rw [hrun]
  have hlong : ∀ out, r.copyOut disk.dev (n :: ns) = .ok out → stream.length < out.length := by
    intro out h
    have := (copyOut_long hf (by rw [hst]; nofun) (by omega) hpos out h).2 n rfl (by rw [hfl]; exact hn)
    rwa [hfl] at this
  exact ⟨fun h => absurd (hlong _ h) (by omega), hlong⟩

/-- **C74** refuted: when the data of a sequential file, or a record of a VLIR file, is as large
as the buffers, the command never ends. -/
theorem C74_endless_refuted (ho : Disk.openPath ext false bytes = .ok disk) (hw : Wf disk.dev s)
    (hdir : (cmdDir ext bytes).1 = .ok (es, free))
    (hfind : es.find? (fun x => x.filename == fromStrLossy name) = some e) (hp : e.position = some p)
    {stream content : List Byte} (hx : Exports disk.dev s (slotData disk.dev s p) stream)
    (hc : PartOf disk.dev s (slotData disk.dev s p) content) {sizes : List Nat}
    (hs : ∀ n ∈ sizes, 0 < n ∧ n ≤ content.length) :
    (cmdGeosread ext name sizes bytes).1 = .error .diverge := by
  obtain ⟨r, segs, hst, hf, -, hlen, hpart, hrun⟩ := geosread_feeds ho hw hdir hfind hp hx
  obtain ⟨b, hb, hl⟩ := hpart content hc
  rw [hrun]
  exact copyOut_endless hf (by rw [hst]; nofun) (by omega) hb fun n h =>
    ⟨(hs n h).1, Nat.le_trans (hs n h).2 hl⟩

/-- **C74** refuted: for a file that can be opened and is not a GEOS file the command panics. -/
theorem C74_not_geos_refuted {f : File} {r : Nat} (ho : Disk.openPath ext false bytes = .ok disk)
    (hdir : (cmdDir ext bytes).1 = .ok (es, free))
    (hfind : es.find? (fun x => x.filename == fromStrLossy name) = some e)
    (hs : e.scheme = .linear ∨ e.scheme = .relative)
    (hf : disk.openFileFromEntry e = .ok (f, r)) (sizes : List Nat) :
    (cmdGeosread ext name sizes bytes).1 = .error .panic := by
  obtain ⟨hes, -⟩ := cmdDir_found ho hdir
  rw [cmdGeosread_eq ho]
  have hopen : openGeosFile disk (fromStrLossy name) = .error .panic := by
    unfold openGeosFile Disk.openFile
    rw [find_named hfind hes, res_bind_ok, hf, res_bind_ok]
    have h2 := (openFile_parts hf).2
    unfold File.fromEntry at h2
    rcases hs with hs | hs
    · rw [hs] at h2
      cases h2
      rfl
    · rw [hs] at h2
      obtain ⟨g, -, h2⟩ := res_bind_eq_ok.1 h2
      cases h2
      rfl
  rw [hopen]
  rfl

/-- **C74** An ordinary file can always be opened, so that `geosread` panics for each of them. -/
theorem C74_ordinary_refuted (ho : Disk.openPath ext false bytes = .ok disk)
    (hdir : (cmdDir ext bytes).1 = .ok (es, free))
    (hfind : es.find? (fun x => x.filename == fromStrLossy name) = some e) (hs : e.scheme = .linear)
    (sizes : List Nat) : (cmdGeosread ext name sizes bytes).1 = .error .panic := by
  obtain ⟨-, hfree⟩ := cmdDir_found ho hdir
  obtain ⟨ref, href⟩ := bamRef_of_free hfree
  refine C74_not_geos_refuted (f := .linear e) (r := ref) ho hdir hfind (.inl hs) ?_ sizes
  unfold Disk.openFileFromEntry File.fromEntry
  rw [href, res_bind_ok, hs]
  rfl

/-- **C74** A name that is not in the directory is reported. -/
theorem C74_not_found (ho : Disk.openPath ext false bytes = .ok disk)
    (hdir : (cmdDir ext bytes).1 = .ok (es, free)) (hn : ∀ x ∈ es, x.filename ≠ fromStrLossy name)
    (sizes : List Nat) : (cmdGeosread ext name sizes bytes).1 = fail .notFound := by
  obtain ⟨hes, -⟩ := cmdDir_found ho hdir
  rw [cmdGeosread_eq ho]
  unfold openGeosFile Disk.openFile Disk.findDirectoryEntry
  rw [collectRes_inv hes]
  have : ∀ xs : List DirectoryEntry, (∀ x ∈ xs, x.filename ≠ fromStrLossy name) →
      findItem (fromStrLossy name) (xs.map .ok) = fail .notFound := by
    intro xs
    induction xs with
    | nil => intro _; rfl
    | cons x xs ih =>
      intro h
      rw [List.map_cons, findItem, if_neg (h x (by simp))]
      exact ih fun y hy => h y (by simp [hy])
  rw [this es hn]
  rfl

/-- **C74** The image is not changed. -/
theorem C74_unchanged (ext : Option (List Char)) (name sizes : List Nat) (bytes : List Byte) :
    (cmdGeosread ext name sizes bytes).2 = bytes := by
  refine inSession_readOnly ?_ ext bytes
  intro x
  exact fun _ => rfl

/-! ## Witnesses -/

theorem bamFree_ok {b : Bam} (h : b.format.lastTrack ≤ b.entries.length) : ∃ n, b.blocksFree = .ok n := by
  unfold Bam.blocksFree
  have : ∀ (ts : List Nat) (n : Nat), (∀ t ∈ ts, t < b.entries.length) → ∃ m, foldRes (fun n track =>
      if track = b.format.directoryTrack - 1 then .ok n
      else do
        let e ← indexRes b.entries track
        return n + e.freeSectors.toNat) ts n = .ok m := by
    intro ts
    induction ts with
    | nil => intro n _; exact ⟨n, rfl⟩
    | cons t ts ih =>
      intro n ht
      unfold foldRes
      by_cases hd : t = b.format.directoryTrack - 1
      · rw [if_pos hd, res_bind_ok]
        exact ih _ fun u hu => ht u (by simp [hu])
      · rw [if_neg hd]
        unfold indexRes
        rw [List.getElem?_eq_getElem (ht t (by simp))]
        exact ih _ fun u hu => ht u (by simp [hu])
  exact this _ _ fun t ht => by rw [List.mem_range] at ht; omega

theorem imageOf_zero {front : List Byte} {l : Location}
    (hf : front.length ≤ 256 * sectorNumber .d64 l) (hl : 256 * sectorNumber .d64 l + 256 ≤ 174848) :
    (imageOf front).blk ⟨.d64, 35, false⟩ l = List.replicate 256 0 := by
  unfold Device.blk imageOf slice
  show List.take 256 (List.drop (256 * sectorNumber .d64 l) _) = _
  rw [List.drop_append, List.drop_eq_nil_of_le hf, List.nil_append, List.drop_replicate, List.take_replicate]
  congr 1
  omega

/-- The program opens the image of `sampleDev` and lists its file. -/
theorem sample_listed {front slot : List Byte} {e : DirectoryEntry} (hf : front.length ≤ 91392)
    (hs : slot.length = 32)
    (hd : entriesIn ([0x00, 0xFF] ++ slot.drop 2 ++ List.replicate 224 0) ⟨18, 1⟩ = [e]) :
    ∃ bytes disk free, bytes = (sampleDev front slot).image.bytes ∧
      Disk.openPath (some "d64".toList) false bytes = .ok disk ∧ Wf disk.dev ⟨.d64, 35, false⟩ ∧
      (∀ l, disk.dev.blk ⟨.d64, 35, false⟩ l = (sampleDev front slot).blk ⟨.d64, 35, false⟩ l) ∧
      (cmdDir (some "d64".toList) bytes).1 = .ok ([e], free) := by
  obtain ⟨hw, hblk, hoth⟩ := sampleDev_facts (front := front) (slot := slot) (by omega) hs
  have hlen : (sampleDev front slot).image.bytes.length = 174848 := hw.size.trans (by decide +kernel)
  generalize hB : (sampleDev front slot).image.bytes = B at hlen
  let dev : Device := ⟨⟨.readOnlyMap, B⟩, D64.GEOMETRY_35, []⟩
  have hw' : Wf dev ⟨.d64, 35, false⟩ := by
    refine ⟨by decide, ?_, rfl, rfl, ?_⟩
    · simp [dev, DiskType.geometries, D64.ALLOWED_GEOMETRIES]
    · exact hlen.trans (by decide +kernel)
  have hsame : ∀ l, dev.blk ⟨.d64, 35, false⟩ l = (sampleDev front slot).blk ⟨.d64, 35, false⟩ l := by
    intro l
    unfold Device.blk
    rw [hB]
  have hzero : dev.blk ⟨.d64, 35, false⟩ ⟨18, 0⟩ = List.replicate 256 0 := by
    rw [hsame, hoth _ (by decide) (by decide)]
    exact imageOf_zero hf (by decide +kernel)
  let disk₀ : Disk := ⟨DiskType.d64.format, dev, none, none, none, []⟩
  obtain ⟨h, hh, hg⟩ : ∃ h, Header.parse DiskType.d64.format.header (List.replicate 256 0) = .ok h ∧
      h.geos = none := ⟨_, rfl, by decide +kernel⟩
  have hinit := initialize_of_header (disk := disk₀) hw' rfl (h := h) (by
    show Header.parse DiskType.d64.format.header (dev.blk ⟨.d64, 35, false⟩ ⟨18, 0⟩) = _
    rw [hzero]
    exact hh)
  have hopen : Disk.openPath (some "d64".toList) false B = .ok (initialized disk₀ ⟨.d64, 35, false⟩ h) := by
    rw [← hinit]
    unfold Disk.openPath
    rw [show DiskType.fromExtension (some "d64".toList) = some .d64 from by decide +kernel]
    show Disk.fromImage _ _ ⟨.readOnlyMap, B⟩ = _
    unfold Disk.fromImage
    rw [show Geometry.findBySize (Image.len ⟨.readOnlyMap, B⟩) DiskType.d64.geometries = some D64.GEOMETRY_35 from by
      rw [show Image.len ⟨.readOnlyMap, B⟩ = 174848 from hlen]
      decide +kernel]
  have hfm : formatFor DiskType.d64.format h = DiskType.d64.format := by
    unfold formatFor
    rw [hg]
    rfl
  have hc : IsChain dev ⟨.d64, 35, false⟩ [⟨18, 1⟩] _ :=
    ⟨by decide, by decide, trivial, [], ⟨18, 1⟩, rfl, by rw [hsame, hblk]; rfl,
      by rw [hsame, hblk]; exact (by decide : (0xFF : Byte) ≠ 0), rfl⟩
  obtain ⟨free, hfree⟩ := bamFree_ok (b := ⟨formatFor DiskType.d64.format h, storedEntries dev ⟨.d64, 35, false⟩, false⟩)
    (by rw [hfm]; show _ ≤ (storedEntries dev ⟨.d64, 35, false⟩).length
        rw [length_storedEntries]; exact (by decide : DiskType.d64.format.lastTrack ≤ bamTracks .d64))
  refine ⟨B, _, free, rfl, hopen, hw', hsame, ?_⟩
  rw [cmdDir_eq hopen]
  have hdir : (initialized disk₀ ⟨.d64, 35, false⟩ h).directory = .ok [e] := by
    rw [directory_picked (disk := initialized disk₀ ⟨.d64, 35, false⟩ h) (dir := [⟨18, 1⟩]) hw' rfl rfl
      (by show some _ = some (formatFor DiskType.d64.format h).firstDirectoryLocation; rw [hfm]; rfl) hc
      (by rw [hg]; nofun), hg]
    refine congrArg Except.ok ?_
    show picked dev _ (usedBytes (dev.blk _ ⟨18, 1⟩) / 32) _ _ ++ [] ++ [] = _
    rw [hsame, hblk, List.append_nil, List.append_nil, show usedBytes ([0x00, 0xFF] ++ slot.drop 2 ++
      List.replicate 224 0) = 256 from
        if_pos (rfl : byteAt ([0x00, 0xFF] ++ slot.drop 2 ++ List.replicate 224 (0 : Byte)) 0 = 0)]
    exact picked_bytes.trans (by rw [hsame, hblk]; exact hd)
  rw [hdir, res_bind_ok, show (initialized disk₀ ⟨.d64, 35, false⟩ h).blocksFree = .ok free from hfree]
  rfl

/-- The hypotheses of `C74_short_partial` and `C74_long_refuted` hold of the VLIR file of
`sampleVlir`, whose name is `"aaaaaaaaaaaaaaaa"`. -/
example : ∃ bytes disk free e p stream, Disk.openPath (some "d64".toList) false bytes = .ok disk ∧
    Wf disk.dev ⟨.d64, 35, false⟩ ∧ (cmdDir (some "d64".toList) bytes).1 = .ok ([e], free) ∧
    [e].find? (fun x => x.filename == fromStrLossy (List.replicate 16 97)) = some e ∧
    e.position = some p ∧ e.scheme = .geosVLIR ∧
    Exports disk.dev ⟨.d64, 35, false⟩ (slotData disk.dev ⟨.d64, 35, false⟩ p) stream ∧
    1017 = stream.length := by
  obtain ⟨-, hblk, hoth⟩ := sampleDev_facts (front := sampleVlirFront) (slot := sampleVlirSlot)
    (by decide +kernel) (by decide)
  obtain ⟨bytes, disk, free, -, ho, hw, hsame, hdir⟩ := sample_listed (front := sampleVlirFront)
    (slot := sampleVlirSlot) (e := DirectoryEntry.parse32 sampleVlirSlot (some ⟨⟨18, 1⟩, 0, 32⟩))
    (by decide +kernel) (by decide) (by decide +kernel)
  have hs : ∀ l ∈ [⟨1, 0⟩, ⟨1, 1⟩, ⟨1, 2⟩, (⟨1, 3⟩ : Location)],
      disk.dev.blk ⟨.d64, 35, false⟩ l = sampleVlir.blk ⟨.d64, 35, false⟩ l := fun l hl =>
    (hsame l).trans (hoth l
    ((by decide : ∀ l ∈ [⟨1, 0⟩, ⟨1, 1⟩, ⟨1, 2⟩, (⟨1, 3⟩ : Location)], (⟨.d64, 35, false⟩ : Shape).Valid l) l hl)
    ((by decide : ∀ l ∈ [⟨1, 0⟩, ⟨1, 1⟩, ⟨1, 2⟩, (⟨1, 3⟩ : Location)], l ≠ ⟨18, 1⟩) l hl))
  have c1 : IsChain sampleVlir ⟨.d64, 35, false⟩ [⟨1, 1⟩] [1, 2, 3] :=
    ⟨by decide +kernel, by decide, trivial, [], ⟨1, 1⟩, rfl, by decide +kernel, by decide +kernel,
      by decide +kernel⟩
  have c2 : IsChain sampleVlir ⟨.d64, 35, false⟩ [⟨1, 2⟩] [9] :=
    ⟨by decide +kernel, by decide, trivial, [], ⟨1, 2⟩, rfl, by decide +kernel, by decide +kernel,
      by decide +kernel⟩
  have c1' := c1.frame (d' := disk.dev) fun l hl => hs l (by simp at hl; simp [hl])
  have c2' := c2.frame (d' := disk.dev) fun l hl => hs l (by simp at hl; simp [hl])
  have hslot : byteAt (slotData disk.dev ⟨.d64, 35, false⟩ ⟨⟨18, 1⟩, 0, 32⟩) = byteAt
      ([0x00, 0xFF] ++ sampleVlirSlot.drop 2) := by
    unfold slotData
    rw [hsame, hblk]
    rfl
  have hslot' : slotData disk.dev ⟨.d64, 35, false⟩ ⟨⟨18, 1⟩, 0, 32⟩ =
      [0x00, 0xFF] ++ sampleVlirSlot.drop 2 := by
    unfold slotData
    rw [hsame, hblk]
    rfl
  refine ⟨bytes, disk, free, _, ⟨⟨18, 1⟩, 0, 32⟩, _, ho, hw, hdir, by decide +kernel, rfl, by decide +kernel,
    .vlir (info := ⟨1, 3⟩) (index := ⟨1, 0⟩) (records := [[1, 2, 3], [9]])
      (lengths := [1, 4, 0, 0xFF] ++ [1, 2]) (by rw [hslot']; decide +kernel) (by rw [hslot]; decide +kernel)
      (by decide) (by rw [hslot]; decide +kernel) (by decide) ?_, ?_⟩
  · rw [hs _ (by simp), show vlirIndex (sampleVlir.blk ⟨.d64, 35, false⟩ ⟨1, 0⟩) =
      [⟨1, 1⟩, noRecord, ⟨1, 2⟩] from by decide +kernel]
    have e1 : byteAt (disk.dev.blk ⟨.d64, 35, false⟩ ⟨1, 1⟩) 1 = 4 := by
      rw [hs _ (by simp)]; decide +kernel
    have e2 : byteAt (disk.dev.blk ⟨.d64, 35, false⟩ ⟨1, 2⟩) 1 = 2 := by
      rw [hs _ (by simp)]; decide +kernel
    have := Converted.present (p := ⟨1, 1⟩) (init := []) (t := ⟨1, 1⟩) (by decide) rfl c1' (by decide)
      (.absent (.present (p := ⟨1, 2⟩) (init := []) (t := ⟨1, 2⟩) (by decide) rfl c2' (by decide) .nil))
    rw [e1, e2] at this
    exact this
  · simp only [List.length_append, (exportHead_length (slot := slotData disk.dev ⟨.d64, 35, false⟩
      ⟨⟨18, 1⟩, 0, 32⟩) (by rw [hslot']; decide) _).2, List.length_drop, hw.blk_length (l := ⟨1, 3⟩) (by decide)]
    decide +kernel

/-- A chain of 33 sectors with 8192 bytes of data, after an empty info block. -/
def sampleLargeLocs : List Location :=
  (List.range 33).map fun i => if i < 20 then ⟨1, UInt8.ofNat (i + 1)⟩ else ⟨2, UInt8.ofNat (i - 20)⟩
@[inherit_doc sampleLargeLocs]
def sampleLargeFront : List Byte :=
  List.replicate 256 0 ++ (sampleLargeLocs.drop 1).flatMap (fun l => l.track :: l.sector :: List.replicate 254 7) ++
    0 :: 65 :: List.replicate 254 7
@[inherit_doc sampleLargeLocs]
def sampleLargeSlot : List Byte :=
  [0, 0, 0x82, 1, 1] ++ List.replicate 16 0x41 ++ [1, 0, 0, 7, 0, 0, 0, 0, 0, 34, 0]

/-- `Linked` can be computed. -/
def linkedB (d : Device) (s : Shape) : List Location → Bool
  | [] => true
  | [_] => true
  | l :: m :: rest => decide (linkBytes (d.blk s l) = m) && linkedB d s (m :: rest)

theorem linked_of : ∀ {ls : List Location}, linkedB d s ls = true → Linked d s ls
  | [], _ => trivial
  | [_], _ => trivial
  | l :: m :: rest, h => by
    unfold linkedB at h
    rw [Bool.and_eq_true, decide_eq_true_eq] at h
    exact ⟨h.1, linked_of h.2⟩

/-- The hypotheses of `C74_endless_refuted` hold of a sequential GEOS file of 8192 bytes and the
buffers of 8192 bytes that `io::copy` uses. -/
example : ∃ bytes disk free e p stream content, Disk.openPath (some "d64".toList) false bytes = .ok disk ∧
    Wf disk.dev ⟨.d64, 35, false⟩ ∧ (cmdDir (some "d64".toList) bytes).1 = .ok ([e], free) ∧
    [e].find? (fun x => x.filename == fromStrLossy (List.replicate 16 97)) = some e ∧
    e.position = some p ∧
    Exports disk.dev ⟨.d64, 35, false⟩ (slotData disk.dev ⟨.d64, 35, false⟩ p) stream ∧
    PartOf disk.dev ⟨.d64, 35, false⟩ (slotData disk.dev ⟨.d64, 35, false⟩ p) content ∧
    (∀ k, ∀ n ∈ List.replicate k 8192, 0 < n ∧ n ≤ content.length) := by
  obtain ⟨-, hblk, hoth⟩ := sampleDev_facts (front := sampleLargeFront) (slot := sampleLargeSlot)
    (by decide +kernel) (by decide)
  obtain ⟨bytes, disk, free, -, ho, hw, hsame, hdir⟩ := sample_listed (front := sampleLargeFront)
    (slot := sampleLargeSlot) (e := DirectoryEntry.parse32 sampleLargeSlot (some ⟨⟨18, 1⟩, 0, 32⟩))
    (by decide +kernel) (by decide) (by decide +kernel)
  have hs : ∀ l ∈ sampleLargeLocs, disk.dev.blk ⟨.d64, 35, false⟩ l =
      (imageOf sampleLargeFront).blk ⟨.d64, 35, false⟩ l := fun l hl => (hsame l).trans (hoth l
    ((by decide +kernel : ∀ l ∈ sampleLargeLocs, (⟨.d64, 35, false⟩ : Shape).Valid l) l hl)
    ((by decide +kernel : ∀ l ∈ sampleLargeLocs, l ≠ ⟨18, 1⟩) l hl))
  have hlast : byteAt ((imageOf sampleLargeFront).blk ⟨.d64, 35, false⟩ ⟨2, 12⟩) 1 = 65 := by decide +kernel
  obtain ⟨content, c, hc⟩ : ∃ content, IsChain (imageOf sampleLargeFront) ⟨.d64, 35, false⟩ sampleLargeLocs content ∧
      content.length = 8192 := by
    refine ⟨_, ⟨by decide +kernel, by decide +kernel, linked_of (by decide +kernel), sampleLargeLocs.take 32,
      ⟨2, 12⟩, by decide +kernel, by decide +kernel, by rw [hlast]; decide, rfl⟩, ?_⟩
    have hwf := imageOf_wf sampleLargeFront (by decide +kernel)
    unfold slice
    rw [List.length_append, payload_length hwf (by decide +kernel), hlast, List.length_take, List.length_take, List.length_drop,
      hwf.blk_length (by decide)]
    decide +kernel
  have c' := c.frame (d' := disk.dev) hs
  have hslot : slotData disk.dev ⟨.d64, 35, false⟩ ⟨⟨18, 1⟩, 0, 32⟩ =
      [0x00, 0xFF] ++ sampleLargeSlot.drop 2 := by
    unfold slotData
    rw [hsame, hblk]
    rfl
  refine ⟨bytes, disk, free, _, ⟨⟨18, 1⟩, 0, 32⟩, _, content, ho, hw, hdir, by decide +kernel, rfl,
    .sequential (info := ⟨1, 0⟩) (by rw [hslot]; decide +kernel) (by rw [hslot]; decide +kernel) (by decide)
      (by rw [hslot]; decide +kernel) c', .inl ⟨by rw [hslot]; decide +kernel, _, by rw [hslot]; decide +kernel, c'⟩,
    fun k n hn => ?_⟩
  rw [(List.mem_replicate.1 hn).2, hc]
  exact ⟨by decide, Nat.le_refl _⟩

/-- The hypotheses of `C74_ordinary_refuted` hold of an ordinary program file. -/
example : ∃ bytes disk free e, Disk.openPath (some "d64".toList) false bytes = .ok disk ∧
    (cmdDir (some "d64".toList) bytes).1 = .ok ([e], free) ∧
    [e].find? (fun x => x.filename == fromStrLossy (List.replicate 16 97)) = some e ∧
    e.scheme = .linear ∧
    ∀ sizes, (cmdGeosread (some "d64".toList) (List.replicate 16 97) sizes bytes).1 = .error .panic := by
  let slot : List Byte := [0, 0, 0x82, 1, 1] ++ List.replicate 16 0x41 ++ [0, 0, 0, 0, 0, 0, 0, 0, 0, 1, 0]
  obtain ⟨bytes, disk, free, -, ho, hw, hsame, hdir⟩ := sample_listed (front := [])
    (slot := slot) (e := DirectoryEntry.parse32 slot (some ⟨⟨18, 1⟩, 0, 32⟩))
    (by decide) (by decide) (by decide +kernel)
  exact ⟨bytes, disk, free, _, ho, hdir, by decide +kernel, by decide +kernel, fun sizes =>
    C74_ordinary_refuted (e := DirectoryEntry.parse32 slot (some ⟨⟨18, 1⟩, 0, 32⟩)) ho hdir (by decide +kernel) (by decide +kernel) sizes⟩

end Cbm
