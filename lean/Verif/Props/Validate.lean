import Verif.Lemmas.ValidateReady
import Verif.Lemmas.DirFacts
import Verif.Lemmas.Start
/-!
# What `validate` reports (C32), and which sectors are used for what (C11)

`Violation`, `claims`, `owner`: Spec/Validate.
-/

namespace Cbm
open Spec

variable {ty : DiskType} {b : Bam} {disk : Disk} {x : Session} {a : Store} {s : Shape}
  {header : Header} {dir : List Location} {entries : List DirectoryEntry} {e : DirectoryEntry}

/-! ## C32 -/

/-- A disk that was opened and whose directory can be listed: the state `validate` needs. -/
structure CanValidate (disk : Disk) (ty : DiskType) (b : Bam) (header : Header)
    (dir : List Location) (entries : List DirectoryEntry) : Prop where
  format : ∃ g, disk.format = some { ty.format with geos := g }
  header : disk.header = some header
  bam : bamOf disk = some b
  tracks : BamOf b ty
  chain : chainLocations disk.dev (firstDirectory ty) = .ok dir
  listed : disk.directory = .ok entries
  scans : ∀ e ∈ entries, scanFile disk e ≠ .error .panic ∧ scanFile disk e ≠ .error .diverge

theorem collectRes_inv {α : Type} : ∀ {items : List (Res α)} {xs : List α},
    collectRes items = .ok xs → items = xs.map .ok
  | [], xs, h => by
    cases h
    rfl
  | .error e :: items, xs, h => by
    unfold collectRes at h
    cases h
  | .ok y :: items, xs, h => by
    unfold collectRes at h
    cases hr : collectRes items with
    | error x =>
      rw [hr] at h
      cases h
    | ok ys =>
      rw [hr] at h
      cases h
      rw [collectRes_inv hr]
      rfl

/-- **C32** `validate` reports exactly the violations: every reported error is one, and
every violation is reported. -/
theorem C32_reports_exactly_the_violations (h : CanValidate disk ty b header dir entries) :
    ∃ errs, disk.validate = .ok errs ∧ ∀ err, err ∈ errs ↔
      Violation b ty (claims disk ty dir (header.geos.map GEOSDiskHeader.border) entries)
        (entries.map fun e => (e.filename, scanFile disk e)) err := by
  obtain ⟨g, hg⟩ := h.format
  have hb := h.bam
  unfold bamOf at hb
  cases hr : disk.bam with
  | none =>
    rw [hr] at hb
    cases hb
  | some ref =>
    rw [hr] at hb
    refine validate_spec hg hr hb h.tracks h.header h.chain (collectRes_inv h.listed) ?_
    intro e he err herr
    cases err with
    | err y => exact ⟨y, rfl⟩
    | panic => exact absurd herr (h.scans e he).1
    | diverge => exact absurd herr (h.scans e he).2

theorem owner_isSome {cs : List (Petscii × List Location)} {l : Location} {n : Petscii}
    (h : owner cs l = some n) : ∃ c ∈ cs, l ∈ c.2 := by
  apply Classical.byContradiction
  intro hno
  have := (owner_eq_none (cs := cs) (l := l)).2 fun c hc hl => hno ⟨c, hc, hl⟩
  rw [this] at h
  cases h

theorem owner_of_mem {cs : List (Petscii × List Location)} {l : Location}
    (h : ∃ c ∈ cs, l ∈ c.2) : ∃ n, owner cs l = some n := by
  cases ho : owner cs l with
  | some n => exact ⟨n, rfl⟩
  | none =>
    obtain ⟨c, hc, hl⟩ := h
    exact absurd hl (owner_eq_none.1 ho c hc)

theorem pairwise_iff_split {α : Type} {R : α → α → Prop} : ∀ {xs : List α},
    xs.Pairwise R ↔ ∀ pre y post, xs = pre ++ y :: post → ∀ x ∈ pre, R x y
  | [] => by simp
  | z :: zs => by
    rw [List.pairwise_cons, pairwise_iff_split (xs := zs)]
    constructor
    · rintro ⟨h1, h2⟩ pre y post he x hx
      cases pre with
      | nil => cases hx
      | cons p pre =>
        simp only [List.cons_append, List.cons.injEq] at he
        rcases List.mem_cons.1 hx with rfl | hx
        · rw [← he.1]
          exact h1 y (by rw [he.2]; simp)
        · exact h2 pre y post he.2 x hx
    · intro h
      refine ⟨fun y hy => ?_, fun pre y post he x hx => ?_⟩
      · obtain ⟨u, w, rfl⟩ := List.append_of_mem hy
        exact h (z :: u) y w rfl z (by simp)
      · exact h (z :: pre) y post (by rw [he]; rfl) x (by simp [hx])

/-- **C32** `validate` returns an empty list exactly if the sectors of every file can be
determined, no sector is claimed twice, be it by two files or by a file and the system,
and the sectors marked as allocated are exactly the claimed ones. -/
theorem C32_empty_iff (h : CanValidate disk ty b header dir entries) :
    disk.validate = .ok [] ↔
      (∀ e ∈ entries, ∃ ls, scanFile disk e = .ok ls) ∧
      (claims disk ty dir (header.geos.map GEOSDiskHeader.border) entries).Pairwise
        (fun c c' => ∀ l ∈ c.2, l ∉ c'.2) ∧
      ∀ l, ValidLoc ty (bamTracks ty) l → (isFree b l = false ↔
        ∃ c ∈ claims disk ty dir (header.geos.map GEOSDiskHeader.border) entries, l ∈ c.2) := by
  obtain ⟨errs, hv, hm⟩ := C32_reports_exactly_the_violations h
  have hnil : disk.validate = .ok [] ↔ ∀ err, err ∉ errs := by
    rw [hv]
    cases errs with
    | nil => simp
    | cons y ys =>
      simp only [Except.ok.injEq, reduceCtorEq, false_iff]
      exact fun hc => hc y (by simp)
  have hown : ∀ l, ValidLoc ty (bamTracks ty) l → ownSector ty l = true →
      ∃ c ∈ claims disk ty dir (header.geos.map GEOSDiskHeader.border) entries, l ∈ c.2 := by
    intro l hl ho
    exact ⟨_, List.mem_cons_self .., by
      simp only [List.mem_append]
      exact .inl (.inl (mem_ownSectors.2 ⟨hl, ho⟩))⟩
  rw [hnil]
  constructor
  · intro hno
    refine ⟨fun e he => ?_, pairwise_iff_split.2 fun pre y post hs c hc l hl hy => ?_, fun l hl => ?_⟩
    · cases hs : scanFile disk e with
      | ok ls => exact ⟨ls, rfl⟩
      | error err =>
        cases err with
        | err y =>
          exact absurd ((hm (.fileScanError y e.filename)).2
            (.scan (List.mem_map.2 ⟨e, he, by rw [hs]⟩))) (hno _)
        | panic => exact absurd hs (h.scans e he).1
        | diverge => exact absurd hs (h.scans e he).2
    · obtain ⟨n, hn⟩ := owner_of_mem (cs := pre) (l := l) ⟨c, hc, hl⟩
      exact hno _ ((hm (.sectorOveroccupied l n y.1)).2
        (.over (pre := pre) (post := post) (name := y.1) (ls := y.2) hs hy hn))
    · constructor
      · intro hf
        apply Classical.byContradiction
        intro hnc
        refine hno _ ((hm (.sectorMisallocated l)).2 (.misallocated hl hf ?_))
        exact owner_eq_none.2 fun c hc hlc => hnc ⟨c, hc, hlc⟩
      · intro hc
        cases hf : isFree b l with
        | false => rfl
        | true =>
          exfalso
          cases ho : ownSector ty l with
          | true => exact hno _ ((hm (.systemSectorNotAllocated l)).2 (.system hl ho hf))
          | false =>
            obtain ⟨n, hn⟩ := owner_of_mem hc
            exact hno _ ((hm (.sectorMisoccupied l n)).2 (.misoccupied hl hf ho hn))
  · rintro ⟨h1, h2, h3⟩ err herr
    cases (hm err).1 herr with
    | scan hs =>
      obtain ⟨e, he, heq⟩ := List.mem_map.1 hs
      obtain ⟨ls, hls⟩ := h1 e he
      rw [hls] at heq
      cases heq
    | over hs hl ho =>
      obtain ⟨c, hc, hlc⟩ := owner_isSome ho
      exact pairwise_iff_split.1 h2 _ _ _ hs c hc _ hlc hl
    | system hl ho hf =>
      rw [(h3 _ hl).2 (hown _ hl ho)] at hf
      cases hf
    | misallocated hl hf ho =>
      obtain ⟨c, hc, hlc⟩ := (h3 _ hl).1 hf
      exact owner_eq_none.1 ho c hc hlc
    | misoccupied hl hf ho hn =>
      rw [(h3 _ hl).2 (owner_isSome hn)] at hf
      cases hf

/-- **C32** Every disk that opens, has a header, and whose directory can be listed, meets the
conditions of the two theorems above, unless looking for the sectors of a file panics. -/
theorem C32_opened {image : Image} (hnew : Disk.new ty image = .ok disk)
    (hh : disk.header = some header)
    (hdir : chainLocations disk.dev (firstDirectory ty) = .ok dir)
    (hl : disk.directory = .ok entries)
    (hs : ∀ e ∈ entries, scanFile disk e ≠ .error .panic ∧ scanFile disk e ≠ .error .diverge) :
    ∃ b, CanValidate disk ty b header dir entries := by
  unfold Disk.new Disk.fromImage at hnew
  cases hf : Geometry.findBySize image.len ty.geometries with
  | none => rw [hf] at hnew; cases hnew
  | some g =>
    rw [hf] at hnew
    simp only at hnew
    obtain ⟨hg, hsz⟩ := findBySize_some hf
    have hw : Wf (Device.mk image g []) ⟨ty, g.tracks, g.withErrorTable⟩ :=
      wf_of_size hg rfl hsz.symm
    rcases parse_cases ty.format.header (Device.blk (Device.mk image g [])
        ⟨ty, g.tracks, g.withErrorTable⟩ ty.format.header.location) with ⟨hd, hp⟩ | hp
    · rw [initialize_of_header (disk := ⟨ty.format, ⟨image, g, []⟩, none, none, none, []⟩) hw rfl
        hp] at hnew
      have hfmt : ∃ q, formatFor ty.format hd = { ty.format with geos := q } := by
        unfold formatFor
        split
        · exact ⟨true, rfl⟩
        · exact ⟨ty.format.geos, rfl⟩
      obtain ⟨q, hq⟩ := hfmt
      cases hnew
      refine ⟨⟨formatFor ty.format hd, storedEntries ⟨image, g, []⟩ _, false⟩,
        ⟨⟨q, congrArg some hq⟩, hh, rfl, ⟨?_, length_storedEntries _ _, rfl⟩, hdir, hl, hs⟩⟩
      show formatFor ty.format hd = { ty.format with geos := (formatFor ty.format hd).geos }
      rw [hq]
    · rw [initialize_of_no_header (disk := ⟨ty.format, ⟨image, g, []⟩, none, none, none, []⟩) hw rfl
        hp] at hnew
      cases hnew
      cases hh

theorem locations_or (hw : Wf disk.dev s) (start : Location) :
    (∃ locs content, chainLocations disk.dev start = .ok locs ∧ locs.head? = some start ∧
      IsChain disk.dev s locs content) ∨
    (∃ y, chainLocations disk.dev start = fail y ∧
      ¬ ∃ locs content, locs.head? = some start ∧ IsChain disk.dev s locs content) := by
  cases hc : chainContent disk.dev start with
  | ok content =>
    obtain ⟨locs, hh, hch⟩ := (C16_read_ok_iff hw start content).1 hc
    exact .inl ⟨locs, content, chainLocations_chain hw hch hh, hh, hch⟩
  | error err =>
    right
    obtain ⟨ls, t, -, -, he⟩ := content_of_walk hw start
    have hy : ∃ y, err = .err y := by
      rw [hc] at he
      split at he
      · cases he; exact ⟨_, rfl⟩
      · split at he
        · cases he; exact ⟨_, rfl⟩
        · split at he
          · cases he; exact ⟨_, rfl⟩
          · cases he
    obtain ⟨y, rfl⟩ := hy
    refine ⟨y, ?_, ?_⟩
    · unfold chainContent at hc
      unfold chainLocations
      cases hs : chainSectors disk.dev start with
      | ok cs =>
        rw [hs] at hc
        cases hc
      | error z =>
        rw [hs] at hc
        cases hc
        rfl
    · rintro ⟨locs, content, hh, hch⟩
      rw [(C16_read_ok_iff hw start content).2 ⟨locs, hh, hch⟩] at hc
      cases hc

/-- **C32** The sectors of a file with the usual structure: those of its chain.  If its
chain is not well formed there are none, and the error is an ordinary one. -/
theorem C32_sectors_of_linear (hw : Wf disk.dev s) (hb : disk.bam.isSome) (he : e.scheme = .linear) :
    (∃ ls locs content, scanFile disk e = .ok ls ∧ locs.head? = some e.firstSector ∧
      IsChain disk.dev s locs content ∧ ∀ l, l ∈ ls ↔ l ∈ locs) ∨
    (∃ y, scanFile disk e = fail y ∧
      ¬ ∃ locs content, locs.head? = some e.firstSector ∧ IsChain disk.dev s locs content) := by
  obtain ⟨r, hr⟩ := Option.isSome_iff_exists.1 hb
  have hscan : scanFile disk e = (do
      let ls ← chainLocations disk.dev e.firstSector
      pure (dedupLocs (sortLocs ls))) := by
    unfold scanFile Disk.openFileFromEntry Disk.bamRef File.fromEntry
    rw [hr, he]
    rfl
  rw [hscan]
  rcases locations_or hw e.firstSector with ⟨locs, content, h1, h2, h3⟩ | ⟨y, h1, h2⟩
  · left
    rw [h1]
    exact ⟨_, locs, content, rfl, h2, h3, fun l => by rw [mem_dedupLocs, mem_sortLocs]⟩
  · right
    rw [h1]
    exact ⟨y, rfl, h2⟩

/-- **C32** The sectors of a GEOS file: those of the chain of the entry, the info block, and
the chains of the records. -/
theorem C32_sectors_of_geos {f : GEOSFile} {ls : List Location} {r : Nat}
    (hopen : disk.openFileFromEntry e = .ok (.geosSequential f, r) ∨
      disk.openFileFromEntry e = .ok (.geosVLIR f, r))
    (hs : scanFile disk e = .ok ls) (l : Location) :
    l ∈ ls ↔ (∃ locs, chainLocations disk.dev f.entry.firstSector = .ok locs ∧ l ∈ locs) ∨
      f.entry.infoLocation = .ok (some l) ∨
      ∃ start locs, some start ∈ f.vlir.getD [] ∧ chainLocations disk.dev start = .ok locs ∧
        l ∈ locs := by
  have hrec : ∀ (recs : List (Option Location)) (more : List Location),
      recordChains disk.dev recs = .ok more → ∀ l, (l ∈ more ↔ ∃ start locs, some start ∈ recs ∧
        chainLocations disk.dev start = .ok locs ∧ l ∈ locs) := by
    intro recs
    induction recs with
    | nil =>
      intro more hm l
      cases hm
      simp
    | cons y recs ih =>
      intro more hm l
      cases y with
      | none =>
        rw [ih more hm l]
        simp
      | some st =>
        unfold recordChains at hm
        cases hc : chainLocations disk.dev st with
        | error z => rw [hc] at hm; cases hm
        | ok locs =>
          rw [hc, res_bind_ok] at hm
          cases hr : recordChains disk.dev recs with
          | error z => rw [hr] at hm; cases hm
          | ok more' =>
            rw [hr] at hm
            cases hm
            rw [List.mem_append, ih more' hr l]
            constructor
            · rintro (h | ⟨st', locs', h1, h2, h3⟩)
              · exact ⟨st, locs, by simp, hc, h⟩
              · exact ⟨st', locs', by simp [h1], h2, h3⟩
            · rintro ⟨st', locs', h1, h2, h3⟩
              rcases List.mem_cons.1 h1 with h1 | h1
              · cases h1
                rw [hc] at h2
                cases h2
                exact .inl h3
              · exact .inr ⟨st', locs', h1, h2, h3⟩
  have hocc : f.occupiedSectors disk.dev = .ok ls := by
    unfold scanFile at hs
    rcases hopen with h | h <;> (rw [h] at hs; exact hs)
  unfold GEOSFile.occupiedSectors at hocc
  cases hc : chainLocations disk.dev f.entry.firstSector with
  | error z => rw [hc] at hocc; cases hocc
  | ok main =>
    rw [hc, res_bind_ok] at hocc
    cases hi : f.entry.infoLocation with
    | error z => rw [hi] at hocc; cases hocc
    | ok info =>
      rw [hi, res_bind_ok] at hocc
      have hmore : ∃ more, dedupLocs (sortLocs (main ++ info.toList ++ more)) = ls ∧
          ∀ l, l ∈ more ↔ ∃ start locs, some start ∈ f.vlir.getD [] ∧
            chainLocations disk.dev start = .ok locs ∧ l ∈ locs := by
        cases hv : f.vlir with
        | none =>
          rw [hv] at hocc
          cases hocc
          exact ⟨[], rfl, by simp⟩
        | some recs =>
          rw [hv] at hocc
          simp only at hocc
          cases hr : recordChains disk.dev recs with
          | error z => rw [hr] at hocc; cases hocc
          | ok more =>
            rw [hr] at hocc
            cases hocc
            exact ⟨more, rfl, fun l => by simpa using hrec recs more hr l⟩
      obtain ⟨more, hls, hm⟩ := hmore
      rw [← hls, mem_dedupLocs, mem_sortLocs, List.mem_append, List.mem_append, hm l]
      simp only [Option.mem_toList, Except.ok.injEq, or_assoc, exists_eq_left']

/-- **C32** If the directory chain itself cannot be followed, `validate` fails with that
error instead of reporting. -/
theorem C32_broken_directory {g : Bool} {err : Fail}
    (hf : disk.format = some { ty.format with geos := g })
    (hbam : bamOf disk = some b) (hb : BamOf b ty)
    (hdir : chainLocations disk.dev (firstDirectory ty) = .error err) :
    disk.validate = .error err := by
  obtain ⟨free, alloc, hfree, halloc, -⟩ := C39_bam_partition hb
  obtain ⟨sys, hsys, -⟩ := systemLocations_exact ty g
  unfold bamOf at hbam
  cases hr : disk.bam with
  | none =>
    rw [hr] at hbam
    cases hbam
  | some ref =>
    rw [hr] at hbam
    have hcell : indexRes disk.cells ref = .ok b := by
      unfold indexRes
      rw [show disk.cells[ref]? = some b from hbam]
    have hloc : ({ ty.format with geos := g } : DiskFormat).firstDirectoryLocation =
        firstDirectory ty := by cases ty <;> rfl
    unfold Disk.validate Disk.diskFormat Disk.bamRef
    rw [hf, hr]
    simp only [res_bind_ok, hcell, hsys, halloc, hfree, hloc, hdir, res_bind_error]

/-! The hypotheses are met by every reachable disk.  `C37_create_is_not_durable`
(Props/Durable) has disks with violations. -/

example (h : Reaches x a) : ∃ b header dir entries, CanValidate x.disk a.type b header dir entries ∧
    entries.length = a.files.length := by
  obtain ⟨s, v, r, b, hrep⟩ := h.rep
  have hready := hrep.ready
  refine ⟨b, v.header, v.dir, v.listing, ⟨⟨s.type.format.geos, ?_⟩, hready.header,
    bamOf_ready hready, ?_, ?_, directory_ready hready, ?_⟩, ?_⟩
  · rw [hrep.type, hready.format]
  · rw [hrep.type]
    exact hready.mounted.recorded.consistent.toBamOf
  · rw [hrep.type]
    exact dir_ready hready
  · intro e he
    obtain ⟨i, f, hf, rfl⟩ := mem_listing.1 he
    rw [scan_entry hready (mem_files.2 ⟨i, hf⟩)]
    exact ⟨by simp, by simp⟩
  · have h1 := h.shows.lists
    obtain ⟨es, h2, h3⟩ := h1
    rw [directory_ready hready] at h2
    cases h2
    have := congrArg List.length h3
    simpa [Store.listing] using this

/-! ## C11 -/

/-- **C11** After every history: the directory lies on the directory track, and not on the
sectors of the header and the BAM; no sector of a file lies on the directory track or on a
reserved track; every sector marked as allocated belongs to the header or the BAM, to the
directory or to a file. -/
theorem C11_directory_and_data_apart (h : Reaches x a) :
    ∃ dir entries bam, chainLocations x.disk.dev (firstDirectory a.type) = .ok dir ∧
      x.disk.directory = .ok entries ∧ bamOf x.disk = some bam ∧
      (∀ l ∈ dir, l.track.toNat = directoryTrack a.type ∧ systemSector a.type l = false) ∧
      (∀ e ∈ entries, ∃ locs, chainLocations x.disk.dev e.firstSector = .ok locs ∧
        ∀ l ∈ locs, systemTrack a.type l.track.toNat = false) ∧
      ∀ l, ValidLoc a.type (bamTracks a.type) l → (isFree bam l = false ↔
        systemSector a.type l = true ∨ l ∈ dir ∨
          ∃ e ∈ entries, ∃ locs, chainLocations x.disk.dev e.firstSector = .ok locs ∧ l ∈ locs) := by
  obtain ⟨s, v, r, b, hrep⟩ := h.rep
  have hready := hrep.ready
  have hod := hready.mounted.onDisk
  rw [hrep.type]
  refine ⟨v.dir, v.listing, b, dir_ready hready, directory_ready hready, bamOf_ready hready,
    hod.dirTrack, fun e he => ?_, fun l hl => ?_⟩
  · obtain ⟨i, f, hf, -, hlocs, -⟩ := listing_chain hod he
    exact ⟨f.locs, hlocs, fun l hl => (hod.dataLocs l (List.mem_flatMap.2
      ⟨f, mem_files.2 ⟨i, hf⟩, hl⟩)).2⟩
  · rw [hready.mounted.recorded.exact l hl]
    unfold Volume.Occupies
    refine or_congr Iff.rfl (or_congr Iff.rfl ?_)
    constructor
    · intro hu
      obtain ⟨f, hf, hlf⟩ := List.mem_flatMap.1 hu
      obtain ⟨i, hi⟩ := mem_files.1 hf
      have he := mem_listing.2 ⟨i, f, hi, rfl⟩
      obtain ⟨j, f', hj, heq, hlocs, -⟩ := listing_chain hod he
      have hch := hod.chains f hf
      exact ⟨_, he, f.locs, chainLocations_chain hod.wf hch (chain_head hch), hlf⟩
    · rintro ⟨e, he, locs, hlocs, hlf⟩
      obtain ⟨i, f, hf, -, hlocs', -⟩ := listing_chain hod he
      rw [hlocs] at hlocs'
      cases hlocs'
      exact List.mem_flatMap.2 ⟨f, mem_files.2 ⟨i, hf⟩, hlf⟩

/-- Such histories exist, for each type and with any number of calls. -/
example : ∃ x a, Reaches x a ∧ a.files.length = 2 := by
  obtain ⟨x, hx⟩ := exists_formatted .d64 [0x41] (by decide) (0x42, 0x43)
  have hd : (Store.run [.create [0x41] .PRG .linear, .openWriter 0,
      .write 0 (List.replicate 600 7), .create [0x42] .SEQ .linear]
      (Store.empty .d64 [0x41] (0x42, 0x43))).map (fun p => p.2.files.length) = some 2 := by
    decide +kernel
  obtain ⟨⟨rs, a⟩, hr, ha⟩ := Option.map_eq_some_iff.1 hd
  obtain ⟨x', -, hx'⟩ := hx.run hr
  exact ⟨x', a, hx', ha⟩

end Cbm
