import Verif.Lemmas.Sort
import Verif.Props.Bam
import Verif.Spec.Validate
/-!
# Validation
-/

namespace Cbm
open Spec

variable {ty : DiskType} {b : Bam} {l : Location} {disk : Disk} {s : Shape}

theorem mem_ownSectors : l ∈ ownSectors ty ↔
    ValidLoc ty (bamTracks ty) l ∧ ownSector ty l = true := by
  unfold ownSectors
  rw [List.mem_filter, List.mem_map]
  obtain ⟨_, hm⟩ := C39_enumeration_exact ty (bamTracks ty)
  have hbt : bamTracks ty < 256 := by cases ty <;> decide
  constructor
  · rintro ⟨⟨p, hp, rfl⟩, ho⟩
    refine ⟨?_, ho⟩
    have h := (hm p.1 p.2).1 hp
    have := sectorsPerTrack_le ty p.1
    unfold ValidLoc
    rw [show (UInt8.ofNat p.1).toNat = p.1 from by rw [UInt8.toNat_ofNat']; omega,
      show (UInt8.ofNat p.2).toNat = p.2 from by rw [UInt8.toNat_ofNat']; omega]
    exact h
  · rintro ⟨hv, ho⟩
    exact ⟨⟨(l.track.toNat, l.sector.toNat), (hm _ _).2 hv, by simp⟩, ho⟩

theorem systemLocations_exact (ty : DiskType) (g : Bool) :
    ∃ ls, ({ ty.format with geos := g } : DiskFormat).systemLocations = .ok ls ∧
      ∀ l, l ∈ ls ↔ l ∈ ownSectors ty := by
  have key : ∃ ls, ({ ty.format with geos := g } : DiskFormat).systemLocations = .ok ls ∧
      (ls.all fun l => (ownSectors ty).contains l) = true ∧
      ((ownSectors ty).all fun l => ls.contains l) = true := by
    cases ty <;> cases g <;> exact ⟨_, rfl, by decide +kernel, by decide +kernel⟩
  obtain ⟨ls, h1, h2, h3⟩ := key
  refine ⟨ls, h1, fun l => ⟨fun h => ?_, fun h => ?_⟩⟩
  · simpa using List.all_eq_true.1 h2 l h
  · simpa using List.all_eq_true.1 h3 l h

theorem invertLocations_exact (ty : DiskType) (g : Bool) (occ : List Location) :
    ∃ ls, invertLocations occ { ty.format with geos := g } = .ok ls ∧
      ∀ l, l ∈ ls ↔ ValidLoc ty (bamTracks ty) l ∧ l ∉ occ := by
  have hfirst : ty.format.firstTrack = 1 := by cases ty <;> rfl
  have hlast : ty.format.lastTrack = bamTracks ty := by cases ty <;> rfl
  have hbt : bamTracks ty < 256 := by cases ty <;> decide
  unfold invertLocations
  simp only [hfirst, hlast]
  rw [mapRes_ok (g := fun i => (List.range (sectorsPerTrack ty (1 + i))).map fun k =>
    (⟨UInt8.ofNat (1 + i), UInt8.ofNat k⟩ : Location))]
  · refine ⟨_, rfl, ?_⟩
    intro l
    simp only [List.mem_filter, List.mem_flatten, List.mem_map, List.mem_range]
    constructor
    · rintro ⟨⟨_, ⟨i, hi, rfl⟩, hl⟩, hno⟩
      simp only [List.mem_map, List.mem_range] at hl
      obtain ⟨k, hk, rfl⟩ := hl
      have := sectorsPerTrack_le ty (1 + i)
      refine ⟨?_, by simpa using hno⟩
      unfold ValidLoc
      rw [show (UInt8.ofNat (1 + i)).toNat = 1 + i from by rw [UInt8.toNat_ofNat']; omega,
        show (UInt8.ofNat k).toNat = k from by rw [UInt8.toNat_ofNat']; omega]
      exact ⟨by omega, by omega, hk⟩
    · rintro ⟨⟨h1, h2, h3⟩, hno⟩
      have he : 1 + (l.track.toNat - 1) = l.track.toNat := by omega
      refine ⟨⟨_, ⟨l.track.toNat - 1, by omega, rfl⟩, ?_⟩, by simpa using hno⟩
      simp only [List.mem_map, List.mem_range]
      rw [he]
      exact ⟨l.sector.toNat, h3, by simp⟩
  · intro i hi
    rw [List.mem_range] at hi
    obtain ⟨row, hr1, hr2⟩ := format_row ty (t := i) (by omega)
    rw [show (1 + i) = i + 1 from Nat.add_comm _ _, hr1, res_bind_ok, res_pure, hr2]

/-! ## Scanning -/

theorem lookupOwner_none {m : List (Location × Petscii)} :
    lookupOwner m l = none ↔ l ∉ m.map Prod.fst := by
  induction m with
  | nil => simp [lookupOwner]
  | cons p m ih =>
    obtain ⟨k, v⟩ := p
    unfold lookupOwner
    split
    · rename_i h
      simp [h]
    · rename_i h
      rw [ih]
      simp [Ne.symm h]

theorem occupy_spec (name : Petscii) : ∀ (ls : List Location) (m : List (Location × Petscii))
    (errs : List ValidationError), ls.Nodup →
    (∀ l, lookupOwner (occupy name ls (m, errs)).1 l =
      match lookupOwner m l with
      | some o => some o
      | none => if l ∈ ls then some name else none) ∧
    (∀ err, err ∈ (occupy name ls (m, errs)).2 ↔ err ∈ errs ∨
      ∃ l o, l ∈ ls ∧ lookupOwner m l = some o ∧ err = .sectorOveroccupied l o name)
  | [], m, errs, _ => by
    refine ⟨fun l => ?_, fun err => ?_⟩
    · show lookupOwner m l = _
      cases lookupOwner m l <;> simp
    · show err ∈ errs ↔ _
      simp
  | x :: xs, m, errs, hn => by
    have hn' := List.nodup_cons.1 hn
    unfold occupy
    cases hx : lookupOwner m x with
    | some o =>
      simp only []
      obtain ⟨h1, h2⟩ := occupy_spec name xs m (errs ++ [.sectorOveroccupied x o name]) hn'.2
      refine ⟨fun l => ?_, fun err => ?_⟩
      · rw [h1]
        cases hl : lookupOwner m l with
        | some o' => rfl
        | none =>
          have : l ≠ x := by
            rintro rfl
            rw [hx] at hl
            cases hl
          simp [this]
      · rw [h2]
        constructor
        · rintro (h | ⟨l, o', hl, ho, he⟩)
          · rcases List.mem_append.1 h with h | h
            · exact .inl h
            · exact .inr ⟨x, o, by simp, hx, by simpa using h⟩
          · exact .inr ⟨l, o', by simp [hl], ho, he⟩
        · rintro (h | ⟨l, o', hl, ho, he⟩)
          · exact .inl (by simp [h])
          · rcases List.mem_cons.1 hl with rfl | hl
            · rw [hx] at ho
              cases ho
              exact .inl (by simp [he])
            · exact .inr ⟨l, o', hl, ho, he⟩
    | none =>
      simp only []
      obtain ⟨h1, h2⟩ := occupy_spec name xs ((x, name) :: m) errs hn'.2
      have hlook : ∀ l, lookupOwner ((x, name) :: m) l = if x = l then some name else lookupOwner m l :=
        fun l => rfl
      refine ⟨fun l => ?_, fun err => ?_⟩
      · rw [h1, hlook]
        by_cases hxl : x = l
        · subst hxl
          rw [if_pos rfl, hx]
          simp
        · rw [if_neg hxl]
          cases hl : lookupOwner m l with
          | some o' => rfl
          | none => simp [Ne.symm hxl]
      · rw [h2]
        constructor
        · rintro (h | ⟨l, o', hl, ho, he⟩)
          · exact .inl h
          · rw [hlook] at ho
            rw [if_neg (by rintro rfl; exact hn'.1 hl)] at ho
            exact .inr ⟨l, o', by simp [hl], ho, he⟩
        · rintro (h | ⟨l, o', hl, ho, he⟩)
          · exact .inl h
          · rcases List.mem_cons.1 hl with rfl | hl
            · rw [hx] at ho
              cases ho
            · refine .inr ⟨l, o', hl, ?_, he⟩
              rw [hlook, if_neg (by rintro rfl; exact hn'.1 hl)]
              exact ho

theorem owner_append (cs : List (Petscii × List Location)) (c : Petscii × List Location) :
    owner (cs ++ [c]) l = match owner cs l with
      | some o => some o
      | none => if l ∈ c.2 then some c.1 else none := by
  unfold owner
  rw [List.find?_append]
  cases cs.find? fun c => c.2.contains l with
  | some o => rfl
  | none =>
    simp only [Option.none_or, Option.map_none, List.find?_cons, List.find?_nil]
    by_cases h : l ∈ c.2
    · simp [h]
    · simp [h]

/-- The outcome of looking for the sectors of the files. -/
def scansOf (disk : Disk) (entries : List DirectoryEntry) : List (Petscii × Res (List Location)) :=
  entries.map fun e => (e.filename, scanFile disk e)

theorem occupied_nodup {f : File} {d : Device} {ls : List Location}
    (h : f.occupiedSectors d = .ok ls) : ls.Nodup := by
  have geos : ∀ g : GEOSFile, g.occupiedSectors d = .ok ls → ls.Nodup := by
    intro g h
    unfold GEOSFile.occupiedSectors at h
    obtain ⟨_, _, h⟩ := res_bind_eq_ok.1 h
    obtain ⟨_, _, h⟩ := res_bind_eq_ok.1 h
    simp only [] at h
    split at h
    · obtain ⟨_, _, h⟩ := res_bind_eq_ok.1 h
      rw [res_pure] at h
      cases h
      exact sorted_nodup _
    · obtain ⟨_, _, h⟩ := res_bind_eq_ok.1 h
      rw [res_pure] at h
      cases h
      exact sorted_nodup _
  cases f with
  | linear e =>
    unfold File.occupiedSectors at h
    obtain ⟨_, _, h⟩ := res_bind_eq_ok.1 h
    rw [res_pure] at h
    cases h
    exact sorted_nodup _
  | relative f =>
    unfold File.occupiedSectors at h
    cases h
    exact sorted_nodup _
  | geosSequential f => exact geos f h
  | geosVLIR f => exact geos f h

theorem scanFile_nodup {e : DirectoryEntry} {ls : List Location} (h : scanFile disk e = .ok ls) :
    ls.Nodup := by
  unfold scanFile at h
  obtain ⟨⟨f, r⟩, _, h⟩ := res_bind_eq_ok.1 h
  exact occupied_nodup h

/-- The sectors claimed by files. -/
def fileClaims (disk : Disk) (entries : List DirectoryEntry) : List (Petscii × List Location) :=
  entries.filterMap fun e =>
    match scanFile disk e with
    | .ok ls => some (e.filename, ls)
    | .error _ => none

/-- Over-occupation reported when the claims `rest` follow the claims `done`. -/
def Clash (done rest : List (Petscii × List Location)) (err : ValidationError) : Prop :=
  ∃ pre name ls post l o, rest = pre ++ (name, ls) :: post ∧ l ∈ ls ∧
    owner (done ++ pre) l = some o ∧ err = .sectorOveroccupied l o name

theorem clash_cons {done rest : List (Petscii × List Location)} {name : Petscii}
    {ls : List Location} {err : ValidationError} :
    Clash done ((name, ls) :: rest) err ↔
      (∃ l o, l ∈ ls ∧ owner done l = some o ∧ err = .sectorOveroccupied l o name) ∨
      Clash (done ++ [(name, ls)]) rest err := by
  constructor
  · rintro ⟨pre, n, ls', post, l, o, he, hl, ho, herr⟩
    cases pre with
    | nil =>
      simp only [List.nil_append, List.cons.injEq, Prod.mk.injEq] at he
      obtain ⟨⟨rfl, rfl⟩, rfl⟩ := he
      exact .inl ⟨l, o, hl, by simpa using ho, herr⟩
    | cons p pre =>
      simp only [List.cons_append, List.cons.injEq] at he
      obtain ⟨rfl, rfl⟩ := he
      exact .inr ⟨pre, n, ls', post, l, o, rfl, hl, by simpa using ho, herr⟩
  · rintro (⟨l, o, hl, ho, herr⟩ | ⟨pre, n, ls', post, l, o, rfl, hl, ho, herr⟩)
    · exact ⟨[], name, ls, rest, l, o, rfl, hl, by simpa using ho, herr⟩
    · exact ⟨(name, ls) :: pre, n, ls', post, l, o, rfl, hl, by simpa using ho, herr⟩

theorem scanAll_spec : ∀ (entries : List DirectoryEntry) (done : List (Petscii × List Location))
    (m : List (Location × Petscii)) (errs : List ValidationError),
    (∀ l, lookupOwner m l = owner done l) →
    (∀ e ∈ entries, ∀ x, scanFile disk e = .error x → ∃ y, x = .err y) →
    ∃ m' errs', scanAll disk (entries.map .ok) (m, errs) = .ok (m', errs') ∧
      (∀ l, lookupOwner m' l = owner (done ++ fileClaims disk entries) l) ∧
      ∀ err, err ∈ errs' ↔ err ∈ errs ∨ Clash done (fileClaims disk entries) err ∨
        ∃ x name, (name, fail x) ∈ scansOf disk entries ∧ err = .fileScanError x name
  | [], done, m, errs, hm, _ => by
    refine ⟨m, errs, rfl, by simpa [fileClaims] using hm, ?_⟩
    intro err
    simp [Clash, fileClaims, scansOf]
  | e :: entries, done, m, errs, hm, hp => by
    cases hs : scanFile disk e with
    | ok ls =>
      have hfc : fileClaims disk (e :: entries) = (e.filename, ls) :: fileClaims disk entries := by
        simp [fileClaims, hs]
      obtain ⟨ho1, ho2⟩ := occupy_spec e.filename ls m errs (scanFile_nodup hs)
      obtain ⟨m', errs', h1, h2, h3⟩ := scanAll_spec entries (done ++ [(e.filename, ls)])
        (occupy e.filename ls (m, errs)).1 (occupy e.filename ls (m, errs)).2
        (by intro l; rw [ho1, owner_append, hm]) (fun e' he' => hp e' (by simp [he']))
      refine ⟨m', errs', ?_, ?_, ?_⟩
      · simp only [List.map_cons, scanAll, hs]
        exact h1
      · intro l
        rw [h2, hfc]
        simp
      · intro err
        rw [h3, ho2, hfc, clash_cons]
        have hsc : ∀ x name, ((name, fail x) ∈ scansOf disk (e :: entries)) ↔
            (name, fail x) ∈ scansOf disk entries := by
          intro x name
          simp [scansOf, hs, fail]
        constructor
        · rintro ((h | ⟨l, o, hl, ho, he⟩) | h | ⟨x, name, hx, he⟩)
          · exact .inl h
          · exact .inr (.inl (.inl ⟨l, o, hl, by rw [← hm]; exact ho, he⟩))
          · exact .inr (.inl (.inr h))
          · exact .inr (.inr ⟨x, name, (hsc x name).2 hx, he⟩)
        · rintro (h | (⟨l, o, hl, ho, he⟩ | h) | ⟨x, name, hx, he⟩)
          · exact .inl (.inl h)
          · exact .inl (.inr ⟨l, o, hl, by rw [hm]; exact ho, he⟩)
          · exact .inr (.inl h)
          · exact .inr (.inr ⟨x, name, (hsc x name).1 hx, he⟩)
    | error x =>
      obtain ⟨y, rfl⟩ := hp e (by simp) x hs
      have hfc : fileClaims disk (e :: entries) = fileClaims disk entries := by
        simp [fileClaims, hs]
      obtain ⟨m', errs', h1, h2, h3⟩ := scanAll_spec entries done m
        (errs ++ [.fileScanError y e.filename]) hm (fun e' he' => hp e' (by simp [he']))
      refine ⟨m', errs', ?_, ?_, ?_⟩
      · simp only [List.map_cons, scanAll, hs]
        exact h1
      · rw [hfc]; exact h2
      · intro err
        rw [h3, hfc]
        have hsc : ∀ x name, ((name, fail x) ∈ scansOf disk (e :: entries)) ↔
            (name = e.filename ∧ x = y) ∨ (name, fail x) ∈ scansOf disk entries := by
          intro x name
          simp [scansOf, hs, fail]
        constructor
        · rintro (h | h | ⟨x, name, hx, he⟩)
          · rcases List.mem_append.1 h with h | h
            · exact .inl h
            · exact .inr (.inr ⟨y, e.filename, (hsc _ _).2 (.inl ⟨rfl, rfl⟩), by simpa using h⟩)
          · exact .inr (.inl h)
          · exact .inr (.inr ⟨x, name, (hsc _ _).2 (.inr hx), he⟩)
        · rintro (h | h | ⟨x, name, hx, he⟩)
          · exact .inl (by simp [h])
          · exact .inr (.inl h)
          · rcases (hsc _ _).1 hx with ⟨rfl, rfl⟩ | hx
            · exact .inl (by simp [he])
            · exact .inr (.inr ⟨x, name, hx, he⟩)

theorem lookupOwner_const {ls : List Location} {o : Petscii} :
    lookupOwner (ls.map fun l => (l, o)) l = if l ∈ ls then some o else none := by
  induction ls with
  | nil => rfl
  | cons x xs ih =>
    show (if x = l then some o else lookupOwner (xs.map fun l => (l, o)) l) = _
    rw [ih]
    by_cases h : x = l
    · simp [h]
    · simp [h, Ne.symm h]

theorem owner_eq_none {cs : List (Petscii × List Location)} :
    owner cs l = none ↔ ∀ c ∈ cs, l ∉ c.2 := by
  unfold owner
  rw [Option.map_eq_none_iff, List.find?_eq_none]
  simp

theorem owner_single {n : Petscii} {ls : List Location} :
    owner [(n, ls)] l = if l ∈ ls then some n else none := by
  unfold owner
  rw [List.find?_cons, List.find?_nil]
  by_cases h : l ∈ ls
  · simp [h]
  · simp [h]

/-- What `validate` reports, for every image and every BAM. -/
theorem validate_spec {ref : Nat} {header : Header} {dir : List Location} {g : Bool}
    {entries : List DirectoryEntry}
    (hf : disk.format = some { ty.format with geos := g })
    (href : disk.bam = some ref) (hcell : disk.cells[ref]? = some b) (hb : BamOf b ty)
    (hh : disk.header = some header)
    (hdir : chainLocations disk.dev (firstDirectory ty) = .ok dir)
    (hitems : disk.items = entries.map .ok)
    (hscan : ∀ e ∈ entries, ∀ x, scanFile disk e = .error x → ∃ y, x = .err y) :
    ∃ errs, disk.validate = .ok errs ∧ ∀ err, err ∈ errs ↔
      Violation b ty (claims disk ty dir (header.geos.map GEOSDiskHeader.border) entries)
        (scansOf disk entries) err := by
  obtain ⟨free, alloc, hfree, halloc, hnd, hmem, hfm⟩ := C39_bam_partition hb
  obtain ⟨sys, hsys, hsm⟩ := systemLocations_exact ty g
  have ham : ∀ l, l ∈ alloc ↔ ValidLoc ty (bamTracks ty) l ∧ isFree b l = false := by
    intro l
    have h1 := hmem l
    have h2 := hfm l
    rw [List.mem_append] at h1
    constructor
    · intro h
      have hv := h1.1 (.inr h)
      refine ⟨hv, ?_⟩
      rw [← Bool.not_eq_true]
      intro hfr
      exact (List.nodup_append.1 hnd).2.2 l (h2.2 ⟨hv, hfr⟩) l h rfl
    · rintro ⟨hv, hfr⟩
      rcases h1.2 hv with h | h
      · rw [(h2.1 h).2] at hfr
        cases hfr
      · exact h
  let border := (header.geos.map GEOSDiskHeader.border).toList
  have hm0 : ∀ l, lookupOwner ((sys ++ (dir ++ border)).map fun l => (l, SYSTEM_OWNER)) l =
      owner [(systemName, ownSectors ty ++ dir ++ border)] l := by
    intro l
    rw [show SYSTEM_OWNER = systemName by decide, lookupOwner_const, owner_single]
    simp only [List.mem_append, hsm, or_assoc]
  obtain ⟨m', errs', hs1, hs2, hs3⟩ := scanAll_spec entries
    [(systemName, ownSectors ty ++ dir ++ border)] _ [] hm0 hscan
  have hcl : [(systemName, ownSectors ty ++ dir ++ border)] ++ fileClaims disk entries =
      claims disk ty dir (header.geos.map GEOSDiskHeader.border) entries := rfl
  obtain ⟨unocc, hun, hum⟩ := invertLocations_exact ty g (m'.map Prod.fst)
  have hocc : ∀ l, l ∈ m'.map Prod.fst ↔
      owner (claims disk ty dir (header.geos.map GEOSDiskHeader.border) entries) l ≠ none := by
    intro l
    rw [← hcl, ← hs2, Ne, lookupOwner_none, Classical.not_not]
  have hidx : indexRes disk.cells ref = .ok b := by
    unfold indexRes
    rw [hcell]
  have hfd : ({ ty.format with geos := g } : DiskFormat).firstDirectoryLocation =
      firstDirectory ty := by cases ty <;> rfl
  refine ⟨errs' ++ (sys.filter fun l => !alloc.contains l).map
      ValidationError.systemSectorNotAllocated ++
      (alloc.filter fun l => unocc.contains l).map ValidationError.sectorMisallocated ++
      (free.filter fun l => (m'.map Prod.fst).contains l && !sys.contains l).map
        fun l => .sectorMisoccupied l ((lookupOwner m' l).getD []), ?_, ?_⟩
  · unfold Disk.validate Disk.diskFormat Disk.bamRef Disk.getHeader
    simp only [hf, href, hh, res_bind_ok, hidx, hsys, halloc, hfree, hfd, hdir, hitems]
    rw [show (header.geos.map GEOSDiskHeader.border).toList = border from rfl, hs1, res_bind_ok]
    simp only []
    rw [hun, res_bind_ok]
    rfl
  · intro err
    rw [List.mem_append, List.mem_append, List.mem_append, hs3]
    simp only [List.mem_map, List.mem_filter]
    constructor
    · rintro ((((h | (h | h)) | ⟨l, ⟨h1, h2⟩, rfl⟩) | ⟨l, ⟨h1, h2⟩, rfl⟩) | ⟨l, ⟨h1, h2⟩, rfl⟩)
      · cases h
      · obtain ⟨pre, name, ls, post, l, o, he, hl, ho, rfl⟩ := h
        refine .over (pre := [(systemName, ownSectors ty ++ dir ++ border)] ++ pre)
          (post := post) (ls := ls) ?_ hl ho
        rw [← hcl, he]
        exact (List.append_assoc _ _ _).symm
      · obtain ⟨x, name, hx, rfl⟩ := h
        exact .scan hx
      · obtain ⟨hv, ho⟩ := mem_ownSectors.1 ((hsm l).1 h1)
        refine .system hv ho ?_
        have hna : l ∉ alloc := by simpa using h2
        rw [← Bool.not_eq_false]
        exact fun hc => hna ((ham l).2 ⟨hv, hc⟩)
      · obtain ⟨hv, hfr⟩ := (ham l).1 h1
        have hu : l ∈ unocc := by simpa using h2
        refine .misallocated hv hfr ?_
        exact Classical.not_not.1 fun hc => ((hum l).1 hu).2 ((hocc l).2 hc)
      · obtain ⟨hv, hfr⟩ := (hfm l).1 h1
        rw [Bool.and_eq_true] at h2
        have ho : l ∈ m'.map Prod.fst := by simpa using h2.1
        have hns : l ∉ sys := by simpa using h2.2
        have hown := (hocc l).1 ho
        rw [hs2, hcl]
        obtain ⟨o, hoo⟩ := Option.ne_none_iff_exists'.1 hown
        rw [hoo]
        refine .misoccupied hv hfr ?_ hoo
        rw [← Bool.not_eq_true]
        exact fun hc => hns ((hsm l).2 (mem_ownSectors.2 ⟨hv, hc⟩))
    · intro hv
      cases hv with
      | scan h => exact .inl (.inl (.inl (.inr (.inr ⟨_, _, h, rfl⟩))))
      | @over pre post name first ls l he hl ho =>
        refine .inl (.inl (.inl (.inr (.inl ?_))))
        rw [← hcl] at he
        cases pre with
        | nil => exact absurd ho (by simp [owner])
        | cons p pre =>
          simp only [List.cons_append, List.nil_append, List.cons.injEq] at he
          obtain ⟨rfl, he⟩ := he
          exact ⟨pre, name, ls, post, l, first, he, hl, ho, rfl⟩
      | @system l hv ho hfr =>
        refine .inl (.inl (.inr ⟨l, ⟨(hsm l).2 (mem_ownSectors.2 ⟨hv, ho⟩), ?_⟩, rfl⟩))
        have : l ∉ alloc := fun h => by
          have := ((ham l).1 h).2
          rw [hfr] at this
          cases this
        simpa using this
      | @misallocated l hv hfr ho =>
        refine .inl (.inr ⟨l, ⟨(ham l).2 ⟨hv, hfr⟩, ?_⟩, rfl⟩)
        have : l ∈ unocc := (hum l).2 ⟨hv, fun h => (hocc l).1 h ho⟩
        simpa using this
      | @misoccupied l name hv hfr hns ho =>
        refine .inr ⟨l, ⟨(hfm l).2 ⟨hv, hfr⟩, ?_⟩, ?_⟩
        · rw [Bool.and_eq_true]
          have h1 : l ∈ m'.map Prod.fst := (hocc l).2 (by rw [ho]; simp)
          have h2 : l ∉ sys := fun h => by
            rw [(mem_ownSectors.1 ((hsm l).1 h)).2] at hns
            cases hns
          exact ⟨by simpa using h1, by simpa using h2⟩
        · rw [hs2, hcl, ho]
          rfl

end Cbm
