import Verif.Lemmas.Validate
import Verif.Lemmas.Rep
/-!
# A disk in use validates clean
-/

namespace Cbm
open Spec

variable {s : Shape} {v : Volume} {r : Nat} {b : Bam} {disk : Disk} {f : FileRec} {l : Location}

theorem files_range : v.files = (List.range v.slots.length).filterMap fun i => (v.slots[i]?).join := by
  have h : v.slots = (List.range v.slots.length).map fun i => (v.slots[i]?).join := by
    apply List.ext_getElem
    · simp
    · intro i h1 h2
      simp [List.getElem?_eq_getElem h1]
  conv => lhs; rw [Volume.files, h]
  rw [List.filterMap_map]
  rfl

theorem ownSector_track {ty : DiskType} (h : ownSector ty l = true) :
    systemTrack ty l.track.toNat = true := by
  unfold ownSector at h
  rw [Bool.or_eq_true] at h
  rcases h with h | h
  · cases ty
    · simp only [systemSector, beq_iff_eq] at h
      subst h; rfl
    · simp only [systemSector, Bool.or_eq_true, beq_iff_eq] at h
      rcases h with h | h
      · subst h; rfl
      · rw [h]; rfl
    · simp only [systemSector, Bool.and_eq_true, beq_iff_eq] at h
      rw [h.1]; rfl
  · rw [beq_iff_eq] at h
    subst h
    cases ty <;> rfl

theorem chain_head {d : Device} (hc : IsChain d s f.locs f.data) : f.locs.head? = some f.first := by
  obtain ⟨init, t, h, _⟩ := hc.last
  unfold FileRec.first
  cases hl : f.locs with
  | nil => rw [hl] at h; simp at h
  | cons x xs => rfl

theorem openEntry_ready (h : ReadyAt disk s v r b) (p : Position) :
    disk.openFileFromEntry (f.entry p) = .ok (.linear (f.entry p), r) := by
  unfold Disk.openFileFromEntry Disk.bamRef
  rw [h.bam]
  rfl

theorem scan_entry (h : ReadyAt disk s v r b) (hf : f ∈ v.files) (p : Position) :
    scanFile disk (f.entry p) = .ok (dedupLocs (sortLocs f.locs)) := by
  have hc := h.onDisk.chains f hf
  unfold scanFile
  rw [openEntry_ready h, res_bind_ok]
  simp only [File.occupiedSectors]
  rw [show (f.entry p).firstSector = f.first from rfl,
    chainLocations_chain h.onDisk.wf hc (chain_head hc)]
  rfl

theorem fileClaims_ready (h : ReadyAt disk s v r b) : fileClaims disk v.listing =
    v.files.map fun f => (f.name, dedupLocs (sortLocs f.locs)) := by
  rw [files_range, List.map_filterMap]
  unfold fileClaims Volume.listing
  rw [List.filterMap_filterMap]
  apply filterMap_congr_left
  intro i hi
  rw [List.mem_range] at hi
  rw [List.getElem?_eq_getElem hi]
  cases hx : v.slots[i] with
  | none => rfl
  | some f =>
    have hf : f ∈ v.files := List.mem_filterMap.2 ⟨some f, hx ▸ List.getElem_mem hi, rfl⟩
    simp only [Option.bind_some, Option.join_some, Option.map_some]
    rw [scan_entry h hf]
    rfl

theorem dir_ready (h : ReadyAt disk s v r b) :
    chainLocations disk.dev (firstDirectory s.type) = .ok v.dir := by
  obtain ⟨content, hc⟩ := h.onDisk.dirChain
  exact chainLocations_chain h.onDisk.wf hc h.onDisk.dirFirst

theorem validate_ready (h : ReadyAt disk s v r b) : disk.validate = .ok [] := by
  have hb := h.mounted.recorded.consistent.toBamOf
  have hd := h.onDisk
  have hg : s.type.format = { s.type.format with geos := false } := by cases s.type <;> rfl
  obtain ⟨errs, he, hm⟩ := validate_spec (ty := s.type) (g := false) (by rw [h.format, ← hg])
    h.bam h.cell hb h.header (dir_ready h) (items_ready h) (by
      intro e hev x hx
      obtain ⟨i, f, hi, rfl⟩ := mem_listing.1 hev
      have hf : f ∈ v.files := List.mem_filterMap.2 ⟨some f, List.mem_of_getElem? hi, rfl⟩
      rw [scan_entry h hf] at hx
      cases hx)
  have hfd : firstDirectory s.type ∈ v.dir := List.mem_of_mem_head? hd.dirFirst
  have hcl : claims disk s.type v.dir (v.header.geos.map GEOSDiskHeader.border) v.listing =
      (systemName, ownSectors s.type ++ v.dir) ::
        v.files.map fun f => (f.name, dedupLocs (sortLocs f.locs)) := by
    rw [← fileClaims_ready h, h.noGeos]
    simp [claims, fileClaims]
    rfl
  rw [hcl] at hm
  have hsys : ∀ l, l ∈ ownSectors s.type ++ v.dir → systemTrack s.type l.track.toNat = true := by
    intro l hl
    rcases List.mem_append.1 hl with hl | hl
    · exact ownSector_track (mem_ownSectors.1 hl).2
    · rw [(hd.dirTrack l hl).1]
      cases s.type <;> rfl
  have howned : ∀ l, (∃ c ∈ (systemName, ownSectors s.type ++ v.dir) ::
        v.files.map fun f => (f.name, dedupLocs (sortLocs f.locs)), l ∈ c.2) ↔
      l ∈ ownSectors s.type ++ v.dir ∨ l ∈ v.used := by
    intro l
    constructor
    · rintro ⟨c, hc, hl⟩
      rcases List.mem_cons.1 hc with rfl | hc
      · exact .inl hl
      · obtain ⟨f, hf, rfl⟩ := List.mem_map.1 hc
        exact .inr (List.mem_flatMap.2 ⟨f, hf, mem_sorted.1 hl⟩)
    · rintro (hl | hl)
      · exact ⟨_, List.mem_cons_self, hl⟩
      · obtain ⟨f, hf, hl⟩ := List.mem_flatMap.1 hl
        exact ⟨_, List.mem_cons_of_mem _ (List.mem_map.2 ⟨f, hf, rfl⟩), mem_sorted.2 hl⟩
  have hocc : ∀ l, ValidLoc s.type (bamTracks s.type) l →
      ((l ∈ ownSectors s.type ++ v.dir ∨ l ∈ v.used) ↔ v.Occupies s.type l) := by
    intro l hv
    unfold Volume.Occupies
    rw [List.mem_append, mem_ownSectors]
    unfold ownSector
    rw [Bool.or_eq_true, beq_iff_eq]
    constructor
    · rintro ((⟨_, h | rfl⟩ | h) | h)
      · exact .inl h
      · exact .inr (.inl hfd)
      · exact .inr (.inl h)
      · exact .inr (.inr h)
    · rintro (h | h | h)
      · exact .inl (.inl ⟨hv, .inl h⟩)
      · exact .inl (.inr h)
      · exact .inr h
  rw [he]
  cases errs with
  | nil => rfl
  | cons err errs =>
    exfalso
    have hv := (hm err).1 (by simp)
    cases hv with
    | scan hx =>
      obtain ⟨e, hev, hx⟩ := List.mem_map.1 hx
      obtain ⟨i, f, hi, rfl⟩ := mem_listing.1 hev
      have hf : f ∈ v.files := List.mem_filterMap.2 ⟨some f, List.mem_of_getElem? hi, rfl⟩
      rw [scan_entry h hf] at hx
      cases hx
    | @over pre post name first ls l hsplit hl ho =>
      have hpre : ∃ c ∈ pre, l ∈ c.2 := by
        apply Classical.byContradiction
        intro hno
        rw [owner_eq_none.2 fun c hc hlc => hno ⟨c, hc, hlc⟩] at ho
        cases ho
      obtain ⟨c, hc, hlc⟩ := hpre
      cases pre with
      | nil => cases hc
      | cons p pre =>
        simp only [List.cons_append, List.cons.injEq] at hsplit
        obtain ⟨rfl, hsplit⟩ := hsplit
        have hnl : ∃ f ∈ v.files, ls = dedupLocs (sortLocs f.locs) := by
          have : (name, ls) ∈ v.files.map fun f => (f.name, dedupLocs (sortLocs f.locs)) := by
            rw [hsplit]; simp
          obtain ⟨f, hf, hfe⟩ := List.mem_map.1 this
          exact ⟨f, hf, (Prod.mk.inj hfe).2.symm⟩
        obtain ⟨f, hf, rfl⟩ := hnl
        have hlu : l ∈ v.used := List.mem_flatMap.2 ⟨f, hf, mem_sorted.1 hl⟩
        rcases List.mem_cons.1 hc with rfl | hc
        · have h1 := hsys l hlc
          rw [(hd.dataLocs l hlu).2] at h1
          cases h1
        · have hnd := hd.apart
          unfold Volume.used at hnd
          rw [List.Nodup, List.pairwise_flatMap] at hnd
          have hpw : (v.files.map fun f => (f.name, dedupLocs (sortLocs f.locs))).Pairwise
              fun c c' => ∀ l ∈ c.2, l ∉ c'.2 := by
            rw [List.pairwise_map]
            refine hnd.2.imp ?_
            intro f g hfg l hl hl'
            exact hfg l (mem_sorted.1 hl) l (mem_sorted.1 hl') rfl
          rw [hsplit, List.pairwise_append] at hpw
          exact hpw.2.2 c hc _ List.mem_cons_self l hlc hl
    | @system l hv ho hfr =>
      have := (h.mounted.recorded.exact l hv).2 ((hocc l hv).1
        (.inl (List.mem_append.2 (.inl (mem_ownSectors.2 ⟨hv, ho⟩)))))
      rw [hfr] at this
      cases this
    | @misallocated l hv hfr ho =>
      have h1 := (hocc l hv).2 ((h.mounted.recorded.exact l hv).1 hfr)
      obtain ⟨c, hc, hlc⟩ := (howned l).2 h1
      exact owner_eq_none.1 ho c hc hlc
    | @misoccupied l name hv hfr hns ho =>
      have h1 : ∃ c ∈ (systemName, ownSectors s.type ++ v.dir) ::
          v.files.map fun f => (f.name, dedupLocs (sortLocs f.locs)), l ∈ c.2 := by
        apply Classical.byContradiction
        intro hno
        rw [owner_eq_none.2 fun c hc hlc => hno ⟨c, hc, hlc⟩] at ho
        cases ho
      have := (h.mounted.recorded.exact l hv).2 ((hocc l hv).1 ((howned l).1 h1))
      rw [hfr] at this
      cases this

end Cbm
