import Verif.Props.Safe
import Verif.Props.Report
import Verif.Props.Dump
import Verif.Props.Info
import Verif.Lemmas.Append
import Verif.Spec.Tool
/-!
# Commands on any file
-/

namespace Cbm
open Spec

variable {X : Prop} {s : Shape} {disk : Disk} {d : Device} {e : DirectoryEntry} {f : File} {α β σ : Type}
  {ext : Option (List Char)} {bytes : List Byte} {w : Bool}

/-- An action that never panics and never loops. -/
def Fine (X : Prop) (m : M σ α) : Prop := Safe X (fun _ => True) m (fun _ _ => True) (fun _ => True)

namespace Fine

theorem mk {m : M σ α} (h : ∀ x, SafeRes X (m x).1) : Fine X m := by
  intro x _
  cases hr : (m x).1 with
  | ok a => exact .inl ⟨a, rfl, trivial⟩
  | error q =>
    have := h x
    rw [hr] at this
    exact .inr ⟨q, rfl, trivial, this.error⟩

theorem res {m : M σ α} (h : Fine X m) (x : σ) : SafeRes X (m x).1 := Safe.res h trivial

theorem print (t : List Char) : Fine X (Cbm.print t) := mk fun _ => .inr (returns_ok _)

theorem println (t : List Char) : Fine X (Cbm.println t) := mk fun _ => .inr (returns_ok _)

theorem pure (a : α) : Fine X (Pure.pure a : M σ α) := mk fun _ => .inr (returns_ok _)

theorem bind {m : M σ α} {k : α → M σ β} (h : Fine X m) (hk : ∀ a, Fine X (k a)) : Fine X (m >>= k) :=
  Safe.bind h hk

theorem lift {r : Res α} {k : α → M σ β} (h : SafeRes X r) (hk : ∀ a, r = .ok a → Fine X (k a)) :
    Fine X (M.lift r >>= k) := by
  refine mk fun x => ?_
  cases hr : r with
  | ok a =>
    rw [M.bind_of_ok (s' := x) (a := a) (by rw [M.run_lift])]
    exact (hk a hr).res x
  | error q =>
    rw [M.bind_of_error (s' := x) (e := q) (by rw [M.run_lift])]
    rw [hr] at h
    rcases h with h | h
    · exact .inl h
    · exact .inr h.error

theorem forEach {xs : List β} {f : β → M σ Unit} (h : ∀ b ∈ xs, Fine X (f b)) : Fine X (M.forEach xs f) :=
  Safe.forEach (P := fun _ => True) h

end Fine

/-! ## Opening the file -/

theorem openPath_returns (ext : Option (List Char)) (w : Bool) (bytes : List Byte) :
    Returns (Disk.openPath ext w bytes) := by
  unfold Disk.openPath
  simp only
  split
  · exact (C78_opened _ _).1
  · exact (C78_opened .d64 _).2.bind fun _ _ => returns_ok _

theorem openPath_steady (ho : Disk.openPath ext w bytes = .ok disk) : ∃ s, Steady s ⟨disk, [], []⟩ := by
  obtain ⟨ty, -, -, hn⟩ := openPath_inv ho
  obtain ⟨s, -, h⟩ := steady_new hn
  exact ⟨s, h⟩

theorem showing_safe {body : Disk → M (List Char) α}
    (h : ∀ disk s, Disk.openPath ext w bytes = .ok disk → Steady s ⟨disk, [], []⟩ → Fine X (body disk)) :
    SafeRes X (showing ext w body bytes).1 := by
  unfold showing
  cases ho : Disk.openPath ext w bytes with
  | error q =>
    have := openPath_returns ext w bytes
    rw [ho] at this
    exact .inr this.error
  | ok disk =>
    obtain ⟨s, hs⟩ := openPath_steady ho
    exact (h disk s ho hs).res []

theorem inSession_safe {body : M Session α}
    (h : ∀ disk s, Disk.openPath ext w bytes = .ok disk → Steady s ⟨disk, [], []⟩ →
      SafeRes X (body ⟨disk, [], []⟩).1) : SafeRes X (inSession ext w body bytes).1 := by
  unfold inSession
  cases ho : Disk.openPath ext w bytes with
  | error q =>
    have := openPath_returns ext w bytes
    rw [ho] at this
    exact .inr this.error
  | ok disk =>
    obtain ⟨s, hs⟩ := openPath_steady ho
    exact h disk s ho hs

theorem SafeRes.map {r : Res α} (h : SafeRes X r) (g : α → β) : SafeRes X (r.map g) := by
  cases r with
  | ok a => exact .inr (returns_ok _)
  | error q =>
    rcases h with h | h
    · exact .inl h
    · exact .inr h.error

/-! ## Printing -/

theorem printPosition_fine (e : DirectoryEntry) (v : Nat) : Fine X (printPosition e v) := by
  unfold printPosition
  split
  · split
    · exact .println _
    · exact .pure _
  · exact .pure _

theorem printRecords_fine (hw : Wf d s) (available total : Nat) : ∀ (rs : List (Option Location)) (i : Nat),
    Fine X (printRecords d available total i rs)
  | [], i => .pure _
  | r :: rs, i => by
    unfold printRecords
    split
    · exact .println _
    · refine .lift (.inr ?_) fun _ _ => .bind (.println _) fun _ => printRecords_fine hw available total rs _
      cases r with
      | none => exact returns_ok _
      | some l => exact returns_locations hw l

theorem printPlaces_fine (hw : Wf d s) (f : GEOSFile) (v : Nat) : Fine X (f.printPlaces d v) := by
  unfold GEOSFile.printPlaces
  split
  · simp only
    split
    · exact .bind (.println _) fun _ => printRecords_fine hw _ _ _ _
    · exact .println _
  · split
    · exact .lift (.inr (returns_locations hw _)) fun _ _ => .println _
    · exact .pure _

theorem info_block {f : GEOSFile} {i : GEOSInfo} (hw : Wf d s) (h : f.info d = .ok (some i)) :
    Returns i.text := by
  unfold GEOSFile.info at h
  obtain ⟨o, -, h⟩ := res_bind_eq_ok.1 h
  cases o with
  | none => cases h
  | some l =>
    simp only at h
    obtain ⟨block, hb, h⟩ := res_bind_eq_ok.1 h
    obtain ⟨i', hi, h⟩ := res_bind_eq_ok.1 h
    cases h
    have hl : block.length = 256 := by
      by_cases hv : s.Valid l
      · rw [hw.sector hv] at hb
        cases hb
        exact hw.blk_length hv
      · rw [hw.sector_invalid hv] at hb; cases hb
    obtain ⟨i, t, h1, h2, -⟩ := C72_text block hl
    rw [h1] at hi
    cases hi
    rw [h2]
    exact returns_ok _

theorem geosDetails_fine (hw : Wf d s) {f : GEOSFile} (hi : Returns (f.info d)) (v : Nat) :
    Fine X (f.details d v) := by
  unfold GEOSFile.details
  refine .bind (printPosition_fine _ _) fun _ => .bind (printPlaces_fine hw _ _) fun _ => .lift (.inr hi) fun o ho => ?_
  cases o with
  | none => exact .pure _
  | some i => exact .bind (.println _) fun _ => .lift (.inr (info_block hw ho)) fun _ _ => .print _

theorem details_fine {name : Petscii} {ref : Nat} (h : Standing disk s) (ho : disk.openFile name = .ok (f, ref)) (v : Nat) :
    Fine X (f.details disk.dev v) := by
  have hg := fun g hg => (C78_reading_geos (g := g) h ho hg h.wf).1
  unfold File.details
  cases f with
  | linear e =>
    simp only
    refine .bind (printPosition_fine _ _) fun _ => ?_
    split
    · exact .lift (.inr (returns_locations h.wf _)) fun _ _ => .println _
    · exact .pure _
  | relative r =>
    simp only
    refine .bind (printPosition_fine _ _) fun _ => ?_
    split
    · exact .bind (.println _) fun _ => .println _
    · exact .pure _
  | geosSequential g => exact geosDetails_fine h.wf (hg g (.inl rfl)) v
  | geosVLIR g => exact geosDetails_fine h.wf (hg g (.inr rfl)) v

theorem openFile_safe (h : Standing disk s) (name : Petscii)
    (hb : ∀ e, disk.findDirectoryEntry name = .ok e → BadRelative disk.dev s e → X) :
    SafeRes X (disk.openFile name) := by
  obtain ⟨h1, h2⟩ := C78_opening h name
  by_cases hp : disk.openFile name = .error .panic
  · obtain ⟨-, e, h3, h4⟩ := h2.1 hp
    exact .inl (hb e h3 h4)
  · exact .inr ⟨hp, h1⟩

theorem listing_fine (h : Standing disk s) (v : Nat)
    (hX : 2 ≤ v → ∀ e, .ok e ∈ disk.items → BadRelative disk.dev s e → X) :
    Fine X (printListing v disk) := by
  unfold printListing
  refine .bind (.println _) fun _ => .bind (.forEach fun item hi => ?_) fun _ => ?_
  · unfold printEntry
    refine .lift (.inr (returns_items h.wf item hi)) fun e _ => ?_
    split
    · refine .bind (.println _) fun _ => ?_
      split
      · refine .lift (openFile_safe h _ fun e' he' hb => hX (by omega) e' (mem_of_find he').1 hb) fun p hp => ?_
        obtain ⟨f, ref⟩ := p
        exact .bind (details_fine h hp _) fun _ => .println _
      · exact .pure _
    · exact .println _
  · exact .lift (.inr (C78_looking h).2.1) fun _ _ => .println _

theorem fileDump_fine {name : Petscii} {ref : Nat} (h : Standing disk s) (ho : disk.openFile name = .ok (f, ref)) :
    Fine X (f.dump disk.dev) := by
  unfold File.dump
  exact .bind (.println _) fun _ => .forEach fun i _ => .bind (.println _) fun _ =>
    .lift (.inr ((C78_reading h ho h.wf).1 i)) fun _ _ => .println _

/-! ## Editing the BAM -/

theorem foldRes_ok {f : α → β → Res α} : ∀ {xs : List β} {a : α}, (∀ b ∈ xs, ∀ a, ∃ a', f a b = .ok a') →
    ∃ a', foldRes f xs a = .ok a'
  | [], a, _ => ⟨a, rfl⟩
  | x :: xs, a, h => by
    obtain ⟨a1, h1⟩ := h x (by simp) a
    obtain ⟨a2, h2⟩ := foldRes_ok (a := a1) fun b hb => h b (List.mem_cons_of_mem _ hb)
    exact ⟨a2, by unfold foldRes; rw [h1]; exact h2⟩

theorem sectors_in (ty : DiskType) : ∀ t, 1 ≤ t → t ≤ bamTracks ty →
    ∃ n, ty.format.sectorsInTrack t = .ok n ∧ 1 ≤ n ∧ n ≤ 64 := by
  have h : ∀ t < bamTracks ty, (ty.format.sectorsInTrack (t + 1)).toOption.any (fun n => 1 ≤ n && n ≤ 64) = true := by
    cases ty <;> decide +kernel
  intro t h1 h2
  have := h (t - 1) (by omega)
  rw [show t - 1 + 1 = t by omega] at this
  cases hr : ty.format.sectorsInTrack t with
  | error q => rw [hr] at this; cases this
  | ok n =>
    rw [hr] at this
    have : (decide (1 ≤ n) && decide (n ≤ 64)) = true := this
    simp only [Bool.and_eq_true, decide_eq_true_eq] at this
    exact ⟨n, rfl, this⟩

theorem editTrack_safe {geos : Bool} {sector : Option Nat} {allocate : Bool} {t : Nat} {b : Bam}
    (hb : BamSize b s.type) (ht : 1 ≤ t ∧ (¬ X → t ≤ bamTracks s.type)) (hn : ∀ n, sector = some n → n < 64) :
    SafeRes X (editTrack { s.type.format with geos := geos } sector allocate t b) := by
  by_cases hX : X
  · exact .inl hX
  have h2 := ht.2 hX
  unfold editTrack
  rcases hb.live with hl | hl
  · right
    have hlt : t - 1 < b.entries.length := by rw [hb.length]; omega
    have hstep : ∀ n < 64, ∀ e : BamEntry, ∃ e', (if allocate then e.allocate n else e.free n) = .ok e' := by
      intro n hn e
      cases allocate with
      | true => exact ⟨_, by rw [if_pos rfl]; unfold BamEntry.allocate; rw [if_pos hn]⟩
      | false => exact ⟨_, by rw [if_neg (by simp)]; unfold BamEntry.free; rw [if_pos hn]⟩
    have hfold : ∀ (ns : List Nat), (∀ n ∈ ns, n < 64) → ∃ e',
        foldRes (fun (e : BamEntry) n => if allocate then e.allocate n else e.free n) ns b.entries[t - 1] = .ok e' :=
      fun ns h => foldRes_ok fun m hm a => hstep m (h m hm) a
    cases sector with
    | some n =>
      obtain ⟨e', he'⟩ := hfold [n] fun m hm => by rw [List.mem_singleton.1 hm]; exact hn n rfl
      rw [modifyEntry_ok hl ht.1 h2 (List.getElem?_eq_getElem hlt) (e' := e') (by exact he')]
      exact returns_ok _
    | none =>
      obtain ⟨n, h1, h3, h4⟩ := sectors_in s.type t ht.1 h2
      have h1 : ({ s.type.format with geos := geos } : DiskFormat).sectorsInTrack t = .ok n := h1
      have hs : subU n 1 = .ok (n - 1) := by unfold subU; rw [if_pos h3]
      obtain ⟨e', he'⟩ := hfold (List.range (n - 1 + 1)) fun m hm => by have := List.mem_range.1 hm; omega
      rw [modifyEntry_ok hl ht.1 h2 (List.getElem?_eq_getElem hlt) (e' := e') (by
        simp only [h1, hs, res_bind_ok]
        exact he')]
      exact returns_ok _
  · rw [modify_invalid hl]
    exact .inr (returns_fail _)

theorem safe_editTrack {geos : Bool} {sector : Option Nat} {allocate : Bool} {t : Nat}
    (ht : 1 ≤ t ∧ (¬ X → t ≤ bamTracks s.type)) (hn : ∀ n, sector = some n → n < 64) :
    Safe X (Sound s) (St.updBam (editTrack { s.type.format with geos := geos } sector allocate t))
      (fun _ => Sound s) (Sound s) := by
  intro st h
  have hr := editTrack_safe (X := X) (geos := geos) (allocate := allocate) h.bam ht hn
  cases he : editTrack { s.type.format with geos := geos } sector allocate t st.bam with
  | ok b' =>
    rw [updBam_ok he]
    refine .inl ⟨(), rfl, h.wf, ?_⟩
    unfold editTrack at he
    exact modifyEntry_size he h.bam
  | error q =>
    rw [he] at hr
    have : St.updBam (editTrack { s.type.format with geos := geos } sector allocate t) st = (.error q, st) := by
      unfold St.updBam
      exact M.update_error (by simp only [he]; rfl)
    rw [this]
    exact .inr ⟨q, rfl, h, hr.error⟩

theorem bamEdit_safe {x : Session} {track sector : Option Nat} {allocate : Bool} (h : Steady s x)
    (ht : ∀ t, track = some t → 1 ≤ t ∧ (¬ X → t ≤ bamTracks s.type)) (hn : ∀ n, sector = some n → n < 64) :
    SafeRes X (bamEdit track sector allocate x.disk).1 := by
  unfold bamEdit
  cases hf : x.disk.format with
  | none =>
    rw [M.bind_of_error (s' := x.disk) (e := .err .unformatted) (by
      rw [M.run_read]; unfold Disk.diskFormat; rw [hf])]
    exact .inr (returns_fail _)
  | some fm =>
    obtain ⟨geos, rfl⟩ := h.standing.format fm hf
    rw [M.bind_of_ok (s' := x.disk) (a := { s.type.format with geos := geos }) (by
      rw [M.run_read]; unfold Disk.diskFormat; rw [hf])]
    cases hr : x.disk.bamRef with
    | error q =>
      rw [M.bind_of_error (s' := x.disk) (e := q) (by rw [M.run_read, hr])]
      have := returns_bamRef (disk := x.disk)
      rw [hr] at this
      exact .inr this.error
    | ok r =>
      rw [M.bind_of_ok (s' := x.disk) (a := r) (by rw [M.run_read, hr])]
      obtain ⟨b, hb, hs⟩ := h.cell (h.ref hr)
      rw [withBam_res hb]
      refine Safe.res (P := Sound s) (Q := fun _ => Sound s) (E := Sound s) ?_ hs
      refine (Safe.forEach (P := Sound s) fun t hmem => safe_editTrack ?_ hn).bind fun _ => safe_flushBam
      cases track with
      | some t' =>
        rw [List.mem_singleton.1 (show t ∈ [t'] from hmem)]
        exact ht t' rfl
      | none =>
        obtain ⟨i, hi, rfl⟩ := List.mem_map.1 (show t ∈ (List.range 35).map (· + 1) from hmem)
        have := List.mem_range.1 hi
        have : 35 ≤ bamTracks s.type := by cases s.type <;> decide
        exact ⟨by omega, fun _ => by omega⟩

end Cbm
