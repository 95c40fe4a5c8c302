import Verif.Model.Cdisk
import Verif.Spec.Cdisk
import Verif.Lemmas.Alloc
import Verif.Lemmas.DiskOps
/-!
# Editing the BAM
-/

namespace Cbm
open Spec

variable {b b' : Bam} {ty : DiskType} {d : Device} {s : Shape} {disk : Disk}

/-- The update of one entry. -/
def editOp (allocate : Bool) (e : BamEntry) (n : Nat) : Res BamEntry :=
  if allocate then e.allocate n else e.free n

theorem editOp_ok (allocate : Bool) (e : BamEntry) {n : Nat} (hn : n < 64) :
    ∃ e', editOp allocate e n = .ok e' := by
  unfold editOp BamEntry.allocate BamEntry.free
  cases allocate <;> simp [hn]

theorem editOp_loc (allocate : Bool) {t n : Nat} (ht : t < 256) (hn : n < 64) (b : Bam) :
    b.modifyEntry t (fun e => editOp allocate e n) =
      if allocate then b.allocate ⟨UInt8.ofNat t, UInt8.ofNat n⟩
      else b.free ⟨UInt8.ofNat t, UInt8.ofNat n⟩ := by
  unfold Bam.allocate Bam.free editOp
  simp only [UInt8.toNat_ofNat', Nat.mod_eq_of_lt ht, Nat.mod_eq_of_lt (show n < 2 ^ 8 by omega)]
  cases allocate <;> rfl

/-- Several updates of one entry. -/
theorem modify_fold {t : Nat} (h1 : 1 ≤ t) (h2 : t ≤ bamTracks ty)
    (allocate : Bool) : ∀ (ns : List Nat), (∀ n ∈ ns, n < 64) → ∀ {b : Bam}, BamOf b ty →
    b.modifyEntry t (foldRes (editOp allocate) ns) =
      foldRes (fun b n => b.modifyEntry t fun e => editOp allocate e n) ns b
  | [], _, b, hb => by
    obtain ⟨e, he, -⟩ := hb.entry_ok h1 h2
    rw [modifyEntry_ok hb h1 h2 he (f := foldRes (editOp allocate) []) (e' := e) rfl]
    have hl := List.getElem?_eq_some_iff.1 he
    obtain ⟨hl, rfl⟩ := hl
    rw [List.set_getElem_self]
    rfl
  | n :: ns, hn, b, hb => by
    obtain ⟨e, he, -⟩ := hb.entry_ok h1 h2
    obtain ⟨e1, he1⟩ := editOp_ok allocate e (hn n (by simp))
    have hl : t - 1 < b.entries.length := by rw [hb.length]; omega
    have hm := modifyEntry_ok hb h1 h2 he (f := fun e => editOp allocate e n) he1
    have hb1 : BamOf { b with entries := b.entries.set (t - 1) e1 } ty :=
      ⟨hb.format, by simp [hb.length], hb.live⟩
    have ih := modify_fold h1 h2 allocate ns (fun m hm => hn m (by simp [hm])) hb1
    have hfold : ∃ e', foldRes (editOp allocate) ns e1 = .ok e' := by
      have : ∀ (ms : List Nat), (∀ m ∈ ms, m < 64) → ∀ e, ∃ e', foldRes (editOp allocate) ms e = .ok e' := by
        intro ms
        induction ms with
        | nil => intro _ e; exact ⟨e, rfl⟩
        | cons m ms ihm =>
          intro hms e
          obtain ⟨e', he'⟩ := editOp_ok allocate e (hms m (by simp))
          obtain ⟨e'', he''⟩ := ihm (fun k hk => hms k (by simp [hk])) e'
          exact ⟨e'', by rw [foldRes, he', res_bind_ok, he'']⟩
      exact this ns (fun m hm => hn m (by simp [hm])) e1
    obtain ⟨e', he'⟩ := hfold
    rw [modifyEntry_ok hb h1 h2 he (e' := e') (by rw [foldRes, he1, res_bind_ok, he'])]
    rw [foldRes, hm, res_bind_ok, ← ih,
      modifyEntry_ok hb1 h1 h2 (e := e1) (by simp [hl]) he']
    simp

/-- The sectors of one track. -/
theorem edit_sectors {t : Nat} (h1 : 1 ≤ t) (h2 : t ≤ bamTracks ty) (allocate : Bool) :
    ∀ (ns : List Nat), (∀ n ∈ ns, n < sectorsPerTrack ty t) → ∀ {b : Bam}, Consistent b ty →
    ∃ b', foldRes (fun b n => b.modifyEntry t fun e => editOp allocate e n) ns b = .ok b' ∧
      Consistent b' ty ∧ b'.format = b.format ∧
      ∀ t' n', freeAt b' t' n' = if t' = t ∧ n' ∈ ns then !allocate else freeAt b t' n'
  | [], _, b, hb => ⟨b, rfl, hb, rfl, by simp⟩
  | n :: ns, hn, b, hb => by
    have hle := sectorsPerTrack_le ty t
    have hn0 := hn n (by simp)
    have ht : t < 256 := by
      have : bamTracks ty ≤ 80 := by cases ty <;> decide
      omega
    have et : (UInt8.ofNat t).toNat = t := by rw [UInt8.toNat_ofNat', Nat.mod_eq_of_lt ht]
    have en : (UInt8.ofNat n).toNat = n := by rw [UInt8.toNat_ofNat', Nat.mod_eq_of_lt (by omega)]
    have hv : ValidLoc ty (bamTracks ty) ⟨UInt8.ofNat t, UInt8.ofNat n⟩ := by
      refine ⟨?_, ?_, ?_⟩ <;> simp only [et, en] <;> assumption
    obtain ⟨b1, e1, f1⟩ : ∃ b1, (b.modifyEntry t fun e => editOp allocate e n) = .ok b1 ∧
        Flip b b1 ty ⟨UInt8.ofNat t, UInt8.ofNat n⟩ (!allocate) := by
      rw [editOp_loc allocate ht (by omega)]
      cases allocate
      · exact free_ok hb.toBamOf hv.inBam
      · exact allocate_ok hb.toBamOf hv.inBam
    obtain ⟨b', e2, c2, m2, f2⟩ := edit_sectors h1 h2 allocate ns (fun m hm => hn m (by simp [hm]))
      (f1.consistent hb hv)
    refine ⟨b', by rw [foldRes, e1, res_bind_ok, e2], c2, m2.trans f1.format, ?_⟩
    intro t' n'
    rw [f2, f1.free]
    simp only [et, en, List.mem_cons]
    by_cases hc : t' = t <;> by_cases hd : n' = n <;> by_cases he : n' ∈ ns <;> simp [hc, hd, he]

/-- The sectors that the code visits on a track. -/
theorem editTrack_ok {geos : Bool} {sector : Option Nat} (allocate : Bool) {t : Nat} (h1 : 1 ≤ t)
    (h2 : t ≤ bamTracks ty) (hs : ∀ n, sector = some n → n < sectorsPerTrack ty t)
    (hb : Consistent b ty) :
    ∃ b', editTrack (fmt ty geos) sector allocate t b = .ok b' ∧ Consistent b' ty ∧
      b'.format = b.format ∧
      ∀ t' n', freeAt b' t' n' =
        if t' = t ∧ sectorSelected ty sector t n' = true then !allocate else freeAt b t' n' := by
  have hle := sectorsPerTrack_le ty t
  have key : ∀ (ns : List Nat), (∀ n ∈ ns, n < sectorsPerTrack ty t) →
      ∃ b', b.modifyEntry t (foldRes (editOp allocate) ns) = .ok b' ∧ Consistent b' ty ∧
        b'.format = b.format ∧
        ∀ t' n', freeAt b' t' n' = if t' = t ∧ n' ∈ ns then !allocate else freeAt b t' n' := by
    intro ns hns
    rw [modify_fold h1 h2 allocate ns (fun n hn => by have := hns n hn; omega) hb.toBamOf]
    exact edit_sectors h1 h2 allocate ns hns hb
  cases sector with
  | some y =>
    obtain ⟨b', k1, k2, k3, k4⟩ := key [y] (by simpa using hs y rfl)
    refine ⟨b', ?_, k2, k3, ?_⟩
    · exact k1
    · intro t' n'
      rw [k4]
      simp [sectorSelected]
  | none =>
    obtain ⟨b', k1, k2, k3, k4⟩ := key (List.range (sectorsPerTrack ty t)) (by simp)
    refine ⟨b', ?_, k2, k3, ?_⟩
    · have hpos : 1 ≤ sectorsPerTrack ty t := by
        cases ty <;> simp only [sectorsPerTrack, zone] <;> repeat (first | split | omega)
      unfold editTrack
      simp only [sectorsInTrack_ok geos h1 h2, res_bind_ok, subU_ok hpos, res_pure]
      rw [show sectorsPerTrack ty t - 1 + 1 = sectorsPerTrack ty t by omega]
      exact k1
    · intro t' n'
      rw [k4]
      simp [sectorSelected]

theorem edit_tracks {geos : Bool} {sector : Option Nat} (allocate : Bool) :
    ∀ (ts : List Nat), (∀ t ∈ ts, 1 ≤ t ∧ t ≤ bamTracks ty ∧
      ∀ n, sector = some n → n < sectorsPerTrack ty t) → ∀ {b : Bam}, Consistent b ty →
    ∃ b', M.forEach ts (fun t => St.updBam (editTrack (fmt ty geos) sector allocate t)) ⟨d, b⟩ =
        (.ok (), ⟨d, b'⟩) ∧ Consistent b' ty ∧ b'.format = b.format ∧
      ∀ t n, freeAt b' t n =
        if t ∈ ts ∧ sectorSelected ty sector t n = true then !allocate else freeAt b t n
  | [], _, b, hb => ⟨b, rfl, hb, rfl, by simp⟩
  | t :: ts, ht, b, hb => by
    obtain ⟨h1, h2, h3⟩ := ht t (by simp)
    obtain ⟨b1, e1, c1, m1, f1⟩ := editTrack_ok (geos := geos) allocate h1 h2 h3 hb
    obtain ⟨b', e2, c2, m2, f2⟩ := edit_tracks (geos := geos) allocate ts
      (fun u hu => ht u (by simp [hu])) c1
    refine ⟨b', ?_, c2, m2.trans m1, ?_⟩
    · rw [M.run_forEach_cons]
      have : St.updBam (editTrack (fmt ty geos) sector allocate t) ⟨d, b⟩ = (.ok (), ⟨d, b1⟩) := by
        unfold St.updBam
        exact M.update_ok (by simp only [e1]; rfl)
      rw [this]
      exact e2
    · intro t' n'
      rw [f2, f1]
      by_cases hc : t' = t
      · subst hc
        by_cases he : t' ∈ ts <;> by_cases hf : sectorSelected ty sector t' n' = true <;> simp [he, hf]
      · simp [hc]

section
variable {b : Bam} {s : Shape} {disk : Disk} {r : Nat} {track sector : Option Nat}

theorem edit_run (h : OpenAt disk s r b) (allocate : Bool) {b' : Bam} {geos : Bool}
    (hf : disk.format = some { s.type.format with geos := geos })
    (he : M.forEach (editTracks track)
        (fun t => St.updBam (editTrack (fmt s.type geos) sector allocate t)) ⟨disk.dev, b⟩ =
        (.ok (), ⟨disk.dev, b'⟩)) (hb : BamOf b' s.type) (hfit : Fits b' s.type) :
    ∃ disk', bamEdit track sector allocate disk = (.ok (), disk') ∧
      disk'.bam = some r ∧ disk'.cells[r]? = some b' ∧
      Bam.read disk'.dev s.type.format = .ok ⟨s.type.format, b'.entries, false⟩ := by
  obtain ⟨ws, h1, h2, h3, -, -⟩ := flush_writes hb h.wf h.writable
  have hr : r < disk.cells.length := (List.getElem?_eq_some_iff.1 h.cell).1
  refine ⟨disk.withSt r ⟨disk.dev.puts s ws, b'⟩, ?_, h.bam, ?_,
    read_of_holds (h.wf.puts h2) hb hfit h3 _ rfl⟩
  · unfold bamEdit
    have e1 : (M.read Disk.diskFormat : M Disk DiskFormat) disk = (.ok (fmt s.type geos), disk) := by
      simp [Disk.diskFormat, hf, fmt]
    have e2 : (M.read Disk.bamRef : M Disk Nat) disk = (.ok r, disk) := by
      simp [Disk.bamRef, h.bam]
    rw [M.bind_of_ok e1, M.bind_of_ok e2]
    apply withBam_run h.cell
    rw [M.bind_of_ok he]
    unfold St.flushBam
    rw [M.bind_of_ok (M.run_get _)]
    unfold St.onDev
    rw [M.run_zoom, h1]
  · simp [Disk.withSt, hr]

/-- A ready disk can be edited. -/
theorem Spec.ReadyAt.openAt {v : Volume} (h : ReadyAt disk s v r b) :
    OpenAt disk s r b ∧ Consistent b s.type :=
  ⟨⟨h.mounted.onDisk.wf, h.mounted.writable, ⟨s.type.format.geos, h.format⟩, h.bam, h.cell⟩,
    h.mounted.recorded.consistent⟩

end

end Cbm
