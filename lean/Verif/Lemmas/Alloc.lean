import Verif.Lemmas.AllocSeq
/-!
# Choosing a track and a sector
-/

namespace Cbm
open Spec

/-! ## Choosing among the tracks -/

theorem firstAvail_spec {b : Bam} {ty : DiskType} (hb : BamOf b ty) (last : Fail)
    (seq : List (Nat × Bool)) (hr : ∀ x ∈ seq, 1 ≤ x.1 ∧ x.1 ≤ bamTracks ty) :
    (firstAvail b last seq = .error last ∧ ∀ x ∈ seq, recorded b x.1 = some 0) ∨
    (∃ t e r, firstAvail b last seq = .ok (t, e, r) ∧ (t, r) ∈ seq ∧
      b.entries[t - 1]? = some e ∧ 0 < e.freeSectors.toNat) := by
  induction seq with
  | nil => left; exact ⟨rfl, by simp⟩
  | cons x rest ih =>
    obtain ⟨t, r⟩ := x
    have hx := hr (t, r) (by simp)
    obtain ⟨e, he, hent⟩ := hb.entry_ok hx.1 hx.2
    simp only [firstAvail]
    rw [hent, res_bind_ok]
    by_cases ha : e.hasAvailability = true
    · right
      refine ⟨t, e, r, by rw [if_pos ha]; rfl, by simp, he, ?_⟩
      unfold BamEntry.hasAvailability at ha
      simpa [UInt8.lt_iff_toNat_lt] using ha
    · rw [if_neg ha]
      rcases ih (fun y hy => hr y (by simp [hy])) with ⟨h1, h2⟩ | ⟨t', e', r', h1, h2, h3⟩
      · left
        refine ⟨h1, ?_⟩
        intro y hy
        rcases List.mem_cons.1 hy with rfl | hy
        · unfold recorded
          rw [he, Option.map_some]
          congr 1
          unfold BamEntry.hasAvailability at ha
          simp only [decide_eq_true_eq, gt_iff_lt, UInt8.lt_iff_toNat_lt] at ha
          have : (0 : UInt8).toNat = 0 := rfl
          omega
        · exact h2 y hy
      · right
        exact ⟨t', e', r', h1, by simp [h2], h3⟩

theorem firstAvailTrack_eq (b : Bam) (last : Fail) (seq : List Nat) :
    firstAvailTrack b last seq =
      (firstAvail b last (seq.map fun t => (t, false))).map fun x => (x.1, x.2.1) := by
  induction seq with
  | nil => rfl
  | cons t rest ih =>
    simp only [firstAvailTrack, List.map_cons, firstAvail]
    cases b.entry t with
    | error e => rfl
    | ok e =>
      simp only [res_bind_ok]
      by_cases h : e.hasAvailability = true
      · simp only [h, if_true]; rfl
      · simp only [h, if_false, Bool.false_eq_true]; exact ih

/-! ## Choosing a sector on the track -/

theorem wrapSector_ok (geos : Bool) {num : Nat} (hn : 0 < num) :
    ∀ (fuel sector : Nat), sector < fuel → ∃ r, wrapSector geos num fuel sector = .ok r ∧ r < num
  | 0, _, h => by omega
  | fuel + 1, sector, h => by
    unfold wrapSector
    by_cases hs : sector ≥ num
    · simp only [hs, if_true]
      apply wrapSector_ok geos hn fuel
      split <;> omega
    · simp only [hs, if_false]
      exact ⟨sector, rfl, by omega⟩

/-- The circular scan: it returns a set bit below `num`, or fails with
`InvalidBAM` when there is none. -/
theorem scanSector_spec (map : BitVec 64) {num start : Nat} (hnum : num ≤ 64) (hst : start < num) :
    ∀ (left fuel k : Nat), left + k = num → 1 ≤ left → left ≤ fuel →
      (∀ j, j < k → map.getLsbD ((start + j) % num) = false) →
      (∃ s, scanSector map num start fuel ((start + k) % num) = .ok s ∧ s < num ∧
        map.getLsbD s = true) ∨
      (scanSector map num start fuel ((start + k) % num) = fail .invalidBAM ∧
        ∀ s, s < num → map.getLsbD s = false)
  | 0, _, _, _, h, _, _ => by omega
  | left + 1, 0, _, _, _, h, _ => by omega
  | left + 1, fuel + 1, k, hk, _, hf, hprev => by
    have hlt : (start + k) % num < num := Nat.mod_lt _ (by omega)
    unfold scanSector
    rw [if_neg (by omega)]
    by_cases hbit : map.getLsbD ((start + k) % num) = true
    · left
      rw [if_pos ((shift_and_one_eq _ _).2 hbit)]
      exact ⟨_, rfl, hlt, hbit⟩
    · rw [if_neg (fun h => hbit ((shift_and_one_eq _ _).1 h)), addU8_ok (by omega), res_bind_ok]
      have hnext : (if (start + k) % num + 1 ≥ num then 0 else (start + k) % num + 1)
          = (start + (k + 1)) % num := by
        have h1 : (start + (k + 1)) % num = ((start + k) % num + 1) % num := by
          rw [Nat.mod_add_mod]; rfl
        rw [h1]
        generalize (start + k) % num = x at hlt
        split
        · have : x + 1 = num := by omega
          rw [this, Nat.mod_self]
        · rw [Nat.mod_eq_of_lt (by omega)]
      have hprev' : ∀ j, j < k + 1 → map.getLsbD ((start + j) % num) = false := by
        intro j hj
        by_cases hjk : j = k
        · subst hjk; simpa using hbit
        · exact hprev j (by omega)
      rw [hnext]
      by_cases hend : (start + (k + 1)) % num = start
      · right
        rw [if_pos hend]
        refine ⟨rfl, ?_⟩
        intro s hs
        -- after `num` steps every sector was visited
        have hkn : k + 1 = num := by
          apply Classical.byContradiction
          intro hne
          have hk1 : k + 1 < num := by omega
          by_cases hw : start + (k + 1) < num
          · rw [Nat.mod_eq_of_lt hw] at hend; omega
          · rw [Nat.mod_eq_sub_mod (by omega), Nat.mod_eq_of_lt (by omega)] at hend; omega
        by_cases hss : start ≤ s
        · have := hprev' (s - start) (by omega)
          rwa [show start + (s - start) = s by omega, Nat.mod_eq_of_lt hs] at this
        · have := hprev' (s + num - start) (by omega)
          rwa [show start + (s + num - start) = s + num by omega, Nat.add_mod_right,
            Nat.mod_eq_of_lt hs] at this
      · rw [if_neg hend]
        have hleft : 1 ≤ left := by
          apply Classical.byContradiction
          intro h0
          have : k + 1 = num := by omega
          apply hend
          rw [this, Nat.add_mod_right, Nat.mod_eq_of_lt hst]
        exact scanSector_spec map hnum hst left fuel (k + 1) (by omega) hleft (by omega) hprev'

theorem firstBit_spec (n s0 : Nat) (m : BitVec 64) :
    (∃ s, firstBit n s0 (m >>> s0) = some s ∧ s0 ≤ s ∧ s < s0 + n ∧ m.getLsbD s = true) ∨
    (firstBit n s0 (m >>> s0) = none ∧ ∀ s, s0 ≤ s → s < s0 + n → m.getLsbD s = false) := by
  induction n generalizing s0 with
  | zero => right; exact ⟨rfl, by omega⟩
  | succ n ih =>
    unfold firstBit
    by_cases hbit : m.getLsbD s0 = true
    · left
      rw [if_pos ((shift_and_one_eq _ _).2 hbit)]
      exact ⟨s0, rfl, by omega, by omega, hbit⟩
    · rw [if_neg (fun h => hbit ((shift_and_one_eq _ _).1 h)), shift_shift]
      rcases ih (s0 + 1) with ⟨s, h1, h2, h3, h4⟩ | ⟨h1, h2⟩
      · left; exact ⟨s, h1, by omega, by omega, h4⟩
      · right
        refine ⟨h1, ?_⟩
        intro s hs1 hs2
        by_cases he : s = s0
        · subst he; simpa using hbit
        · exact h2 s (by omega) (by omega)

end Cbm

namespace Cbm
open Spec

variable {b : Bam} {ty : DiskType}

theorem fmt_tracks : ∀ ty ∈ [DiskType.d64, .d71, .d81], ∀ t ∈ List.range (bamTracks ty),
    ty.format.sectorsInTrack (t + 1) = .ok (sectorsPerTrack ty (t + 1)) := by decide +kernel

theorem sectorsInTrack_ok (geos : Bool) {t : Nat} (h1 : 1 ≤ t) (h2 : t ≤ bamTracks ty) :
    (fmt ty geos).sectorsInTrack t = .ok (sectorsPerTrack ty t) := by
  have := fmt_tracks ty (mem_diskTypes ty) (t - 1) (by simp; omega)
  rw [show t - 1 + 1 = t by omega] at this
  exact this

theorem interleave_bounds (ty : DiskType) : 1 ≤ ty.format.interleave ∧ ty.format.interleave ≤ 10 ∧
    1 ≤ ty.format.directoryInterleave ∧ ty.format.directoryInterleave ≤ 10 := by
  cases ty <;> decide

theorem bamTracks_le (ty : DiskType) : bamTracks ty ≤ 80 := by cases ty <;> decide

theorem nextFreeTrack_seq (geos : Bool) (b : Bam) (prev : Nat) :
    (fmt ty geos).nextFreeTrack b prev =
      firstAvail b (nextSeq ty geos prev).2 (nextSeq ty geos prev).1 := by
  have hft : (fmt ty true).firstTrack = 1 := by cases ty <;> rfl
  cases geos with
  | true =>
    show geosLoop (fmt ty true) b trackFuel prev (if prev = (fmt ty true).firstTrack then 1 else 2)
      false = _
    rw [geosLoop_seq, hft]; rfl
  | false =>
    show cbmLoop (fmt ty false) b trackFuel prev 3 false = _
    rw [cbmLoop_seq]; rfl

theorem advanceSector_ok (geos : Bool) {t prev sector : Nat} {reset : Bool}
    (ht : t ≤ bamTracks ty) (hs : sector < 40) (hup : reset = false → geos = true → prev ≤ t) :
    ∃ r, advanceSector (fmt ty geos) t prev sector reset = .ok r ∧ r < 256 := by
  have hi := interleave_bounds ty
  have hb := bamTracks_le ty
  have h1 : (fmt ty geos).interleave = ty.format.interleave := rfl
  have h2 : (fmt ty geos).directoryInterleave = ty.format.directoryInterleave := rfl
  have h3 : (fmt ty geos).geos = geos := rfl
  unfold advanceSector
  rw [h1, h2, h3]
  generalize hil : (if t = (fmt ty geos).directoryTrack then ty.format.directoryInterleave
    else ty.format.interleave) = il
  have hil' : 1 ≤ il ∧ il ≤ 10 := by rw [← hil]; split <;> omega
  simp only []
  cases reset with
  | true => exact ⟨0, rfl, by omega⟩
  | false =>
    simp only [Bool.false_eq_true, if_false]
    by_cases hc : (!geos || t == prev) = true
    · rw [if_pos hc, addU8_ok (by omega), res_bind_ok]
      split
      · rw [subU_ok (by omega)]; exact ⟨_, rfl, by omega⟩
      · exact ⟨_, rfl, by omega⟩
    · rw [if_neg hc]
      have hg : geos = true := by cases geos <;> simp_all
      have := hup rfl hg
      rw [subU_ok this, res_bind_ok, addU8_ok (by omega), res_bind_ok, addU8_ok (by omega)]
      exact ⟨_, rfl, by omega⟩

theorem locOf_toNat {t s : Nat} (ht : t ≤ bamTracks ty) (hs : s < 64) :
    (UInt8.ofNat t).toNat = t ∧ (UInt8.ofNat s).toNat = s := by
  have := bamTracks_le ty
  simp only [UInt8.toNat_ofNat']; omega

theorem advanceSector_lt {f : DiskFormat} {t prev sector r : Nat} {reset : Bool}
    (h : advanceSector f t prev sector reset = .ok r) : r < 256 := by
  unfold advanceSector at h
  simp only [] at h
  have hadd : ∀ {a b r : Nat}, addU8 a b = .ok r → r < 256 := by
    intro a b r h; unfold addU8 at h; split at h <;> cases h; assumption
  split at h
  · cases h; omega
  · split at h
    · rw [res_bind_eq_ok] at h
      obtain ⟨x, h1, h2⟩ := h
      have := hadd h1
      split at h2
      · unfold subU at h2; split at h2 <;> cases h2; omega
      · cases h2; exact this
    · rw [res_bind_eq_ok] at h
      obtain ⟨x, _, h⟩ := h
      rw [res_bind_eq_ok] at h
      obtain ⟨y, _, h⟩ := h
      exact hadd h

/-- Everything about the search from a previous location: a location, or one of
two errors, or (only if the previous sector does not exist) a failure. -/
theorem fromPrevious_spec' (hb : BamOf b ty) (geos : Bool) {p : Location}
    (hp1 : 1 ≤ p.track.toNat) (hp2 : p.track.toNat ≤ bamTracks ty) :
    (∃ l, (fmt ty geos).nextFreeBlockFromPrevious b p = .ok l ∧ ValidLoc ty (bamTracks ty) l ∧
      isFree b l = true ∧ (l.track = p.track ∨ systemTrack ty l.track.toNat = false)) ∨
    ((fmt ty geos).nextFreeBlockFromPrevious b p = fail .diskFull ∧
      ∀ x ∈ (nextSeq ty geos p.track.toNat).1, recorded b x.1 = some 0) ∨
    ((fmt ty geos).nextFreeBlockFromPrevious b p = fail .invalidBAM ∧
      ∃ t n, 1 ≤ t ∧ t ≤ bamTracks ty ∧ recorded b t = some n ∧ 0 < n ∧
        ∀ s, s < sectorsPerTrack ty t → freeAt b t s = false) ∨
    (¬ p.sector.toNat < sectorsPerTrack ty p.track.toNat ∧
      ∃ e, (fmt ty geos).nextFreeBlockFromPrevious b p = .error e) := by
  have hf := nextSeq_facts ty geos hp1 hp2
  unfold DiskFormat.nextFreeBlockFromPrevious
  rw [nextFreeTrack_seq]
  rcases firstAvail_spec hb (nextSeq ty geos p.track.toNat).2 _ hf.range with
    ⟨h1, h2⟩ | ⟨t, e, r, h1, h2, h3, h4⟩
  · right; left
    rw [h1, hf.ends]
    exact ⟨rfl, h2⟩
  · have hr := hf.range _ h2
    simp only at hr
    rw [h1, res_bind_ok]
    simp only []
    rw [sectorsInTrack_ok geos hr.1 hr.2, res_bind_ok]
    have hle := sectorsPerTrack_le ty t
    have hge := sectorsPerTrack_ge ty t
    have hpl := sectorsPerTrack_le ty p.track.toNat
    have hadv : (∃ s1, advanceSector (fmt ty geos) t p.track.toNat p.sector.toNat r = .ok s1 ∧
        s1 < 256) ∨ (¬ p.sector.toNat < sectorsPerTrack ty p.track.toNat ∧
        ∃ e, advanceSector (fmt ty geos) t p.track.toNat p.sector.toNat r = .error e) := by
      by_cases hps : p.sector.toNat < sectorsPerTrack ty p.track.toNat
      · left
        exact advanceSector_ok (ty := ty) geos hr.2 (by omega) (fun e1 e2 => hf.up _ h2 e1 e2)
      · cases hc : advanceSector (fmt ty geos) t p.track.toNat p.sector.toNat r with
        | ok s1 => left; exact ⟨s1, rfl, advanceSector_lt hc⟩
        | error e => right; exact ⟨hps, e, rfl⟩
    rcases hadv with ⟨s1, a1, a2⟩ | ⟨hps, err, herr⟩
    case inr =>
      right; right; right
      rw [herr]
      exact ⟨hps, err, rfl⟩
    rw [a1, res_bind_ok]
    obtain ⟨s2, w1, w2⟩ := wrapSector_ok (fmt ty geos).geos (num := sectorsPerTrack ty t)
      (by omega) 257 s1 (by omega)
    rw [w1, res_bind_ok]
    have hfa : ∀ s, freeAt b t s = e.sectorMap.getLsbD s := by
      intro s
      have := freeAt_entry (b := b) (i := t - 1) h3 s
      rwa [show t - 1 + 1 = t by omega] at this
    have scan := scanSector_spec e.sectorMap (num := sectorsPerTrack ty t) (start := s2)
      (by omega) w2 (sectorsPerTrack ty t) 257 0 (by omega) (by omega) (by omega) (by omega)
    rw [Nat.add_zero, Nat.mod_eq_of_lt w2] at scan
    rcases scan with ⟨s, c1, c2, c3⟩ | ⟨c1, c2⟩
    · left
      rw [c1, res_bind_ok]
      obtain ⟨e1, e2⟩ := locOf_toNat (ty := ty) (t := t) (s := s) hr.2 (by omega)
      refine ⟨_, rfl, ?_, ?_, ?_⟩
      · unfold ValidLoc; simp only [e1, e2]; exact ⟨hr.1, hr.2, c2⟩
      · unfold isFree; simp only [e1, e2]; rw [hfa, c3]
      · simp only [e1]
        rcases hf.data _ h2 with h | h
        · left
          rw [← UInt8.toNat_inj, e1]; exact h
        · right; exact h
    · right; right; left
      rw [c1]
      refine ⟨rfl, t, e.freeSectors.toNat, hr.1, hr.2, ?_, h4, ?_⟩
      · unfold recorded; rw [h3]; rfl
      · intro s hs; rw [hfa, c2 s hs]

theorem fromPrevious_spec (hb : BamOf b ty) (geos : Bool) {p : Location}
    (hp : ValidLoc ty (bamTracks ty) p) :
    (∃ l, (fmt ty geos).nextFreeBlockFromPrevious b p = .ok l ∧ ValidLoc ty (bamTracks ty) l ∧
      isFree b l = true ∧ (l.track = p.track ∨ systemTrack ty l.track.toNat = false)) ∨
    ((fmt ty geos).nextFreeBlockFromPrevious b p = fail .diskFull ∧
      ∀ x ∈ (nextSeq ty geos p.track.toNat).1, recorded b x.1 = some 0) ∨
    ((fmt ty geos).nextFreeBlockFromPrevious b p = fail .invalidBAM ∧
      ∃ t n, 1 ≤ t ∧ t ≤ bamTracks ty ∧ recorded b t = some n ∧ 0 < n ∧
        ∀ s, s < sectorsPerTrack ty t → freeAt b t s = false) := by
  rcases fromPrevious_spec' hb geos hp.1 hp.2.1 with h | h | h | ⟨h, _⟩
  · exact Or.inl h
  · exact Or.inr (Or.inl h)
  · exact Or.inr (Or.inr h)
  · exact absurd hp.2.2 h

/-- A previous track that is not in the BAM makes the search fail. -/
theorem fromPrevious_bad_track (hb : BamOf b ty) (geos : Bool) {p : Location}
    (hp : ¬ (1 ≤ p.track.toNat ∧ p.track.toNat ≤ bamTracks ty)) :
    ∃ e, (fmt ty geos).nextFreeBlockFromPrevious b p = .error e := by
  have hent : b.entry p.track.toNat = .error .panic := by
    unfold Bam.entry
    rw [checkValidity_ok hb, res_bind_ok]
    by_cases h0 : 1 ≤ p.track.toNat
    · rw [subU_ok h0, res_bind_ok]
      unfold indexRes
      rw [List.getElem?_eq_none (by rw [hb.length]; omega)]
    · unfold subU; rw [if_neg h0]; rfl
  have : (fmt ty geos).nextFreeTrack b p.track.toNat = .error .panic := by
    unfold DiskFormat.nextFreeTrack
    split
    · unfold DiskFormat.nextFreeTrackGeos geosLoop
      rw [if_pos (by split <;> omega), hent]; rfl
    · unfold DiskFormat.nextFreeTrackCbm cbmLoop
      rw [if_pos (by omega), hent]; rfl
  unfold DiskFormat.nextFreeBlockFromPrevious
  rw [this]
  exact ⟨_, rfl⟩

/-- Everything about the search without a previous location, CBM policy. -/
theorem firstFreeBlock_spec (hb : BamOf b ty) :
    (∃ l, (fmt ty false).firstFreeBlock b = .ok l ∧ ValidLoc ty (bamTracks ty) l ∧
      isFree b l = true ∧ l.track.toNat ≠ directoryTrack ty) ∨
    ((fmt ty false).firstFreeBlock b = fail .diskFull ∧
      ((∀ t, 1 ≤ t → t ≤ bamTracks ty → t ≠ directoryTrack ty → recorded b t = some 0) ∨
        ∃ t n, 1 ≤ t ∧ t ≤ bamTracks ty ∧ recorded b t = some n ∧ 0 < n ∧
          ∀ s, s < sectorsPerTrack ty t → freeAt b t s = false)) := by
  have heq : (fmt ty false) = ty.format := by cases ty <;> rfl
  obtain ⟨n, c1, c2, c3, c4, c5, c6⟩ := firstSeq_checked ty (mem_diskTypes ty)
  have htrack : (fmt ty false).firstFreeTrack b = firstAvailTrack b
      (firstSeq ty.format ((List.range (max (directoryTrack ty - 1) n)).map (· + 1))).2
      (firstSeq ty.format ((List.range (max (directoryTrack ty - 1) n)).map (· + 1))).1 := by
    rw [heq]
    unfold DiskFormat.firstFreeTrack
    rw [c1, res_bind_ok, c2, res_bind_ok, c3, res_bind_ok, firstFreeTrackLoop_seq]
  have hg : (fmt ty false).geos = false := rfl
  unfold DiskFormat.firstFreeBlock
  rw [hg, if_neg (by decide), htrack, c4, firstAvailTrack_eq]
  generalize (firstSeq ty.format ((List.range (max (directoryTrack ty - 1) n)).map (· + 1))).1
    = seq at c5 c6
  rcases firstAvail_spec hb (.err .diskFull) (seq.map fun t => (t, false)) (by
      intro x hx
      obtain ⟨t, ht, rfl⟩ := List.mem_map.1 hx
      exact ⟨(c5 t ht).1, (c5 t ht).2.1⟩) with ⟨h1, h2⟩ | ⟨t, e, r, h1, h2, h3, h4⟩
  · right
    rw [h1]
    refine ⟨rfl, Or.inl ?_⟩
    intro t ht1 ht2 hne
    have := c6 (t - 1) (by simp; omega)
    rw [show t - 1 + 1 = t by omega] at this
    rcases this with h | h
    · exact absurd h hne
    · exact h2 (t, false) (List.mem_map.2 ⟨t, h, rfl⟩)
  · obtain ⟨t', ht', he⟩ := List.mem_map.1 h2
    simp only [Prod.mk.injEq] at he
    obtain ⟨rfl, rfl⟩ := he
    have hr := c5 t' ht'
    have hle := sectorsPerTrack_le ty t'
    rw [h1]
    simp only [Except.map, res_bind_ok]
    rw [sectorsInTrack_ok false hr.1 hr.2.1, res_bind_ok]
    have hfa : ∀ s, freeAt b t' s = e.sectorMap.getLsbD s := by
      intro s
      have := freeAt_entry (b := b) (i := t' - 1) h3 s
      rwa [show t' - 1 + 1 = t' by omega] at this
    have fb := firstBit_spec (sectorsPerTrack ty t') 0 e.sectorMap
    rw [BitVec.ushiftRight_zero] at fb
    rcases fb with ⟨s, b1, _, b2, b3⟩ | ⟨b1, b2⟩
    · left
      rw [b1]
      obtain ⟨e1, e2⟩ := locOf_toNat (ty := ty) (t := t') (s := s) hr.2.1 (by omega)
      refine ⟨_, rfl, ?_, ?_, ?_⟩
      · unfold ValidLoc; simp only [e1, e2]; exact ⟨hr.1, hr.2.1, by omega⟩
      · unfold isFree; simp only [e1, e2]; rw [hfa, b3]
      · simp only [e1]; exact hr.2.2
    · right
      rw [b1]
      refine ⟨rfl, Or.inr ⟨t', e.freeSectors.toNat, hr.1, hr.2.1, ?_, h4, ?_⟩⟩
      · unfold recorded; rw [h3]; rfl
      · intro s hs; rw [hfa, b2 s (by omega) (by omega)]

theorem Spec.BamOf.fmt (hb : BamOf b ty) : b.format = fmt ty b.format.geos := hb.format

theorem first_track_loc (ty : DiskType) (geos : Bool) :
    (⟨UInt8.ofNat (Cbm.fmt ty geos).firstTrack, 0⟩ : Location) = ⟨1, 0⟩ := by
  cases ty <;> rfl

/-- The GEOS policy without a previous location starts after track 1, sector 0. -/
theorem nextFreeBlock_none_geos (hb : BamOf b ty) (hg : b.format.geos = true) :
    b.nextFreeBlock none = b.nextFreeBlock (some ⟨1, 0⟩) := by
  unfold Bam.nextFreeBlock DiskFormat.nextFreeBlock
  simp only []
  rw [hb.fmt]
  unfold DiskFormat.firstFreeBlock
  rw [first_track_loc]
  have : (Cbm.fmt ty b.format.geos).geos = true := hg
  rw [if_pos this]

theorem nextFreeBlock_some (hb : BamOf b ty) (p : Location) :
    b.nextFreeBlock (some p) = (Cbm.fmt ty b.format.geos).nextFreeBlockFromPrevious b p := by
  unfold Bam.nextFreeBlock DiskFormat.nextFreeBlock
  rw [checkValidity_ok hb, res_bind_ok, ← hb.fmt]

theorem nextFreeBlock_none_cbm (hb : BamOf b ty) (hg : b.format.geos = false) :
    b.nextFreeBlock none = (Cbm.fmt ty false).firstFreeBlock b := by
  unfold Bam.nextFreeBlock DiskFormat.nextFreeBlock
  rw [checkValidity_ok hb, res_bind_ok]
  simp only []
  rw [hb.fmt, hg]

theorem valid_first (ty : DiskType) : ValidLoc ty (bamTracks ty) ⟨1, 0⟩ := by
  cases ty <;> decide

end Cbm
