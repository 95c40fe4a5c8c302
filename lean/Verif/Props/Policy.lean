import Verif.Props.Alloc
import Verif.Spec.Policy
/-!
# C76: the order in which blocks are allocated
-/

namespace Cbm
open Spec

variable {b : Bam} {ty : DiskType}

theorem nextSeq_order_d64 : ∀ geos ∈ [false, true], ∀ i ∈ List.range 35,
    nextSeq .d64 geos (i + 1) = (trackOrder .d64 geos (i + 1), .err .diskFull) := by decide +kernel

theorem nextSeq_order_d71 : ∀ geos ∈ [false, true], ∀ i ∈ List.range 70,
    nextSeq .d71 geos (i + 1) = (trackOrder .d71 geos (i + 1), .err .diskFull) := by decide +kernel

theorem nextSeq_order_d81 : ∀ geos ∈ [false, true], ∀ i ∈ List.range 80,
    nextSeq .d81 geos (i + 1) = (trackOrder .d81 geos (i + 1), .err .diskFull) := by decide +kernel

theorem nextSeq_order (ty : DiskType) (geos : Bool) {p : Nat} (h1 : 1 ≤ p) (h2 : p ≤ bamTracks ty) :
    nextSeq ty geos p = (trackOrder ty geos p, .err .diskFull) := by
  have h : ∀ geos ∈ [false, true], ∀ i ∈ List.range (bamTracks ty),
      nextSeq ty geos (i + 1) = (trackOrder ty geos (i + 1), .err .diskFull) := by
    cases ty
    · exact nextSeq_order_d64
    · exact nextSeq_order_d71
    · exact nextSeq_order_d81
  have := h geos (by cases geos <;> simp) (p - 1) (by simp; omega)
  rwa [show p - 1 + 1 = p by omega] at this

/-- The first track with a free sector. -/
theorem firstAvail_find (h : Consistent b ty) (last : Fail) (seq : List (Nat × Bool))
    (hr : ∀ x ∈ seq, 1 ≤ x.1 ∧ x.1 ≤ bamTracks ty) :
    match seq.find? fun x => anyFree ty (freeAt b) x.1 with
    | none => firstAvail b last seq = .error last
    | some x => ∃ e, firstAvail b last seq = .ok (x.1, e, x.2) ∧ b.entries[x.1 - 1]? = some e := by
  induction seq with
  | nil => rfl
  | cons x rest ih =>
    obtain ⟨t, r⟩ := x
    have hx := hr (t, r) (by simp)
    obtain ⟨e, he, hent⟩ := h.toBamOf.entry_ok hx.1 hx.2
    have hav : e.hasAvailability = anyFree ty (freeAt b) t := by
      have hc := h.counts t hx.1 hx.2
      unfold recorded at hc
      rw [he] at hc
      simp only [Option.map_some, Option.some.injEq] at hc
      unfold BamEntry.hasAvailability anyFree
      rw [Bool.eq_iff_iff, List.any_eq_true, decide_eq_true_eq, gt_iff_lt, UInt8.lt_iff_toNat_lt, hc]
      unfold freeOn
      show 0 < _ ↔ _
      rw [List.length_pos_iff_exists_mem]
      simp only [List.mem_filter]
    simp only [firstAvail, List.find?_cons]
    rw [hent, res_bind_ok, hav]
    cases anyFree ty (freeAt b) t with
    | true => exact ⟨e, rfl, he⟩
    | false => exact ih fun y hy => hr y (by simp [hy])

/-- The circular scan gives the first set bit. -/
theorem scanSector_find (map : BitVec 64) {num start : Nat} (hnum : num ≤ 64) (hst : start < num)
    (left fuel k : Nat) (hk : left + k = num) (hl : 1 ≤ left) (hf : left ≤ fuel) :
    scanSector map num start fuel ((start + k) % num) =
      match ((List.range left).map fun j => (start + k + j) % num).find? map.getLsbD with
      | some s => .ok s
      | none => fail .invalidBAM := by
  induction left generalizing fuel k with
  | zero => omega
  | succ left ih =>
    obtain ⟨fuel, rfl⟩ : ∃ f, fuel = f + 1 := ⟨fuel - 1, by omega⟩
    have hlt : (start + k) % num < num := Nat.mod_lt _ (by omega)
    rw [List.range_succ_eq_map, List.map_cons, List.find?_cons,
      show start + k + 0 = start + k from rfl]
    unfold scanSector
    rw [if_neg (by omega)]
    by_cases hbit : map.getLsbD ((start + k) % num) = true
    · rw [if_pos ((shift_and_one_eq _ _).2 hbit), hbit]; rfl
    · rw [if_neg (fun h => hbit ((shift_and_one_eq _ _).1 h)), addU8_ok (by omega), res_bind_ok,
        Bool.eq_false_iff.2 hbit]
      have hnext : (if (start + k) % num + 1 ≥ num then 0 else (start + k) % num + 1)
          = (start + (k + 1)) % num := by
        have h1 : (start + (k + 1)) % num = ((start + k) % num + 1) % num := by
          rw [Nat.mod_add_mod]; rfl
        rw [h1]
        generalize (start + k) % num = x at hlt
        split
        · have : x + 1 = num := by omega
          rw [this, Nat.mod_self]
        · rw [Nat.mod_eq_of_lt (by omega)]
      simp only [hnext, List.map_map]
      by_cases h0 : left = 0
      · subst h0
        have hkn : k + 1 = num := by omega
        rw [if_pos (by rw [hkn, Nat.add_mod_right, Nat.mod_eq_of_lt hst])]
        rfl
      · rw [if_neg]
        · rw [ih fuel (k + 1) (by omega) (by omega) (by omega)]
          have : ((fun j => (start + k + j) % num) ∘ Nat.succ) =
              fun j => (start + (k + 1) + j) % num := by
            funext j
            simp only [Function.comp_apply]
            rw [show start + k + j.succ = start + (k + 1) + j by omega]
          rw [this]
        · intro hend
          by_cases hw : start + (k + 1) < num
          · rw [Nat.mod_eq_of_lt hw] at hend; omega
          · rw [Nat.mod_eq_sub_mod (by omega), Nat.mod_eq_of_lt (by omega)] at hend; omega

/-- The plain scan gives the first set bit. -/
theorem firstBit_find (n s0 : Nat) (m : BitVec 64) :
    firstBit n s0 (m >>> s0) = ((List.range n).map (s0 + ·)).find? m.getLsbD := by
  induction n generalizing s0 with
  | zero => rfl
  | succ n ih =>
    rw [List.range_succ_eq_map, List.map_cons, List.find?_cons, show s0 + 0 = s0 from rfl]
    unfold firstBit
    by_cases hbit : m.getLsbD s0 = true
    · rw [if_pos ((shift_and_one_eq _ _).2 hbit), hbit]
    · rw [if_neg (fun h => hbit ((shift_and_one_eq _ _).1 h)), shift_shift, ih,
        Bool.eq_false_iff.2 hbit, List.map_map]
      have : ((s0 + ·) ∘ Nat.succ) = (s0 + 1 + ·) := by
        funext j
        simp only [Function.comp_apply]
        omega
      rw [this]

theorem wrapSector_geos {num : Nat} (hn : 0 < num) (fuel sector : Nat) (h : sector < fuel) :
    wrapSector true num fuel sector = .ok (sector % num) := by
  induction fuel generalizing sector with
  | zero => omega
  | succ fuel ih =>
    unfold wrapSector
    by_cases hs : sector ≥ num
    · simp only [hs, if_true, Bool.not_true, Bool.and_false, Bool.false_eq_true, if_false]
      rw [ih _ (by omega), Nat.mod_eq_sub_mod hs]
    · simp only [hs, if_false]
      rw [Nat.mod_eq_of_lt (by omega)]; rfl

theorem wrapSector_cbm {num fuel sector : Nat} (h : sector ≤ 2 * num) (hn : 1 < num)
    (hf : 2 ≤ fuel) :
    wrapSector false num fuel sector =
      .ok (if sector < num then sector else if sector = num then 0 else sector - num - 1) := by
  obtain ⟨fuel, rfl⟩ : ∃ f, fuel = f + 2 := ⟨fuel - 2, by omega⟩
  have last : ∀ s, s < num → wrapSector false num (fuel + 1) s = .ok s := by
    intro s hs
    unfold wrapSector
    rw [if_neg (by omega)]; rfl
  unfold wrapSector
  by_cases hs : sector ≥ num
  · rw [if_pos hs, if_neg (by omega)]
    by_cases he : sector = num
    · subst he
      rw [if_pos rfl]
      simp only [Nat.sub_self]
      exact last 0 (by omega)
    · rw [if_neg he]
      simp only [Bool.not_false, Bool.and_true, gt_iff_lt, decide_eq_true_eq]
      rw [if_pos (by omega)]
      exact last _ (by omega)
  · rw [if_neg hs, if_pos (by omega)]; rfl

theorem zone_le (t : Nat) : zone t ≤ 21 := by
  unfold zone; repeat' split
  all_goals omega

theorem interleaveOn_eq (ty : DiskType) (geos : Bool) (t : Nat) :
    (if t = (fmt ty geos).directoryTrack then (fmt ty geos).directoryInterleave
      else (fmt ty geos).interleave) = interleaveOn ty t := by
  cases ty <;> rfl

theorem interleaveOn_bounds (ty : DiskType) (t : Nat) :
    1 ≤ interleaveOn ty t ∧ interleaveOn ty t ≤ 10 := by
  unfold interleaveOn; cases ty <;> simp only <;> split <;> omega

/-- Where the scan of the chosen track starts. -/
theorem start_ok (ty : DiskType) (geos : Bool) {p : Location} {t : Nat} {moved : Bool}
    (hp : ValidLoc ty (bamTracks ty) p) (ht2 : t ≤ bamTracks ty)
    (hup : moved = false → geos = true → p.track.toNat ≤ t) :
    (do let s ← advanceSector (fmt ty geos) t p.track.toNat p.sector.toNat moved
        wrapSector (fmt ty geos).geos (sectorsPerTrack ty t) 257 s) =
      .ok (startSector ty geos p t moved) ∧
    startSector ty geos p t moved < sectorsPerTrack ty t := by
  have hi := interleaveOn_bounds ty t
  have hb := bamTracks_le ty
  have hge := sectorsPerTrack_ge ty t
  have hps := hp.2.2
  have hfit : p.sector.toNat + interleaveOn ty t ≤ 2 * sectorsPerTrack ty t ∧
      p.sector.toNat < 40 := by
    have hle := sectorsPerTrack_le ty p.track.toNat
    refine ⟨?_, by omega⟩
    cases ty
    · have : sectorsPerTrack .d64 p.track.toNat ≤ 21 := by
        simp only [sectorsPerTrack]; exact zone_le _
      omega
    · have : sectorsPerTrack .d71 p.track.toNat ≤ 21 := by
        simp only [sectorsPerTrack]; split <;> exact zone_le _
      omega
    · have h1 : ∀ t, sectorsPerTrack .d81 t = 40 := fun _ => rfl
      have h2 : interleaveOn .d81 t ≤ 1 := by unfold interleaveOn; simp only; split <;> omega
      rw [h1] at hps ⊢
      omega
  have hg : (fmt ty geos).geos = geos := rfl
  unfold advanceSector startSector
  rw [interleaveOn_eq, hg]
  simp only []
  cases moved with
  | true =>
    simp only [if_true]
    refine ⟨?_, by omega⟩
    show wrapSector geos _ 257 0 = _
    unfold wrapSector
    rw [if_neg (by omega)]; rfl
  | false =>
    simp only [Bool.false_eq_true, if_false]
    cases geos with
    | false =>
      simp only [Bool.not_false, Bool.true_or, if_true, Bool.false_and, Bool.false_eq_true, if_false]
      rw [addU8_ok (by omega), res_bind_ok]
      refine ⟨?_, ?_⟩
      · show wrapSector false _ 257 _ = _
        rw [wrapSector_cbm hfit.1 (by omega) (by omega)]
      · split
        · assumption
        · split <;> omega
    | true =>
      simp only [Bool.not_true, Bool.false_or, if_true, Bool.true_and, beq_iff_eq, decide_eq_true_eq]
      by_cases he : t = p.track.toNat
      · rw [if_pos he, if_pos he, addU8_ok (by omega), res_bind_ok]
        refine ⟨?_, Nat.mod_lt _ (by omega)⟩
        by_cases h25 : t ≥ 25
        · rw [if_pos h25, if_pos h25, subU_ok (by omega), res_bind_ok, wrapSector_geos (by omega) _ _ (by omega)]
        · rw [if_neg h25, if_neg h25]
          show wrapSector true _ 257 _ = _
          rw [wrapSector_geos (by omega) _ _ (by omega)]; rfl
      · rw [if_neg he, if_neg he]
        have := hup rfl rfl
        refine ⟨?_, Nat.mod_lt _ (by omega)⟩
        rw [subU_ok this, res_bind_ok, addU8_ok (by omega), res_bind_ok, addU8_ok (by omega),
          res_bind_ok, wrapSector_geos (by omega) _ _ (by omega)]
        rw [show (t - p.track.toNat) * 2 % 256 = 2 * (t - p.track.toNat) by omega]

theorem freeAt_map {t : Nat} {e : BamEntry} (h1 : 1 ≤ t) (h3 : b.entries[t - 1]? = some e) :
    freeAt b t = e.sectorMap.getLsbD := by
  funext s
  have := freeAt_entry (b := b) (i := t - 1) h3 s
  rwa [show t - 1 + 1 = t by omega] at this

/-- A track with a free sector has one in the order from any start. -/
theorem sectorFrom_some (free : Nat → Nat → Bool) {t s : Nat}
    (h : anyFree ty free t = true) : ∃ r, sectorFrom ty free t s = some r := by
  unfold anyFree at h
  rw [List.any_eq_true] at h
  obtain ⟨r, hr, hf⟩ := h
  rw [List.mem_range] at hr
  unfold sectorFrom
  rw [← Option.isSome_iff_exists, List.find?_isSome]
  refine ⟨r, List.mem_map.2 ?_, hf⟩
  have hge := sectorsPerTrack_ge ty t
  generalize sectorsPerTrack ty t = n at hr hge
  have hs := Nat.mod_lt s (show 0 < n by omega)
  have hds := Nat.div_add_mod s n
  by_cases hle : s % n ≤ r
  · refine ⟨r - s % n, List.mem_range.2 (by omega), ?_⟩
    rw [show s + (r - s % n) = r + n * (s / n) by omega, Nat.add_mul_mod_self_left,
      Nat.mod_eq_of_lt hr]
  · refine ⟨r + n - s % n, List.mem_range.2 (by omega), ?_⟩
    rw [show s + (r + n - s % n) = r + n + n * (s / n) by omega, Nat.add_mul_mod_self_left,
      Nat.add_mod_right, Nat.mod_eq_of_lt hr]

/-- **C76** With the bookkeeping in order, the block after block `p` is exactly the one
the policy names, and the disk is full exactly when it names none. -/
theorem C76_next (h : Consistent b ty) {p : Location} (hp : ValidLoc ty (bamTracks ty) p) :
    b.nextFreeBlock (some p) = orFull (nextBlock ty b.format.geos (freeAt b) p) := by
  rw [nextFreeBlock_some h.toBamOf]
  have hf := nextSeq_facts ty b.format.geos hp.1 hp.2.1
  have hseq := nextSeq_order ty b.format.geos hp.1 hp.2.1
  have hrange := hf.range
  have hup := hf.up
  unfold DiskFormat.nextFreeBlockFromPrevious nextBlock
  rw [nextFreeTrack_seq, hseq]
  rw [hseq] at hrange hup
  simp only at hrange hup ⊢
  have hfind := firstAvail_find h (.err .diskFull) _ hrange
  cases hx : (trackOrder ty b.format.geos p.track.toNat).find? fun x => anyFree ty (freeAt b) x.1 with
  | none =>
    rw [hx] at hfind
    simp only at hfind
    rw [hfind]; rfl
  | some x =>
    rw [hx] at hfind
    obtain ⟨e, he, hent⟩ := hfind
    have hmem := List.mem_of_find?_eq_some hx
    have hany : anyFree ty (freeAt b) x.1 = true := by
      have := List.find?_some hx; exact this
    have hr := hrange x hmem
    obtain ⟨hs1, hs2⟩ := start_ok ty b.format.geos (moved := x.2) hp hr.2 (hup x hmem)
    obtain ⟨r, hr'⟩ := sectorFrom_some (ty := ty) (freeAt b)
      (s := startSector ty b.format.geos p x.1 x.2) hany
    have hle := sectorsPerTrack_le ty x.1
    have hge := sectorsPerTrack_ge ty x.1
    rw [res_bind_eq_ok] at hs1
    obtain ⟨s1, a1, a2⟩ := hs1
    rw [he, res_bind_ok]
    simp only []
    rw [sectorsInTrack_ok _ hr.1 hr.2, res_bind_ok, a1, res_bind_ok, a2, res_bind_ok]
    have scan := scanSector_find e.sectorMap (by omega) hs2 (sectorsPerTrack ty x.1) 257 0
      (by omega) (by omega) (by omega)
    rw [Nat.add_zero, Nat.mod_eq_of_lt hs2, ← freeAt_map hr.1 hent] at scan
    unfold sectorFrom at hr'
    rw [hr'] at scan
    rw [scan, res_bind_ok, Option.bind_some]
    unfold sectorFrom
    rw [hr']; rfl

theorem firstSeq_order : ∀ ty ∈ [DiskType.d64, .d71, .d81],
    ∃ n, subU ty.format.directoryTrack ty.format.firstTrack = .ok (directoryTrack ty - 1) ∧
    addU8 ty.format.lastTrack 1 = .ok (bamTracks ty + 1) ∧
    subU (bamTracks ty + 1) ty.format.directoryTrack = .ok n ∧
    firstSeq ty.format ((List.range (max (directoryTrack ty - 1) n)).map (· + 1)) =
      (firstTracks ty, .err .diskFull) := by
  intro ty hty
  simp only [List.mem_cons, List.not_mem_nil, or_false] at hty
  rcases hty with rfl | rfl | rfl
  · exact ⟨18, by decide +kernel⟩
  · exact ⟨53, by decide +kernel⟩
  · exact ⟨41, by decide +kernel⟩

theorem find?_map_fst {α β : Type _} (f : α → β) (q : β → Bool) (l : List α) :
    (l.map f).find? q = (l.find? fun a => q (f a)).map f := by
  induction l with
  | nil => rfl
  | cons a l ih =>
    simp only [List.map_cons, List.find?_cons]
    cases q (f a) <;> simp [ih]

/-- **C76** The first block of a file is exactly the one the policy names. -/
theorem C76_first (h : Consistent b ty) :
    b.nextFreeBlock none = orFull (firstBlock ty b.format.geos (freeAt b)) := by
  unfold firstBlock
  cases hg : b.format.geos with
  | true =>
    rw [nextFreeBlock_none_geos h.toBamOf hg, C76_next h (valid_first ty), hg]; rfl
  | false =>
    rw [nextFreeBlock_none_cbm h.toBamOf hg]
    simp only [Bool.false_eq_true, if_false]
    have heq : (fmt ty false) = ty.format := by cases ty <;> rfl
    obtain ⟨n, c1, c2, c3, c4⟩ := firstSeq_order ty (mem_diskTypes ty)
    have htrack : (fmt ty false).firstFreeTrack b =
        firstAvailTrack b (.err .diskFull) (firstTracks ty) := by
      rw [heq]
      unfold DiskFormat.firstFreeTrack
      rw [c1, res_bind_ok, c2, res_bind_ok, c3, res_bind_ok, firstFreeTrackLoop_seq, c4]
    have hgf : (fmt ty false).geos = false := rfl
    have hrange : ∀ t ∈ firstTracks ty, 1 ≤ t ∧ t ≤ bamTracks ty := by
      intro t ht
      have := (List.mem_filter.1 ht).2
      simpa using this
    unfold DiskFormat.firstFreeBlock
    rw [hgf, if_neg (by decide), htrack, firstAvailTrack_eq]
    have hfind := firstAvail_find h (.err .diskFull) ((firstTracks ty).map fun t => (t, false))
      (by
        intro x hx
        obtain ⟨t, ht, rfl⟩ := List.mem_map.1 hx
        exact hrange t ht)
    rw [find?_map_fst] at hfind
    cases hx : (firstTracks ty).find? fun t => anyFree ty (freeAt b) t with
    | none =>
      rw [hx] at hfind
      simp only [Option.map_none] at hfind
      rw [hfind]; rfl
    | some t =>
      rw [hx] at hfind
      obtain ⟨e, he, hent⟩ := hfind
      have hany : anyFree ty (freeAt b) t = true := by
        have := List.find?_some hx; exact this
      have hr := hrange t (List.mem_of_find?_eq_some hx)
      obtain ⟨r, hr'⟩ := sectorFrom_some (ty := ty) (freeAt b) (s := 0) hany
      rw [he]
      simp only [Except.map, res_bind_ok]
      rw [sectorsInTrack_ok false hr.1 hr.2, res_bind_ok]
      have fb := firstBit_find (sectorsPerTrack ty t) 0 e.sectorMap
      have hl : ((List.range (sectorsPerTrack ty t)).map (0 + ·)) =
          (List.range (sectorsPerTrack ty t)).map fun k => (0 + k) % sectorsPerTrack ty t := by
        apply List.map_congr_left
        intro k hk
        rw [List.mem_range] at hk
        rw [Nat.zero_add, Nat.mod_eq_of_lt hk]
      rw [BitVec.ushiftRight_zero, hl, ← freeAt_map hr.1 hent] at fb
      rw [fb]
      unfold sectorFrom at hr' ⊢
      simp only [Option.bind_some]
      rw [hr']; rfl

example : (freshBam .d64).nextFreeBlock none = .ok ⟨17, 0⟩ ∧
    (freshBam .d64).nextFreeBlock (some ⟨17, 0⟩) = .ok ⟨17, 10⟩ ∧
    (freshBam .d64).nextFreeBlock (some ⟨17, 19⟩) = .ok ⟨17, 7⟩ ∧
    (freshBam .d71).nextFreeBlock (some ⟨53, 2⟩) = .ok ⟨53, 8⟩ ∧
    (freshBam .d81).nextFreeBlock (some ⟨40, 3⟩) = .ok ⟨40, 4⟩ := by
  refine ⟨?_, ?_, ?_, ?_, ?_⟩
  · rw [C76_first (freshBam_consistent .d64)]; decide +kernel
  · rw [C76_next (freshBam_consistent .d64) (by decide)]; decide +kernel
  · rw [C76_next (freshBam_consistent .d64) (by decide)]; decide +kernel
  · rw [C76_next (freshBam_consistent .d71) (by decide)]; decide +kernel
  · rw [C76_next (freshBam_consistent .d81) (by decide)]; decide +kernel

end Cbm
