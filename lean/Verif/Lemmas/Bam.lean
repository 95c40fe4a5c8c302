import Verif.Lemmas.Bits
import Verif.Lemmas.Device
import Verif.Lemmas.List
import Verif.Spec.Bam
/-!
# The BAM in memory
-/

namespace Cbm
open Spec

variable {b b' : Bam} {ty : DiskType} {l : Location}

theorem indexRes_ok {α : Type} {xs : List α} {i : Nat} (h : i < xs.length) :
    indexRes xs i = .ok xs[i] := by
  unfold indexRes; rw [List.getElem?_eq_getElem h]

theorem subU_ok {a b : Nat} (h : b ≤ a) : subU a b = .ok (a - b) := by
  unfold subU; rw [if_pos h]

theorem addU8_ok {a b : Nat} (h : a + b < 256) : addU8 a b = .ok (a + b) := by
  unfold addU8; rw [if_pos h]

/-- The location is on a track recorded in the BAM, with a sector number that a
64-bit map can hold. -/
def Spec.InBam (ty : DiskType) (l : Location) : Prop :=
  1 ≤ l.track.toNat ∧ l.track.toNat ≤ bamTracks ty ∧ l.sector.toNat < 64

theorem Spec.ValidLoc.inBam (h : ValidLoc ty (bamTracks ty) l) : InBam ty l :=
  ⟨h.1, h.2.1, by have := sectorsPerTrack_le ty l.track.toNat; have := h.2.2; omega⟩

theorem checkValidity_ok (h : BamOf b ty) : b.checkValidity = .ok () := by
  unfold Bam.checkValidity; rw [h.live]; rfl

theorem Spec.BamOf.entry_ok (h : BamOf b ty) {t : Nat} (h1 : 1 ≤ t) (h2 : t ≤ bamTracks ty) :
    ∃ e, b.entries[t - 1]? = some e ∧ b.entry t = .ok e := by
  have hl : t - 1 < b.entries.length := by rw [h.length]; omega
  refine ⟨b.entries[t - 1], List.getElem?_eq_getElem hl, ?_⟩
  unfold Bam.entry
  rw [checkValidity_ok h, res_bind_ok, subU_ok h1, res_bind_ok, indexRes_ok hl]

theorem modifyEntry_ok (h : BamOf b ty) {t : Nat} (h1 : 1 ≤ t) (h2 : t ≤ bamTracks ty)
    {e e' : BamEntry} (he : b.entries[t - 1]? = some e) {f : BamEntry → Res BamEntry}
    (hf : f e = .ok e') :
    b.modifyEntry t f = .ok { b with entries := b.entries.set (t - 1) e' } := by
  have hl : t - 1 < b.entries.length := by rw [h.length]; omega
  rw [List.getElem?_eq_getElem hl] at he
  have he := Option.some.inj he
  unfold Bam.modifyEntry
  rw [checkValidity_ok h, res_bind_ok, subU_ok h1, res_bind_ok, indexRes_ok hl, he, res_bind_ok,
    hf]
  rfl

theorem freeAt_set (h : BamOf b ty) {t : Nat} (h1 : 1 ≤ t) (h2 : t ≤ bamTracks ty)
    (e' : BamEntry) (t' s' : Nat) :
    freeAt { b with entries := b.entries.set (t - 1) e' } t' s' =
      if t' = t then e'.sectorMap.getLsbD s' else freeAt b t' s' := by
  have hl : t - 1 < b.entries.length := by rw [h.length]; omega
  unfold freeAt
  simp only [List.getElem?_set, hl, if_true]
  by_cases ht : t' = t
  · subst ht; simp [h1]
  · rw [if_neg ht]
    by_cases h0 : t - 1 = t' - 1
    · have : t' = 0 := by omega
      subst this
      rw [if_pos h0]
      cases b.entries[0 - 1]? <;> simp
    · rw [if_neg h0]

theorem recorded_set (h : BamOf b ty) {t : Nat} (h1 : 1 ≤ t) (h2 : t ≤ bamTracks ty)
    (e' : BamEntry) (t' : Nat) (ht' : 1 ≤ t') :
    recorded { b with entries := b.entries.set (t - 1) e' } t' =
      if t' = t then some e'.freeSectors.toNat else recorded b t' := by
  have hl : t - 1 < b.entries.length := by rw [h.length]; omega
  unfold recorded
  simp only [List.getElem?_set, hl, if_true]
  by_cases ht : t' = t
  · subst ht; simp
  · rw [if_neg ht, if_neg (by omega)]

/-- Number of set bits in the 64-bit map of a track, existing sectors or not. -/
def bitsOn (b : Bam) (t : Nat) : Nat :=
  ((List.range 64).filter fun s => freeAt b t s).length

/-- What a successful update of one bit does. -/
structure Flip (b b' : Bam) (ty : DiskType) (l : Location) (v : Bool) : Prop where
  of : BamOf b' ty
  format : b'.format = b.format
  free : ∀ t s, freeAt b' t s =
    if t = l.track.toNat ∧ s = l.sector.toNat then v else freeAt b t s
  recordedSame : recorded b' l.track.toNat = some (bitsOn b' l.track.toNat)
  recordedOther : ∀ t, 1 ≤ t → t ≠ l.track.toNat → recorded b' t = recorded b t

theorem toNat_count (m : BitVec 64) : (UInt8.ofNat (countBits 64 m)).toNat = countBits 64 m := by
  have := countBits_le 64 m
  rw [UInt8.toNat_ofNat']; omega

theorem flip_of_set (h : BamOf b ty) (hl : InBam ty l) {v : Bool} {e : BamEntry} {m : BitVec 64}
    (he : b.entries[l.track.toNat - 1]? = some e)
    (hm : ∀ s, m.getLsbD s = if s = l.sector.toNat then v else e.sectorMap.getLsbD s) :
    Flip b { b with entries := (b.entries.set (l.track.toNat - 1)
      (BamEntry.updateFreeSectors ⟨e.freeSectors, m⟩)) } ty l v := by
  obtain ⟨h1, h2, h3⟩ := hl
  have hfree : ∀ t s, freeAt { b with entries := (b.entries.set (l.track.toNat - 1)
      (BamEntry.updateFreeSectors ⟨e.freeSectors, m⟩)) } t s =
      if t = l.track.toNat ∧ s = l.sector.toNat then v else freeAt b t s := by
    intro t s
    rw [freeAt_set h h1 h2]
    by_cases ht : t = l.track.toNat
    · subst ht
      simp only [if_true, BamEntry.updateFreeSectors, hm, true_and]
      split
      · rfl
      · unfold freeAt; rw [he]; simp [h1]
    · simp [ht]
  refine ⟨⟨h.format, ?_, h.live⟩, rfl, hfree, ?_, ?_⟩
  · simp [h.length]
  · rw [recorded_set h h1 h2 _ _ h1, if_pos rfl]
    have hc : (BamEntry.updateFreeSectors ⟨e.freeSectors, m⟩).freeSectors.toNat
        = countBits 64 m := toNat_count m
    have hfun : (fun s => m.getLsbD s) = fun s => freeAt { b with
        entries := (b.entries.set (l.track.toNat - 1)
          (BamEntry.updateFreeSectors ⟨e.freeSectors, m⟩)) } l.track.toNat s := by
      funext s
      rw [hfree]
      simp only [true_and, hm]
      split
      · rfl
      · unfold freeAt; rw [he]; simp [h1]
    rw [hc, countBits_eq, hfun, bitsOn]
  · intro t h4 h5
    rw [recorded_set h h1 h2 _ _ h4, if_neg h5]

theorem allocate_ok (h : BamOf b ty) (hl : InBam ty l) :
    ∃ b', b.allocate l = .ok b' ∧ Flip b b' ty l false := by
  obtain ⟨e, he, _⟩ := h.entry_ok hl.1 hl.2.1
  refine ⟨_, modifyEntry_ok h hl.1 hl.2.1 he (by unfold BamEntry.allocate; rw [if_pos hl.2.2]), ?_⟩
  apply flip_of_set h hl he
  intro s
  rw [getLsbD_clear _ _ _ hl.2.2]
  by_cases hs : s = l.sector.toNat <;> simp [hs]

theorem free_ok (h : BamOf b ty) (hl : InBam ty l) :
    ∃ b', b.free l = .ok b' ∧ Flip b b' ty l true := by
  obtain ⟨e, he, _⟩ := h.entry_ok hl.1 hl.2.1
  refine ⟨_, modifyEntry_ok h hl.1 hl.2.1 he (by unfold BamEntry.free; rw [if_pos hl.2.2]), ?_⟩
  apply flip_of_set h hl he
  intro s
  rw [getLsbD_setBit _ _ _ hl.2.2]
  by_cases hs : s = l.sector.toNat <;> simp [hs]

theorem freeAt_ge (h : BamOf b ty) {t s : Nat} (ht : bamTracks ty < t) : freeAt b t s = false := by
  unfold freeAt
  rw [List.getElem?_eq_none (by rw [h.length]; omega)]

theorem freeAt_zero (s : Nat) : freeAt b 0 s = false := by
  unfold freeAt; split <;> simp

theorem bitsOn_eq_freeOn {t : Nat} (hs : ∀ s, sectorsPerTrack ty t ≤ s → freeAt b t s = false) :
    bitsOn b t = freeOn b ty t := by
  unfold bitsOn freeOn
  have hle := sectorsPerTrack_le ty t
  obtain ⟨k, hk⟩ : ∃ k, 64 = sectorsPerTrack ty t + k := ⟨64 - sectorsPerTrack ty t, by omega⟩
  rw [hk, List.range_add, List.filter_append]
  have : List.filter (fun s => freeAt b t s)
      (List.map (fun x => sectorsPerTrack ty t + x) (List.range k)) = [] := by
    rw [List.filter_eq_nil_iff]
    intro x hx
    obtain ⟨y, _, rfl⟩ := List.mem_map.1 hx
    rw [hs _ (by omega)]; simp
  rw [this, List.append_nil]

/-- Changing the bit of an existing sector keeps the counts right. -/
theorem Flip.consistent {v : Bool} (hc : Consistent b ty) (hl : ValidLoc ty (bamTracks ty) l)
    (hf : Flip b b' ty l v) : Consistent b' ty := by
  have hstray : ∀ t s, sectorsPerTrack ty t ≤ s → freeAt b' t s = false := by
    intro t s hs
    rw [hf.free, if_neg, hc.noStray t s hs]
    rintro ⟨rfl, rfl⟩
    have := hl.2.2; omega
  refine ⟨hf.of, ?_, hstray⟩
  intro t h1 h2
  by_cases ht : t = l.track.toNat
  · subst ht
    rw [hf.recordedSame, bitsOn_eq_freeOn (hstray _)]
  · rw [hf.recordedOther t h1 ht, hc.counts t h1 h2]
    congr 1
    unfold freeOn
    congr 2
    funext s
    rw [hf.free, if_neg (by simp [ht])]

theorem isFree_flip {v : Bool} {m : Location} (hf : Flip b b' ty l v) :
    isFree b' m = if m = l then v else isFree b m := by
  unfold isFree
  rw [hf.free]
  by_cases h : m = l
  · subst h; simp
  · rw [if_neg h, if_neg]
    rintro ⟨h1, h2⟩
    exact h (loc_ext h1 h2)

end Cbm
