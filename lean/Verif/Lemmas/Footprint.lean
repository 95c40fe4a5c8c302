import Verif.Lemmas.SafeCreate
import Verif.Spec.Footprint
/-!
# What the operations change, on any image
-/

namespace Cbm
open Spec

variable {s : Shape} {A A' : Location → Nat → Prop} {G : Location → Prop} {d d' d0 d1 d2 : Device}
  {l : Location} {α β : Type}

/-! ## Images that differ in a few bytes -/

theorem sameBut_refl (img : List Byte) : SameBut s A img img := ⟨rfl, fun _ _ _ _ _ => rfl, fun _ _ => rfl⟩

theorem Spec.SameBut.trans {a b c : List Byte} (h1 : SameBut s A a b) (h2 : SameBut s A b c) : SameBut s A a c :=
  ⟨h2.1.trans h1.1, fun l j hv hj ha => (h2.2.1 l j hv hj ha).trans (h1.2.1 l j hv hj ha),
    fun i hi => (h2.2.2 i hi).trans (h1.2.2 i hi)⟩

theorem Spec.SameBut.mono {a b : List Byte} (h : SameBut s A a b) (hA : ∀ l j, A l j → A' l j) : SameBut s A' a b :=
  ⟨h.1, fun l j hv hj ha => h.2.1 l j hv hj fun h' => ha (hA l j h'), h.2.2⟩

theorem changesOnly_refl (d : Device) : ChangesOnly s A d d :=
  ⟨[], rfl, fun img hi => by rw [List.mem_singleton.1 hi]; exact sameBut_refl _⟩

theorem Spec.ChangesOnly.last (h : ChangesOnly s A d d') : SameBut s A d.image.bytes d'.image.bytes := by
  obtain ⟨new, -, h⟩ := h
  exact h _ (by simp)

theorem Spec.ChangesOnly.trans (h1 : ChangesOnly s A d d1) (h2 : ChangesOnly s A d1 d2) : ChangesOnly s A d d2 := by
  have hl := h1.last
  obtain ⟨n1, e1, h1⟩ := h1
  obtain ⟨n2, e2, h2⟩ := h2
  refine ⟨n2 ++ n1, by rw [e2, e1, List.append_assoc], fun img hi => ?_⟩
  rw [← List.cons_append, List.mem_append] at hi
  rcases hi with hi | hi
  · exact hl.trans (h2 img hi)
  · exact h1 img (List.mem_cons_of_mem _ hi)

theorem Spec.ChangesOnly.mono (h : ChangesOnly s A d d') (hA : ∀ l j, A l j → A' l j) : ChangesOnly s A' d d' := by
  obtain ⟨new, e, h⟩ := h
  exact ⟨new, e, fun img hi => (h img hi).mono hA⟩

/-- Storing a sector. -/
theorem changesOnly_put (hw : Wf d s) (hv : s.Valid l) {new : List Byte} (hn : new.length = 256)
    (h : ∀ j, j < 256 → ¬ A l j → new[j]? = (d.blk s l)[j]?) : ChangesOnly s A d (d.put s l new) := by
  have hb := hw.bound hv
  have hlt := sectorNumber_lt hv
  have key : SameBut s A d.image.bytes (splice d.image.bytes (256 * sectorNumber s.type l) new) := by
    refine ⟨length_splice _ _ _ (by omega), fun l' j hv' hj ha => ?_, fun i hi => ?_⟩
    · rw [getElem?_splice _ _ _ _ (by omega)]
      by_cases he : l' = l
      · subst he
        rw [if_neg (by omega), if_pos (by omega), Nat.add_sub_cancel_left, h j hj ha]
        show (slice _ _ _)[j]? = _
        rw [getElem?_slice, if_pos hj]
      · have hne : sectorNumber s.type l' ≠ sectorNumber s.type l := fun e => he (sectorNumber_inj hv' hv e)
        split
        · rfl
        · rw [if_neg (by omega)]
    · simp only [Shape.sectors] at hi
      rw [getElem?_splice _ _ _ _ (by omega), if_neg (by omega), if_neg (by omega)]
  refine ⟨[splice d.image.bytes (256 * sectorNumber s.type l) new], rfl, fun img hi => ?_⟩
  have : img = splice d.image.bytes (256 * sectorNumber s.type l) new := by
    rcases List.mem_cons.1 hi with hi | hi
    · exact hi
    · exact List.mem_singleton.1 hi
  rw [this]
  exact key

/-- Writing a sector, whatever comes of it. -/
theorem changesOnly_sectorMut (hw : Wf d s) {f : List Byte → Res (List Byte)} (hk : KeepLen f)
    (hf : s.Valid l → ∀ n, f (d.blk s l) = .ok n → ∀ j, j < 256 → ¬ A l j → n[j]? = (d.blk s l)[j]?)
    (h : d.sectorMut l f = .ok d') : Wf d' s ∧ ChangesOnly s A d d' := by
  by_cases hwr : Writable d
  · by_cases hv : s.Valid l
    · rw [hw.sectorMut_eq hwr hv] at h
      cases hn : f (d.blk s l) with
      | error e => rw [hn] at h; cases h
      | ok n =>
        rw [hn] at h
        cases h
        have hlen : n.length = 256 := hk _ _ (hw.blk_length hv) hn
        exact ⟨hw.put hv hlen, changesOnly_put hw hv hlen (hf hv n hn)⟩
    · rw [hw.sectorMut_invalid hwr hv] at h; cases h
  · rw [sectorMut_readOnly' hwr] at h; cases h

/-- Every call keeps the error table, in every image on the way. -/
def Inside (d d' : Device) : Prop := ∀ s : Shape, Wf d s → Wf d' s ∧ ChangesOnly s (fun _ _ => True) d d'

instance : DevRel Inside where
  refl d s h := ⟨h, changesOnly_refl _⟩
  trans h1 h2 s h := ⟨(h2 s (h1 s h).1).1, (h1 s h).2.trans (h2 s (h1 s h).1).2⟩
  sectorMut hf h s hw := changesOnly_sectorMut hw hf (fun _ _ _ _ _ ha => absurd trivial ha) h

/-! ## Maps -/

theorem freeAt_modify {b b' : Bam} {t : Nat} {f : BamEntry → Res BamEntry} (h : b.modifyEntry t f = .ok b')
    {t' k : Nat} (hf : freeAt b' t' k = true) :
    freeAt b t' k = true ∨ t' = t ∧ ∃ e e', f e = .ok e' ∧ b.entries[t - 1]? = some e ∧ 1 ≤ t ∧
      e'.sectorMap.getLsbD k = true := by
  unfold Bam.modifyEntry at h
  obtain ⟨_, -, h⟩ := res_bind_eq_ok.1 h
  obtain ⟨i, hi, h⟩ := res_bind_eq_ok.1 h
  obtain ⟨e, he, h⟩ := res_bind_eq_ok.1 h
  obtain ⟨e', he', h⟩ := res_bind_eq_ok.1 h
  cases h
  have hi : 1 ≤ t ∧ i = t - 1 := by
    unfold subU at hi
    split at hi
    · cases hi; omega
    · cases hi
  obtain ⟨h1, rfl⟩ := hi
  have he : b.entries[t - 1]? = some e := by
    unfold indexRes at he
    split at he
    · cases he; assumption
    · cases he
  have hlt : t - 1 < b.entries.length := (List.getElem?_eq_some_iff.1 he).1
  unfold freeAt at hf
  simp only [List.getElem?_set, hlt, if_true] at hf
  by_cases ht : t - 1 = t' - 1
  · rw [if_pos ht] at hf
    simp only [Bool.and_eq_true, decide_eq_true_eq] at hf
    exact .inr ⟨by omega, e, e', he', he, h1, hf.2⟩
  · rw [if_neg ht] at hf
    exact .inl hf

theorem freeAt_allocate {b b' : Bam} (h : b.allocate l = .ok b') {t k : Nat} (hf : freeAt b' t k = true) :
    freeAt b t k = true := by
  rcases freeAt_modify h hf with h | ⟨rfl, e, e', he, hg, h1, hk⟩
  · exact h
  · unfold BamEntry.allocate at he
    split at he
    · rw [← Except.ok.inj he] at hk
      unfold freeAt
      rw [hg]
      have : (e.sectorMap &&& ~~~(1#64 <<< l.sector.toNat)).getLsbD k = true := hk
      rw [BitVec.getLsbD_and, Bool.and_eq_true] at this
      simp [h1, this.1]
    · cases he

theorem freeAt_free {b b' : Bam} (h : b.free l = .ok b') {t k : Nat} (hf : freeAt b' t k = true) :
    freeAt b t k = true ∨ t = l.track.toNat ∧ k = l.sector.toNat := by
  rcases freeAt_modify h hf with h | ⟨rfl, e, e', he, hg, h1, hk⟩
  · exact .inl h
  · unfold BamEntry.free at he
    split at he
    · rename_i hlt
      rw [← Except.ok.inj he] at hk
      have hk : (e.sectorMap ||| (1#64 <<< l.sector.toNat)).getLsbD k = true := hk
      rw [BitVec.getLsbD_or, Bool.or_eq_true] at hk
      rcases hk with hk | hk
      · left
        unfold freeAt
        rw [hg]
        simp [h1, hk]
      · right
        refine ⟨rfl, ?_⟩
        simp only [BitVec.getLsbD_shiftLeft, Bool.and_eq_true, decide_eq_true_eq, Bool.not_eq_true',
          decide_eq_false_iff_not, BitVec.getLsbD_one] at hk
        omega
    · cases he

theorem isFree_allocate {b b' : Bam} (h : b.allocate l = .ok b') {m : Location} (hf : isFree b' m = true) :
    isFree b m = true := freeAt_allocate h hf

theorem isFree_free {b b' : Bam} (h : b.free l = .ok b') {m : Location} (hf : isFree b' m = true) :
    isFree b m = true ∨ m = l := by
  rcases freeAt_free h hf with h | ⟨h1, h2⟩
  · exact .inl h
  · right
    cases m; cases l
    simp only [Location.mk.injEq]
    exact ⟨UInt8.toNat.inj h1, UInt8.toNat.inj h2⟩

end Cbm
