import Verif.Lemmas.Slice
import Verif.Lemmas.M
import Verif.Lemmas.Layout
/-!
# Laws of sector access

`Device.blk d l` is the contents of an existing sector and `Device.put d l new`
the device after storing `new` there; upper layers use only the laws below.
-/

namespace Cbm
open Spec

/-- The device after storing `new` in sector `l`. -/
def Device.put (d : Device) (s : Shape) (l : Location) (new : List Byte) : Device :=
  { d with
    image := { d.image with bytes := splice d.image.bytes (256 * sectorNumber s.type l) new }
    hist := splice d.image.bytes (256 * sectorNumber s.type l) new :: d.hist }

variable {d : Device} {s : Shape} {l l' : Location}

theorem Spec.Wf.getOffset (h : Wf d s) (hl : s.Valid l) :
    d.getOffset l = .ok (256 * sectorNumber s.type l) := by
  obtain ⟨_, hg, ht, _, _⟩ := h
  obtain ⟨h1, h2, h3⟩ := hl
  obtain ⟨row, hr, hs, hb⟩ := row_of_geometry hg h1 (by omega)
  unfold Device.getOffset trackRow
  rw [if_neg (by simp; omega)]
  simp only [hr, res_bind_ok]
  rw [if_neg (by omega), hb, res_pure]
  congr 1
  simp only [sectorNumber, BLOCK_SIZE]; omega

theorem Spec.Wf.getOffset_invalid (h : Wf d s) (hl : ¬ s.Valid l) :
    d.getOffset l = fail .invalidLocation := by
  obtain ⟨_, hg, ht, _, _⟩ := h
  unfold Device.getOffset
  simp only
  split
  · rfl
  · rename_i hr
    simp at hr
    obtain ⟨row, hrow, hs, hb⟩ := row_of_geometry (i := l.track.toNat) hg (by omega) (by omega)
    simp only [trackRow, hrow, res_bind_ok]
    rw [if_pos]
    rw [hs]
    by_cases hlt : l.sector.toNat < sectorsPerTrack s.type l.track.toNat
    · exact absurd ⟨by omega, by omega, hlt⟩ hl
    · omega

theorem Spec.Wf.bound (h : Wf d s) (hl : s.Valid l) :
    256 * sectorNumber s.type l + 256 ≤ d.image.bytes.length := by
  have := sectorNumber_lt hl
  rw [h.size]
  simp only [Shape.size, Shape.sectors]
  omega

theorem Spec.Wf.blk_length (h : Wf d s) (hl : s.Valid l) : (d.blk s l).length = 256 :=
  length_slice _ _ _ (h.bound hl)

theorem Spec.Wf.sector (h : Wf d s) (hl : s.Valid l) : d.sector l = .ok (d.blk s l) := by
  have hb := h.bound hl
  unfold Device.sector
  rw [h.getOffset hl, res_bind_ok]
  unfold Image.slice Image.checkBounds Image.len BLOCK_SIZE
  rw [if_neg (by omega)]
  rfl

theorem Spec.Wf.sector_invalid (h : Wf d s) (hl : ¬ s.Valid l) :
    d.sector l = fail .invalidLocation := by
  unfold Device.sector; rw [h.getOffset_invalid hl]; rfl

theorem sectorMut_readOnly (hr : d.image.kind = .readOnlyMap) (f) :
    d.sectorMut l f = fail .readOnly := by
  unfold Device.sectorMut Image.checkWritability; rw [hr]; rfl

theorem checkWritability_ok (hw : Writable d) : d.image.checkWritability = .ok () := by
  unfold Image.checkWritability
  unfold Writable at hw
  cases h : d.image.kind <;> simp_all

theorem Spec.Wf.sectorMut_invalid (h : Wf d s) (hw : Writable d) (hl : ¬ s.Valid l) (f) :
    d.sectorMut l f = fail .invalidLocation := by
  unfold Device.sectorMut
  rw [checkWritability_ok hw, h.getOffset_invalid hl]; rfl

theorem Spec.Wf.sectorMut_eq (h : Wf d s) (hw : Writable d) (hl : s.Valid l) (f) :
    d.sectorMut l f = (f (d.blk s l)).map fun new => d.put s l new := by
  have hb := h.bound hl
  unfold Device.sectorMut
  rw [checkWritability_ok hw, h.getOffset hl]
  simp only [res_bind_ok]
  unfold Image.sliceMut Image.checkBounds Image.len BLOCK_SIZE
  rw [if_neg (by omega)]
  simp only [res_bind_ok]
  unfold Writable at hw
  unfold Device.blk Device.put
  cases hk : d.image.kind <;> simp only [hk, ne_eq, not_true_eq_false, reduceCtorEq,
    not_false_eq_true] at hw ⊢
  all_goals
    cases hf : f (slice d.image.bytes (256 * sectorNumber s.type l) 256) <;>
      simp [Except.map]

theorem Spec.Wf.sectorMut_ok (h : Wf d s) (hw : Writable d) (hl : s.Valid l)
    {f : List Byte → Res (List Byte)} {new : List Byte} (hf : f (d.blk s l) = .ok new) :
    d.sectorMut l f = .ok (d.put s l new) := by
  rw [h.sectorMut_eq hw hl, hf]; rfl

theorem Spec.Wf.sectorMut_error (h : Wf d s) (hw : Writable d) (hl : s.Valid l)
    {f : List Byte → Res (List Byte)} {e : Fail} (hf : f (d.blk s l) = .error e) :
    d.sectorMut l f = .error e := by
  rw [h.sectorMut_eq hw hl, hf]; rfl

theorem Spec.Wf.sector_isOk (h : Wf d s) {b : List Byte} (hb : d.sector l = .ok b) :
    s.Valid l ∧ b = d.blk s l := by
  by_cases hl : s.Valid l
  · rw [h.sector hl] at hb; cases hb; exact ⟨hl, rfl⟩
  · rw [h.sector_invalid hl] at hb; cases hb

theorem put_kind (new : List Byte) : (d.put s l new).image.kind = d.image.kind := rfl
theorem put_geometry (new : List Byte) : (d.put s l new).geometry = d.geometry := rfl

theorem Spec.Writable.put (hw : Writable d) (new : List Byte) : Writable (d.put s l new) := hw

theorem Spec.Wf.put (h : Wf d s) (hl : s.Valid l) {new : List Byte} (hn : new.length = 256) :
    Wf (d.put s l new) s := by
  have hb := h.bound hl
  obtain ⟨h0, h1, h2, h3, h4⟩ := h
  refine ⟨h0, h1, h2, h3, ?_⟩
  simp only [Device.put]
  rw [length_splice _ _ _ (by omega), h4]

theorem Spec.Wf.blk_put_same (h : Wf d s) (hl : s.Valid l) {new : List Byte}
    (hn : new.length = 256) : (d.put s l new).blk s l = new := by
  have hb := h.bound hl
  exact slice_splice_same' _ _ _ _ hn.symm (by omega)

theorem Spec.Wf.blk_put_other (h : Wf d s) (hl : s.Valid l) (hl' : s.Valid l')
    (hne : l' ≠ l) {new : List Byte} (hn : new.length = 256) :
    (d.put s l new).blk s l' = d.blk s l' := by
  have hb := h.bound hl
  have : sectorNumber s.type l' ≠ sectorNumber s.type l :=
    fun e => hne (sectorNumber_inj hl' hl e)
  unfold Device.blk Device.put
  apply slice_splice_disjoint
  · omega
  · omega

theorem Spec.Wf.blk_put (h : Wf d s) (hl : s.Valid l) (hl' : s.Valid l') {new : List Byte}
    (hn : new.length = 256) :
    (d.put s l new).blk s l' = if l' = l then new else d.blk s l' := by
  split
  · subst l'; exact h.blk_put_same hl hn
  · exact h.blk_put_other hl hl' ‹_› hn

/-- Two images of the same shape with the same sectors and the same trailing
bytes are equal (used for "the image is unchanged" claims). -/
theorem Spec.Wf.put_self (h : Wf d s) (hl : s.Valid l) :
    (d.put s l (d.blk s l)).image = d.image := by
  simp only [Device.put, Device.blk]
  rw [splice_slice_self _ _ _ (h.bound hl)]

end Cbm
