import Verif.Spec.Header
import Verif.Lemmas.Steps
import Verif.Lemmas.Open
/-!
# Writing the disk header
-/

namespace Cbm
open Spec

/-- Several fields written one after the other. -/
def splices (block : List Byte) (ws : List (Nat × List Byte)) : List Byte :=
  ws.foldl (fun b w => splice b w.1 w.2) block

theorem length_splices : ∀ {ws : List (Nat × List Byte)} {block : List Byte},
    (∀ w ∈ ws, w.1 + w.2.length ≤ block.length) → (splices block ws).length = block.length
  | [], _, _ => rfl
  | w :: ws, block, h => by
    have h1 := length_splice block w.1 w.2 (h w (by simp))
    show (splices (splice block w.1 w.2) ws).length = _
    rw [length_splices (by rw [h1]; exact fun x hx => h x (by simp [hx])), h1]

theorem getElem?_splices : ∀ {ws : List (Nat × List Byte)} {block : List Byte} {j : Nat},
    (∀ w ∈ ws, w.1 + w.2.length ≤ block.length) → (∀ w ∈ ws, j < w.1 ∨ w.1 + w.2.length ≤ j) →
    (splices block ws)[j]? = block[j]?
  | [], _, _, _, _ => rfl
  | w :: ws, block, j, h, hj => by
    have h1 := length_splice block w.1 w.2 (h w (by simp))
    show (splices (splice block w.1 w.2) ws)[j]? = _
    rw [getElem?_splices (by rw [h1]; exact fun x hx => h x (by simp [hx]))
      (fun x hx => hj x (by simp [hx])),
      getElem?_splice _ _ _ _ (by have := h w (by simp); omega)]
    rcases hj w (by simp) with h2 | h2
    · rw [if_pos h2]
    · rw [if_neg (by omega), if_neg (by omega)]

theorem slice_splices_other {ws : List (Nat × List Byte)} {block : List Byte} {o n : Nat}
    (h : ∀ w ∈ ws, w.1 + w.2.length ≤ block.length)
    (hj : ∀ w ∈ ws, o + n ≤ w.1 ∨ w.1 + w.2.length ≤ o) :
    slice (splices block ws) o n = slice block o n := by
  apply List.ext_getElem?
  intro i
  rw [getElem?_slice, getElem?_slice]
  split
  · refine getElem?_splices h fun w hw => ?_
    have := hj w hw
    omega
  · rfl

theorem slice_splices_mem : ∀ {ws : List (Nat × List Byte)} {block : List Byte},
    (∀ w ∈ ws, w.1 + w.2.length ≤ block.length) →
    ws.Pairwise (fun a b => a.1 + a.2.length ≤ b.1 ∨ b.1 + b.2.length ≤ a.1) →
    ∀ w ∈ ws, slice (splices block ws) w.1 w.2.length = w.2
  | [], _, _, _, _, hw => by cases hw
  | x :: ws, block, h, hp, w, hw => by
    have h1 := length_splice block x.1 x.2 (h x (by simp))
    have hp' := List.pairwise_cons.1 hp
    have hb : ∀ y ∈ ws, y.1 + y.2.length ≤ (splice block x.1 x.2).length := by
      rw [h1]; exact fun y hy => h y (by simp [hy])
    show slice (splices (splice block x.1 x.2) ws) _ _ = _
    rcases List.mem_cons.1 hw with rfl | hw
    · rw [slice_splices_other hb (fun y hy => hp'.1 y hy),
        slice_splice_same _ _ _ (h _ (by simp))]
    · exact slice_splices_mem hb hp'.2 w hw

/-- What is written into the header sector. -/
def headerFields (ty : DiskType) (hd : Header) : List (Nat × List Byte) :=
  let h := ty.format.header
  [(h.firstDirectoryOffset, [hd.firstDirectorySector.track, hd.firstDirectorySector.sector]),
   (h.diskFormatTypeOffset, [hd.diskFormatType]),
   (h.diskNameOffset, paddedName hd.diskName),
   (h.diskIdOffset, [hd.diskId.1]),
   (h.diskIdOffset + 1, [hd.diskId.2]),
   (h.directoryDosVersionOffset, [hd.directoryDosVersion]),
   (h.directoryFormatTypeOffset, [hd.directoryFormatType])] ++
  (match h.doubleSidedFlagExpectation with
   | some (o, v) => [(o, [v])]
   | none => []) ++ h.paddingOffsets.map fun o => (o, [PADDING_BYTE])

/-- Where. -/
def headerPlaces (ty : DiskType) : List (Nat × Nat) :=
  let h := ty.format.header
  [(h.firstDirectoryOffset, 2), (h.diskFormatTypeOffset, 1), (h.diskNameOffset, 16),
   (h.diskIdOffset, 1), (h.diskIdOffset + 1, 1), (h.directoryDosVersionOffset, 1),
   (h.directoryFormatTypeOffset, 1)] ++
  (match h.doubleSidedFlagExpectation with
   | some (o, _) => [(o, 1)]
   | none => []) ++ h.paddingOffsets.map fun o => (o, 1)

variable {ty : DiskType} {hd : Header} {block : List Byte} {d : Device} {s : Shape}

theorem length_paddedName {name : List Byte} (h : name.length ≤ 16) :
    (paddedName name).length = 16 := by
  unfold paddedName
  rw [List.length_append, List.length_replicate]
  omega

theorem headerFields_places (hn : hd.diskName.length ≤ 16) :
    (headerFields ty hd).map (fun w => (w.1, w.2.length)) = headerPlaces ty := by
  have h16 := length_paddedName hn
  cases ty <;> simp [headerFields, headerPlaces, h16, DiskType.format, D64.DISK_FORMAT,
    D71.DISK_FORMAT, D81.DISK_FORMAT, D64.HEADER_FORMAT, D71.HEADER_FORMAT, D81.HEADER_FORMAT]

theorem headerPlaces_bound (ty : DiskType) : ∀ p ∈ headerPlaces ty, p.1 + p.2 ≤ 256 := by
  cases ty <;> decide

theorem headerPlaces_apart (ty : DiskType) :
    (headerPlaces ty).Pairwise fun a b => a.1 + a.2 ≤ b.1 ∨ b.1 + b.2 ≤ a.1 := by
  cases ty <;> decide

theorem headerPlaces_area (ty : DiskType) : ∀ p ∈ headerPlaces ty, ∀ j, p.1 ≤ j → j < p.1 + p.2 →
    headerArea ty (headerSector ty) j := by
  have h : ∀ p ∈ headerPlaces ty, ∀ j, j < 256 → p.1 ≤ j → j < p.1 + p.2 →
      headerArea ty (headerSector ty) j := by
    cases ty <;> simp only [headerArea, headerSector] <;> decide +kernel
  intro p hp j h1 h2
  exact h p hp j (by have := headerPlaces_bound ty p hp; omega) h1 h2

theorem fields_bound (hn : hd.diskName.length ≤ 16) (hb : block.length = 256) :
    ∀ w ∈ headerFields ty hd, w.1 + w.2.length ≤ block.length := by
  intro w hw
  rw [hb]
  have : (w.1, w.2.length) ∈ headerPlaces ty := by
    rw [← headerFields_places hn]
    exact List.mem_map.2 ⟨w, hw, rfl⟩
  exact headerPlaces_bound ty _ this

theorem fields_apart (hn : hd.diskName.length ≤ 16) :
    (headerFields ty hd).Pairwise fun a b => a.1 + a.2.length ≤ b.1 ∨ b.1 + b.2.length ≤ a.1 := by
  have := headerPlaces_apart ty
  rw [← headerFields_places hn, List.pairwise_map] at this
  exact this

theorem render_fields (hn : hd.diskName.length ≤ 16) :
    hd.render ty.format.header block = .ok (splices block (headerFields ty hd)) := by
  unfold Header.render writeBytesWithPadding
  rw [if_neg (by simp [DISK_NAME_SIZE]; omega)]
  cases ty <;> rfl

theorem render_tooLong (hn : 16 < hd.diskName.length) :
    hd.render ty.format.header block = fail .filenameTooLong := by
  unfold Header.render writeBytesWithPadding
  rw [if_pos (by simp [DISK_NAME_SIZE]; omega)]

theorem headerSector_format (ty : DiskType) : ty.format.header.location = headerSector ty := by
  cases ty <;> rfl

theorem byteAt_of_slice_eq {xs ys : List Byte} {o n : Nat} (h : slice xs o n = ys) (k : Nat)
    (hk : k < n) : byteAt xs (o + k) = byteAt ys k := by
  rw [← h, byteAt_slice _ _ _ _ hk]

theorem slice_byte {xs : List Byte} {o : Nat} {x : Byte} (h : slice xs o 1 = [x]) :
    byteAt xs o = x := by
  have := byteAt_of_slice_eq h 0 (by omega)
  exact this

theorem parse_rendered (hn : hd.diskName.length ≤ 16) (hb : block.length = 256) :
    Header.parse ty.format.header (splices block (headerFields ty hd)) =
      .ok { hd with diskName := paddedName hd.diskName, geos := GEOSDiskHeader.new block } := by
  have hm := slice_splices_mem (fields_bound (ty := ty) hn hb) (fields_apart hn)
  have h16 := length_paddedName hn
  generalize hy : splices block (headerFields ty hd) = y at *
  have hg : GEOSDiskHeader.new y = GEOSDiskHeader.new block := by
    have hsl : ∀ o n, (∀ p ∈ headerPlaces ty, o + n ≤ p.1 ∨ p.1 + p.2 ≤ o) →
        slice y o n = slice block o n := by
      intro o n hp
      rw [← hy]
      refine slice_splices_other (fields_bound hn hb) fun w hw => ?_
      refine hp (w.1, w.2.length) ?_
      rw [← headerFields_places hn]
      exact List.mem_map.2 ⟨w, hw, rfl⟩
    have hbt : ∀ o, (∀ p ∈ headerPlaces ty, o + 1 ≤ p.1 ∨ p.1 + p.2 ≤ o) →
        byteAt y o = byteAt block o := by
      intro o hp
      have := byteAt_of_slice_eq (hsl o 1 hp) 0 (by omega)
      rw [byteAt_slice _ _ _ _ (by omega)] at this
      exact this
    unfold GEOSDiskHeader.new
    rw [hsl 0xAD GEOS_SIGNATURE.length (by cases ty <;> decide), hsl 0xAD 16 (by cases ty <;> decide),
      hbt 0xAB (by cases ty <;> decide), hbt 0xAC (by cases ty <;> decide)]
  have h1 := hm _ (show (ty.format.header.firstDirectoryOffset,
    [hd.firstDirectorySector.track, hd.firstDirectorySector.sector]) ∈ headerFields ty hd from by
      simp [headerFields])
  have h2 := hm _ (show (ty.format.header.diskFormatTypeOffset, [hd.diskFormatType]) ∈
    headerFields ty hd from by simp [headerFields])
  have h3 := hm _ (show (ty.format.header.diskNameOffset, paddedName hd.diskName) ∈
    headerFields ty hd from by simp [headerFields])
  have h4 := hm _ (show (ty.format.header.diskIdOffset, [hd.diskId.1]) ∈
    headerFields ty hd from by simp [headerFields])
  have h5 := hm _ (show (ty.format.header.diskIdOffset + 1, [hd.diskId.2]) ∈
    headerFields ty hd from by simp [headerFields])
  have h6 := hm _ (show (ty.format.header.directoryDosVersionOffset, [hd.directoryDosVersion]) ∈
    headerFields ty hd from by simp [headerFields])
  have h7 := hm _ (show (ty.format.header.directoryFormatTypeOffset, [hd.directoryFormatType]) ∈
    headerFields ty hd from by simp [headerFields])
  simp only [List.length_cons, List.length_nil, h16, Nat.zero_add] at h1 h2 h3 h4 h5 h6 h7
  have h1a : byteAt y ty.format.header.firstDirectoryOffset = hd.firstDirectorySector.track := by
    exact byteAt_of_slice_eq h1 0 (by omega)
  have h1b : byteAt y (ty.format.header.firstDirectoryOffset + 1) =
      hd.firstDirectorySector.sector := by
    exact byteAt_of_slice_eq h1 1 (by omega)
  have hflag : flagOK ty.format.header y = true := by
    unfold flagOK
    cases hfl : ty.format.header.doubleSidedFlagExpectation with
    | none => rfl
    | some p =>
      obtain ⟨o, v⟩ := p
      have := hm _ (show (o, [v]) ∈ headerFields ty hd from by simp [headerFields, hfl])
      simp only [List.length_cons, List.length_nil, Nat.zero_add] at this
      simp only [slice_byte this, beq_self_eq_true]
  unfold Header.parse
  rw [if_pos hflag, h1a, h1b, slice_byte h2, hg, slice_byte h6, slice_byte h7]
  congr 1
  have hid : idFromBytes (slice y ty.format.header.diskIdOffset 2) = hd.diskId := by
    unfold idFromBytes
    rw [byteAt_slice _ _ _ _ (by omega), byteAt_slice _ _ _ _ (by omega)]
    simp only [Nat.add_zero]
    rw [slice_byte h4, slice_byte h5]
  rw [hid, show DISK_NAME_SIZE = 16 from rfl, h3]

/-- Writing the header. -/
theorem headerWrite_ok (h : Wf d s) (hw : Writable d) (hn : hd.diskName.length ≤ 16) :
    ∃ new, Header.write hd s.type.format.header d =
        (.ok (), d.put s (headerSector s.type) new) ∧ new.length = 256 ∧
      s.Valid (headerSector s.type) ∧
      Header.read (d.put s (headerSector s.type) new) s.type.format.header =
        .ok { hd with diskName := paddedName hd.diskName
                      geos := GEOSDiskHeader.new (d.blk s (headerSector s.type)) } ∧
      ∀ j, ¬ headerArea s.type (headerSector s.type) j →
        new[j]? = (d.blk s (headerSector s.type))[j]? := by
  have hv : s.Valid (headerSector s.type) := by
    rw [← headerSector_format]; exact header_valid s h.shape
  have hlen := h.blk_length hv
  have hnew : (splices (d.blk s (headerSector s.type)) (headerFields s.type hd)).length = 256 := by
    rw [length_splices (fields_bound hn hlen), hlen]
  refine ⟨splices (d.blk s (headerSector s.type)) (headerFields s.type hd), ?_, hnew, hv, ?_, ?_⟩
  · unfold Header.write
    rw [headerSector_format, M.bind_of_ok (s := d) (s' := d) (by rw [M.run_read, h.sector hv]),
      M.bind_of_ok (s := d) (s' := d) (by rw [M.run_lift, render_fields hn])]
    unfold M.sectorMut
    rw [M.update_ok (h.sectorMut_ok hw hv (new := splices (d.blk s (headerSector s.type))
      (headerFields s.type hd)) (by
        unfold copyFromSlice
        rw [if_pos (by rw [hnew, hlen])]))]
  · rw [(h.put hv hnew).headerRead, headerSector_format, h.blk_put_same hv hnew,
      parse_rendered hn hlen]
  · intro j hj
    refine getElem?_splices (fields_bound hn hlen) fun w hw => ?_
    have hp : (w.1, w.2.length) ∈ headerPlaces s.type := by
      rw [← headerFields_places hn]
      exact List.mem_map.2 ⟨w, hw, rfl⟩
    have := headerPlaces_area s.type _ hp j
    apply Classical.byContradiction
    intro hc
    exact hj (this (by omega) (by simp only []; omega))

end Cbm
