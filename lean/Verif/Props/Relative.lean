import Verif.Lemmas.Relative
import Verif.Props.Chain
/-!
# Relative files: C42, C43
-/

namespace Cbm
open Spec
variable {d : Device} {s : Shape} {entry : DirectoryEntry} {ex : RelativeExtra}
  {side data : List Location}

/-- The side sectors of the specification are what the walk finds. -/
theorem relative_of_sides (hw : Wf d s) (hx : entry.extra = .relative ex)
    (hs : SideSectors d s ex.firstSideSector side data) :
    RelativeFile.new d entry = relFinish d entry ex.recordLength.toNat side
      (side.map fun l => listedSides (d.blk s l)) data := by
  obtain ⟨content, hc⟩ := hs.chain
  obtain ⟨ls, e, hse, hp, h3, h4, h5, h6, _⟩ := isChain_iff_path.1 ⟨hs.start, hc⟩
  obtain ⟨ls', e', hp', hst', hnew⟩ := relative_new hw hx
  obtain ⟨rfl, rfl⟩ := path_unique hp' hst' hp (.inr (.inr h5))
  have hwh := hs.whole e' (by rw [hse]; simp)
  rw [hnew, if_neg h3, if_neg (fun h => h h4), if_neg h6, if_neg (by omega), if_neg (by omega),
    ← hse, hs.data]

/-- **C42** A well-formed relative file opens, has as many records as fit in its
data, and record `i` is the `i`-th slice of the data; there is no other record. -/
theorem C42_records {disk : Disk} {ref : Nat} {stream : List Byte} (hw : Wf disk.dev s)
    (hb : disk.bamRef = .ok ref) (hsc : entry.scheme = .relative) (hx : entry.extra = .relative ex)
    (hs : SideSectors disk.dev s ex.firstSideSector side data)
    (hd : DataStream disk.dev s data stream) (hL : ex.recordLength ≠ 0)
    (hm : ex.recordLength.toNat ∣ stream.length) :
    ∃ f : File, disk.openFileFromEntry entry = .ok (f, ref) ∧
      f.recordCount * ex.recordLength.toNat = stream.length ∧
      ∀ i, f.record disk.dev i =
        if i < f.recordCount then
          .ok (slice stream (i * ex.recordLength.toNat) ex.recordLength.toNat)
        else fail .invalidRecordIndex := by
  have hL' : ex.recordLength.toNat ≠ 0 := fun h => hL (UInt8.toNat.inj h)
  have hm' : stream.length % ex.recordLength.toNat = 0 := Nat.mod_eq_zero_of_dvd hm
  have hnew := relative_of_sides hw hx hs
  rw [relFinish_size hw hs.few (by
      intro l hl
      obtain ⟨x, hx, rfl⟩ := List.mem_map.1 hl
      exact hs.listed x hx) (DataStream.length hw hd),
    if_neg hL', if_neg (by simpa using hm')] at hnew
  refine ⟨.relative ⟨entry, ex.recordLength.toNat, data, side,
    stream.length / ex.recordLength.toNat⟩, ?_, ?_, ?_⟩
  · unfold Disk.openFileFromEntry File.fromEntry
    rw [hb, hsc]
    simp only [res_bind_ok, hnew, res_pure]
  · exact Nat.div_mul_cancel hm
  · intro i
    exact relative_record hw hd hL' (UInt8.toNat_lt _) hm' i

/-- **C42** The entries of relative files that open are exactly those with
well-formed side sectors whose data is a whole number of (non-empty) records. -/
theorem C42_open_iff (hw : Wf d s) (hx : entry.extra = .relative ex) (f : RelativeFile) :
    RelativeFile.new d entry = .ok f ↔
      ∃ side data size, SideSectors d s ex.firstSideSector side data ∧ DataSize d s data size ∧
        ex.recordLength ≠ 0 ∧ ex.recordLength.toNat ∣ size ∧
        f = ⟨entry, ex.recordLength.toNat, data, side, size / ex.recordLength.toNat⟩ := by
  constructor
  · intro h
    obtain ⟨ls, e, hp, hst, hnew⟩ := relative_new hw hx
    rw [h] at hnew
    split at hnew
    · cases hnew
    rename_i h1
    split at hnew
    · cases hnew
    rename_i h2
    split at hnew
    · cases hnew
    rename_i h3
    split at hnew
    · cases hnew
    rename_i h4
    split at hnew
    · cases hnew
    rename_i h5
    have hv : s.Valid e := Decidable.not_not.1 h2
    have h0 : byteAt (d.blk s e) 0 = 0 := by
      rcases hst with h | h | h
      · exact absurd h h1
      · exact absurd hv h
      · exact h
    obtain ⟨h6, hl, hL, size, hsz, hmod, hf⟩ := relFinish_ok hw hnew.symm
    obtain ⟨hhd, hch⟩ := isChain_iff_path.2 ⟨ls, e, rfl, hp, h1, hv, h0, h3, rfl⟩
    refine ⟨ls ++ [e], _, size, ⟨hhd, ⟨_, hch⟩, h6, ?_, ?_, rfl⟩, hsz,
      fun h => hL (by rw [h]; rfl), Nat.dvd_of_mod_eq_zero hmod, hf⟩
    · intro l hm
      exact hl _ (List.mem_map_of_mem hm)
    · intro l hm
      rcases List.mem_append.1 hm with hm | hm
      · unfold usedBytes
        rw [if_neg (hp.onward l hm)]
        exact ⟨by decide, by decide⟩
      · simp at hm
        subst hm
        exact ⟨by omega, by omega⟩
  · rintro ⟨side, data, size, hs, hsz, hL, hm, rfl⟩
    rw [relative_of_sides hw hx hs, relFinish_size hw hs.few (by
        intro l hl
        obtain ⟨x, hx, rfl⟩ := List.mem_map.1 hl
        exact hs.listed x hx) hsz,
      if_neg (show ¬ ex.recordLength.toNat = 0 from fun h => hL (UInt8.toNat.inj h)), if_neg (by
        have := Nat.mod_eq_zero_of_dvd hm
        simpa using this)]

/-- **C43** refuted: a relative file that is in order except that its record
length is zero panics when it is opened. -/
theorem C43_zero_length_refuted {size : Nat} (hw : Wf d s) (hx : entry.extra = .relative ex)
    (hs : SideSectors d s ex.firstSideSector side data) (hsz : DataSize d s data size)
    (hL : ex.recordLength = 0) : RelativeFile.new d entry = .error .panic := by
  rw [relative_of_sides hw hx hs, relFinish_size hw hs.few (by
      intro l hl
      obtain ⟨x, hx, rfl⟩ := List.mem_map.1 hl
      exact hs.listed x hx) hsz, if_pos (by rw [hL]; rfl)]

/-- **C43** refuted: a relative file whose last side sector uses fewer than
sixteen bytes panics when it is opened. -/
theorem C43_short_side_sector_refuted {ls : List Location} {e : Location} (hw : Wf d s)
    (hx : entry.extra = .relative ex) (hp : Path d s ex.firstSideSector ls e) (he : e ∉ ls)
    (hv : s.Valid e) (h0 : byteAt (d.blk s e) 0 = 0) (h1 : byteAt (d.blk s e) 1 ≠ 0)
    (h15 : (byteAt (d.blk s e) 1).toNat < 15) : RelativeFile.new d entry = .error .panic := by
  obtain ⟨ls', e', hp', hst', hnew⟩ := relative_new hw hx
  obtain ⟨rfl, rfl⟩ := path_unique hp' hst' hp (.inr (.inr h0))
  rw [hnew, if_neg he, if_neg (fun h => h hv), if_neg h1, if_pos]
  unfold usedBytes
  rw [if_pos h0]
  omega

/-- **C43** (partial: the record length is not zero, and the chain of side sectors
does not end in a sector with fewer than sixteen bytes).  Opening a relative file
returns the file or an error: no panic, and no endless loop. -/
theorem C43_returns_partial (hw : Wf d s) (hx : entry.extra = .relative ex)
    (hL : ex.recordLength ≠ 0)
    (hl : ∀ ls e, Path d s ex.firstSideSector ls e → s.Valid e → byteAt (d.blk s e) 0 = 0 →
      byteAt (d.blk s e) 1 = 0 ∨ 15 ≤ (byteAt (d.blk s e) 1).toNat) :
    (∃ f, RelativeFile.new d entry = .ok f) ∨ ∃ e, RelativeFile.new d entry = fail e := by
  have hL' : ex.recordLength.toNat ≠ 0 := fun h => hL (UInt8.toNat.inj h)
  obtain ⟨ls, e, hp, hst, hnew⟩ := relative_new hw hx
  rw [hnew]
  split
  · exact .inr ⟨_, rfl⟩
  rename_i h1
  split
  · exact .inr ⟨_, rfl⟩
  rename_i h2
  have hv : s.Valid e := Decidable.not_not.1 h2
  have h0 : byteAt (d.blk s e) 0 = 0 := by
    rcases hst with h | h | h
    · exact absurd h h1
    · exact absurd hv h
    · exact h
  split
  · exact .inr ⟨_, rfl⟩
  rename_i h3
  split
  · rename_i h4
    unfold usedBytes at h4
    rw [if_pos h0] at h4
    rcases hl ls e hp hv h0 with h | h
    · exact absurd h h3
    · omega
  split
  · exact .inr ⟨_, rfl⟩
  generalize (ls ++ [e]).flatMap (fun l => listedData (d.blk s l)) = data
  unfold relFinish
  split
  · exact .inr ⟨_, rfl⟩
  split
  · exact .inr ⟨_, rfl⟩
  have hlast : (∃ n, lastBlockBytes d data = .ok n) ∨ ∃ x, lastBlockBytes d data = fail x := by
    rcases List.eq_nil_or_concat data with rfl | ⟨init, t, rfl⟩
    · exact .inl ⟨0, rfl⟩
    · rw [List.concat_eq_append, lastBlockBytes_append hw]
      split
      · exact .inr ⟨_, rfl⟩
      split
      · exact .inr ⟨_, rfl⟩
      split
      · exact .inr ⟨_, rfl⟩
      · exact .inl ⟨_, rfl⟩
  rcases hlast with ⟨n, hn⟩ | ⟨x, hn⟩
  · rw [hn]
    simp only [res_bind_ok]
    generalize (if data.isEmpty then 0 else (data.length - 1) * (BLOCK_SIZE - 2)) + n = size
    split
    · exact .inr ⟨_, rfl⟩
    · exact .inl ⟨_, rfl⟩
  · rw [hn]
    exact .inr ⟨x, rfl⟩

/-- The side sectors, when the walk along them has found nothing wrong. -/
theorem sides_of_walk {ls : List Location} {e : Location} (hp : Path d s ex.firstSideSector ls e)
    (h1 : e ∉ ls) (hv : s.Valid e) (h0 : byteAt (d.blk s e) 0 = 0) (h3 : byteAt (d.blk s e) 1 ≠ 0)
    (h4 : ¬ usedBytes (d.blk s e) < 16) (h5 : ¬ usedBytes (d.blk s e) % 2 = 1) (h6 : (ls ++ [e]).length ≤ 6)
    (hl : ∀ l ∈ (ls ++ [e]).map fun l => listedSides (d.blk s l), l = ls ++ [e]) :
    SideSectors d s ex.firstSideSector (ls ++ [e])
      ((ls ++ [e]).flatMap fun l => listedData (d.blk s l)) := by
  obtain ⟨hhd, hch⟩ := isChain_iff_path.2 ⟨ls, e, rfl, hp, h1, hv, h0, h3, rfl⟩
  refine ⟨hhd, ⟨_, hch⟩, h6, ?_, ?_, rfl⟩
  · intro l hm
    exact hl _ (List.mem_map_of_mem hm)
  · intro l hm
    rcases List.mem_append.1 hm with hm | hm
    · unfold usedBytes
      rw [if_neg (hp.onward l hm)]
      exact ⟨by decide, by decide⟩
    · simp at hm
      subst hm
      exact ⟨by omega, by omega⟩

/-- **C43, refuted, and exactly when.** Opening a relative file never loops for ever.  It panics if
and only if its chain of side sectors ends in a sector that says that 2 to 15 of its bytes are used,
or the record length is zero and the side sectors are in order and name data sectors of which the
last one is marked as the last. -/
theorem C43_panics_iff_refuted (hw : Wf d s) (hx : entry.extra = .relative ex) :
    RelativeFile.new d entry ≠ .error .diverge ∧
    (RelativeFile.new d entry = .error .panic ↔
      (∃ side content t, side.head? = some ex.firstSideSector ∧ IsChain d s side content ∧
        side.getLast? = some t ∧ usedBytes (d.blk s t) < 16) ∨
      (ex.recordLength = 0 ∧ ∃ side data size, SideSectors d s ex.firstSideSector side data ∧
        DataSize d s data size)) := by
  have hL0 : ex.recordLength.toNat = 0 ↔ ex.recordLength = 0 :=
    ⟨fun h => UInt8.toNat.inj h, fun h => by rw [h]; rfl⟩
  have hback : (∃ side content t, side.head? = some ex.firstSideSector ∧ IsChain d s side content ∧
        side.getLast? = some t ∧ usedBytes (d.blk s t) < 16) ∨
      (ex.recordLength = 0 ∧ ∃ side data size, SideSectors d s ex.firstSideSector side data ∧
        DataSize d s data size) → RelativeFile.new d entry = .error .panic := by
    rintro (⟨side, content, t, hh, hc, ht, hu⟩ | ⟨hL, side, data, size, hs, hsz⟩)
    · obtain ⟨ls, e, rfl, hp, h3, h4, h5, h6, -⟩ := isChain_iff_path.1 ⟨hh, hc⟩
      have : e = t := by simpa using ht
      subst this
      obtain ⟨ls', e', hp', hst', hnew⟩ := relative_new hw hx
      obtain ⟨rfl, rfl⟩ := path_unique hp' hst' hp (.inr (.inr h5))
      rw [hnew, if_neg h3, if_neg (fun h => h h4), if_neg h6, if_pos hu]
    · exact C43_zero_length_refuted hw hx hs hsz hL
  have hcases : (∃ f, RelativeFile.new d entry = .ok f) ∨ (∃ e, RelativeFile.new d entry = fail e) ∨
      (RelativeFile.new d entry = .error .panic ∧ ((∃ side content t,
        side.head? = some ex.firstSideSector ∧ IsChain d s side content ∧
        side.getLast? = some t ∧ usedBytes (d.blk s t) < 16) ∨
      (ex.recordLength = 0 ∧ ∃ side data size, SideSectors d s ex.firstSideSector side data ∧
        DataSize d s data size))) := by
    by_cases hL : ex.recordLength = 0
    · obtain ⟨ls, e, hp, hst, hnew⟩ := relative_new hw hx
      by_cases h1 : e ∈ ls
      · rw [if_pos h1] at hnew
        exact .inr (.inl ⟨_, hnew⟩)
      rw [if_neg h1] at hnew
      by_cases hv : ¬ s.Valid e
      · rw [if_pos hv] at hnew
        exact .inr (.inl ⟨_, hnew⟩)
      replace hv : s.Valid e := Decidable.not_not.1 hv
      have h0 : byteAt (d.blk s e) 0 = 0 := by
        rcases hst with h | h | h
        · exact absurd h h1
        · exact absurd hv h
        · exact h
      rw [if_neg (fun h => h hv)] at hnew
      by_cases h3 : byteAt (d.blk s e) 1 = 0
      · rw [if_pos h3] at hnew
        exact .inr (.inl ⟨_, hnew⟩)
      rw [if_neg h3] at hnew
      by_cases h4 : usedBytes (d.blk s e) < 16
      · rw [if_pos h4] at hnew
        obtain ⟨hhd, hch⟩ := isChain_iff_path.2 ⟨ls, e, rfl, hp, h1, hv, h0, h3, rfl⟩
        exact .inr (.inr ⟨hnew, .inl ⟨_, _, e, hhd, hch, by simp, h4⟩⟩)
      rw [if_neg h4] at hnew
      by_cases h5 : usedBytes (d.blk s e) % 2 = 1
      · rw [if_pos h5] at hnew
        exact .inr (.inl ⟨_, hnew⟩)
      rw [if_neg h5] at hnew
      by_cases hf : ∃ y, RelativeFile.new d entry = fail y
      · exact .inr (.inl hf)
      · obtain ⟨h6, hl, size, hsz⟩ := relFinish_reached hw hnew.symm fun y hy => hf ⟨y, hy⟩
        have hs := sides_of_walk hp h1 hv h0 h3 h4 h5 h6 hl
        exact .inr (.inr ⟨C43_zero_length_refuted hw hx hs hsz hL, .inr ⟨hL, _, _, _, hs, hsz⟩⟩)
    · by_cases hsh : ∃ side content t, side.head? = some ex.firstSideSector ∧ IsChain d s side content ∧
        side.getLast? = some t ∧ usedBytes (d.blk s t) < 16
      · exact .inr (.inr ⟨hback (.inl hsh), .inl hsh⟩)
      · rcases Classical.em (∃ ls e, Path d s ex.firstSideSector ls e ∧ e ∈ ls ∧ s.Valid e ∧
          byteAt (d.blk s e) 0 = 0) with ⟨ls, e, hp, he, -, h0⟩ | hno
        · exact absurd h0 (hp.onward e he)
        · have := C43_returns_partial hw hx hL (by
            intro ls e hp hv h0
            by_cases h1 : byteAt (d.blk s e) 1 = 0
            · exact .inl h1
            · refine .inr (Nat.le_of_not_lt fun hlt => hsh ?_)
              have hne : e ∉ ls := fun h => hno ⟨ls, e, hp, h, hv, h0⟩
              obtain ⟨hhd, hch⟩ := isChain_iff_path.2 ⟨ls, e, rfl, hp, hne, hv, h0, h1, rfl⟩
              refine ⟨_, _, e, hhd, hch, by simp, ?_⟩
              unfold usedBytes
              rw [if_pos h0]
              omega)
          rcases this with h | h
          · exact .inl h
          · exact .inr (.inl h)
  constructor
  · rcases hcases with ⟨f, h⟩ | ⟨y, h⟩ | ⟨h, -⟩
    · rw [h]; nofun
    · rw [h]; nofun
    · rw [h]; nofun
  · constructor
    · intro hpanic
      rcases hcases with ⟨f, h⟩ | ⟨y, h⟩ | ⟨-, h⟩
      · rw [hpanic] at h; cases h
      · rw [hpanic] at h; cases h
      · exact h
    · exact hback

/-! ## Witnesses -/

/-- A relative file with one side sector (1, 0) and two data sectors (1, 1) and
(1, 2), holding 26 records of 10 bytes. -/
def sampleRelative : Device :=
  imageOf ([0x00, 19, 0, 10, 1, 0, 0, 0, 0, 0, 0, 0, 0, 0, 0, 0, 1, 1, 1, 2]
    ++ List.replicate 236 0 ++ ([1, 2] ++ List.replicate 254 7)
    ++ ([0x00, 7, 1, 2, 3, 4, 5, 6] ++ List.replicate 248 0))

theorem sampleRelative_wf : Wf sampleRelative ⟨.d64, 35, false⟩ :=
  imageOf_wf _ (by decide +kernel)

theorem sampleRelative_sides :
    SideSectors sampleRelative ⟨.d64, 35, false⟩ ⟨1, 0⟩ [⟨1, 0⟩] [⟨1, 1⟩, ⟨1, 2⟩] where
  start := rfl
  chain := ⟨_, by decide +kernel, by decide, trivial, [], ⟨1, 0⟩, rfl, by decide +kernel,
    by decide +kernel, rfl⟩
  few := by decide
  listed := by decide +kernel
  whole := by decide +kernel
  data := by decide +kernel

theorem sampleRelative_stream :
    DataStream sampleRelative ⟨.d64, 35, false⟩ [⟨1, 1⟩, ⟨1, 2⟩]
      (List.replicate 254 7 ++ [1, 2, 3, 4, 5, 6]) :=
  .inr ⟨[⟨1, 1⟩], ⟨1, 2⟩, rfl, by decide +kernel, by decide +kernel, by decide +kernel,
    by decide +kernel⟩

/-- The hypotheses of `C42_records` hold of it, and its last record straddles the
two data sectors. -/
example : (10 : Byte).toNat ∣ (List.replicate 254 (7 : Byte) ++ [1, 2, 3, 4, 5, 6]).length ∧
    slice (List.replicate 254 (7 : Byte) ++ [1, 2, 3, 4, 5, 6]) (25 * 10) 10
      = [7, 7, 7, 7, 1, 2, 3, 4, 5, 6] := by
  refine ⟨⟨26, by decide +kernel⟩, by decide +kernel⟩

/-- The hypotheses of `C43_zero_length_refuted` hold of it with length 0. -/
example : DataSize sampleRelative ⟨.d64, 35, false⟩ [⟨1, 1⟩, ⟨1, 2⟩] 260 := by
  have h := DataStream.length sampleRelative_wf sampleRelative_stream
  have e : (List.replicate 254 (7 : Byte) ++ [1, 2, 3, 4, 5, 6]).length = 260 := by decide +kernel
  exact e ▸ h

/-- A side sector that says five bytes are used. -/
example : Path (imageOf [0x00, 4, 0, 10]) ⟨.d64, 35, false⟩ ⟨1, 0⟩ [] ⟨1, 0⟩ ∧
    byteAt ((imageOf [0x00, 4, 0, 10]).blk ⟨.d64, 35, false⟩ ⟨1, 0⟩) 0 = 0 ∧
    byteAt ((imageOf [0x00, 4, 0, 10]).blk ⟨.d64, 35, false⟩ ⟨1, 0⟩) 1 = 4 :=
  ⟨⟨by simp, by simp, by simp, trivial, rfl⟩, by decide +kernel, by decide +kernel⟩

end Cbm
