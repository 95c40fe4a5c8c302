import Verif.Lemmas.BamFlush
import Verif.Props.Device
/-!
# The BAM: C06, C07, C12 and the listings of C39
-/

namespace Cbm
open Spec

variable {b b' : Bam} {ty : DiskType}

/-- A call of `Bam::allocate` or `Bam::free`. -/
inductive Spec.BamCall where
  | allocate (l : Location)
  | free (l : Location)
  deriving DecidableEq, Repr

/-- The sector a call is about. -/
def Spec.BamCall.loc : BamCall → Location
  | .allocate l => l
  | .free l => l

/-- Make the calls in order. -/
def runCalls (b : Bam) : List BamCall → Res Bam :=
  fun calls => foldRes (fun b c => match c with
    | .allocate l => b.allocate l
    | .free l => b.free l) calls b

/-- What the last call concerning the sector made of it, if there was one. -/
def Spec.lastCall (l : Location) : List BamCall → Option Bool
  | [] => none
  | c :: rest =>
    match lastCall l rest with
    | some v => some v
    | none => if c.loc = l then some (c = .free l) else none

/-- **C06** After any sequence of `allocate` and `free` calls on existing
sectors, a sector is free exactly when the last call about it was `free`, and
sectors without a call keep their state; the format is unchanged. -/
theorem C06_set_semantics (h : BamOf b ty) (calls : List BamCall)
    (hc : ∀ c ∈ calls, ValidLoc ty (bamTracks ty) c.loc) :
    ∃ b', runCalls b calls = .ok b' ∧ BamOf b' ty ∧ b'.format = b.format ∧
      ∀ l, isFree b' l = (lastCall l calls).getD (isFree b l) := by
  induction calls generalizing b with
  | nil => exact ⟨b, rfl, h, rfl, fun _ => rfl⟩
  | cons c t ih =>
    have hv := hc c (by simp)
    have step : ∃ b1, (match c with
        | .allocate l => b.allocate l
        | .free l => b.free l) = .ok b1 ∧ Flip b b1 ty c.loc (decide (c = .free c.loc)) := by
      cases c with
      | allocate l => exact allocate_ok h (ValidLoc.inBam hv)
      | free l =>
        obtain ⟨b1, h1, h2⟩ := free_ok h (ValidLoc.inBam hv)
        exact ⟨b1, h1, by simpa [BamCall.loc] using h2⟩
    obtain ⟨b1, h1, h2⟩ := step
    obtain ⟨b', h3, h4, h5, h6⟩ := ih h2.of fun x hx => hc x (by simp [hx])
    refine ⟨b', ?_, h4, by rw [h5, h2.format], ?_⟩
    · unfold runCalls foldRes
      rw [h1, res_bind_ok]; exact h3
    · intro l
      rw [h6 l, lastCall]
      cases hl : lastCall l t with
      | some v => rfl
      | none =>
        simp only [Option.getD_none]
        rw [isFree_flip h2]
        by_cases e : c.loc = l
        · rw [if_pos e.symm, if_pos e]
          simp [e]
        · rw [if_neg (fun h => e h.symm), if_neg e]; rfl

/-- **C06** If the recorded count of every track was the number of its free
sectors, it still is after the calls. -/
theorem C06_counts (h : Consistent b ty) (calls : List BamCall)
    (hc : ∀ c ∈ calls, ValidLoc ty (bamTracks ty) c.loc) :
    ∃ b', runCalls b calls = .ok b' ∧ Consistent b' ty := by
  induction calls generalizing b with
  | nil => exact ⟨b, rfl, h⟩
  | cons c t ih =>
    have hv := hc c (by simp)
    have step : ∃ b1, (match c with
        | .allocate l => b.allocate l
        | .free l => b.free l) = .ok b1 ∧ Consistent b1 ty := by
      cases c with
      | allocate l =>
        obtain ⟨b1, h1, h2⟩ := allocate_ok h.toBamOf (ValidLoc.inBam hv)
        exact ⟨b1, h1, h2.consistent h hv⟩
      | free l =>
        obtain ⟨b1, h1, h2⟩ := free_ok h.toBamOf (ValidLoc.inBam hv)
        exact ⟨b1, h1, h2.consistent h hv⟩
    obtain ⟨b1, h1, h2⟩ := step
    obtain ⟨b', h3, h4⟩ := ih h2 fun x hx => hc x (by simp [hx])
    refine ⟨b', ?_, h4⟩
    unfold runCalls foldRes
    rw [h1, res_bind_ok]; exact h3

/-- **C06** One call repairs the recorded count of its track, whatever it was:
it becomes the number of set bits of the track's bitmap; the counts of the other
tracks are untouched. -/
theorem C06_count_recomputed (h : BamOf b ty) {l : Location}
    (hl : ValidLoc ty (bamTracks ty) l) :
    ∀ c ∈ [BamCall.allocate l, .free l], ∃ b', runCalls b [c] = .ok b' ∧
      recorded b' l.track.toNat =
        some ((List.range 64).filter fun s => freeAt b' l.track.toNat s).length ∧
      ∀ t, 1 ≤ t → t ≠ l.track.toNat → recorded b' t = recorded b t := by
  intro c hcm
  have step : ∃ b1 v, runCalls b [c] = .ok b1 ∧ Flip b b1 ty l v := by
    simp only [List.mem_cons, List.not_mem_nil, or_false] at hcm
    rcases hcm with rfl | rfl
    · obtain ⟨b1, h1, h2⟩ := allocate_ok h (ValidLoc.inBam hl)
      exact ⟨b1, _, by simp [runCalls, foldRes, h1], h2⟩
    · obtain ⟨b1, h1, h2⟩ := free_ok h (ValidLoc.inBam hl)
      exact ⟨b1, _, by simp [runCalls, foldRes, h1], h2⟩
  obtain ⟨b1, v, h1, h2⟩ := step
  exact ⟨b1, h1, h2.recordedSame, h2.recordedOther⟩

/-! ### A concrete BAM: everything free -/

/-- The BAM with every sector free. -/
def freshBam (ty : DiskType) : Bam :=
  ⟨ty.format, (List.range (bamTracks ty)).map fun i => BamEntry.new (sectorsPerTrack ty (i + 1)),
    false⟩

theorem freeAt_freshBam (ty : DiskType) (t s : Nat) (h1 : 1 ≤ t) (h2 : t ≤ bamTracks ty) :
    freeAt (freshBam ty) t s = decide (s < sectorsPerTrack ty t) := by
  unfold freeAt freshBam
  simp only [List.getElem?_map, List.getElem?_range (show t - 1 < bamTracks ty by omega),
    Option.map_some, BamEntry.new, h1, decide_true, Bool.true_and]
  rw [show t - 1 + 1 = t by omega, fullMap_bits]
  have := sectorsPerTrack_le ty t; omega

theorem freshBam_consistent (ty : DiskType) : Consistent (freshBam ty) ty where
  format := by cases ty <;> rfl
  length := by simp [freshBam]
  live := rfl
  counts := by
    intro t h1 h2
    have hle := sectorsPerTrack_le ty t
    have h3 : freeOn (freshBam ty) ty t = sectorsPerTrack ty t := by
      unfold freeOn
      have : (fun s => freeAt (freshBam ty) t s) = fun s => decide (s < sectorsPerTrack ty t) := by
        funext s; exact freeAt_freshBam ty t s h1 h2
      rw [this, List.filter_eq_self.2 (by intro x hx; simpa using hx), List.length_range]
    rw [h3]
    unfold recorded
    simp only [freshBam, List.getElem?_map, List.getElem?_range (show t - 1 < bamTracks ty by omega),
      Option.map_some, BamEntry.new]
    rw [show t - 1 + 1 = t by omega, UInt8.toNat_ofNat', Nat.mod_eq_of_lt (by omega)]
  noStray := by
    intro t s hs
    by_cases h1 : 1 ≤ t
    · by_cases h2 : t ≤ bamTracks ty
      · rw [freeAt_freshBam ty t s h1 h2]; simp; omega
      · unfold freeAt
        rw [List.getElem?_eq_none]
        simp [freshBam]; omega
    · have : t = 0 := by omega
      subst this; exact freeAt_zero s

example : ∃ b', runCalls (freshBam .d71) [.allocate ⟨18, 0⟩, .allocate ⟨53, 7⟩, .free ⟨18, 0⟩] = .ok b' ∧
    isFree b' ⟨18, 0⟩ = true ∧ isFree b' ⟨53, 7⟩ = false ∧ isFree b' ⟨53, 8⟩ = true := by
  obtain ⟨b', h1, _, _, h4⟩ := C06_set_semantics (freshBam_consistent .d71).toBamOf
    [.allocate ⟨18, 0⟩, .allocate ⟨53, 7⟩, .free ⟨18, 0⟩] (by decide)
  refine ⟨b', h1, ?_, ?_, ?_⟩
  · rw [h4]; rfl
  · rw [h4]; rfl
  · rw [h4, show lastCall ⟨53, 8⟩ [.allocate ⟨18, 0⟩, .allocate ⟨53, 7⟩, .free ⟨18, 0⟩] = none
      from by decide, Option.getD_none, isFree, freeAt_freshBam _ _ _ (by decide) (by decide)]
    decide

/-! ## C07 -/

/-- **C07** Flushing the BAM of a writable disk succeeds; reading it back gives
the same map and the same counts. -/
theorem C07_flush_read {d : Device} {s : Shape} (h : Wf d s) (hw : Writable d)
    (hb : BamOf b s.type) (hfit : Fits b s.type) :
    ∃ d', b.flush d = (.ok (), d') ∧ Wf d' s ∧
      ∃ r, Bam.read d' s.type.format = .ok r ∧ BamOf r s.type ∧
        (∀ l, isFree r l = isFree b l) ∧ (∀ t, recorded r t = recorded b t) := by
  obtain ⟨ws, h1, h2, h3, h4, h5⟩ := flush_writes hb h hw
  refine ⟨_, h1, h.puts h2, _, read_of_holds (h.puts h2) hb hfit h3 _ rfl, ?_, ?_, ?_⟩
  · exact ⟨by cases s.type <;> rfl, hb.length, rfl⟩
  · intro l; rfl
  · intro t; rfl

/-- **C07** Flushing changes no byte outside the BAM area, neither at the end nor
at any intermediate moment (`hist` records the image after every single write);
sectors other than the BAM sectors, the bytes after the last sector (error
table) and the size are untouched. -/
theorem C07_flush_frame {d : Device} {s : Shape} (h : Wf d s) (hw : Writable d)
    (hb : BamOf b s.type) :
    ∃ d' new, b.flush d = (.ok (), d') ∧ d'.hist = new ++ d.hist ∧
      ∀ img ∈ d'.image.bytes :: new, img.length = d.image.bytes.length ∧
        (∀ l j, s.Valid l → j < 256 → ¬ bamArea s.type l j →
          img[256 * sectorNumber s.type l + j]? =
            d.image.bytes[256 * sectorNumber s.type l + j]?) ∧
        (∀ i, 256 * s.sectors ≤ i → img[i]? = d.image.bytes[i]?) := by
  obtain ⟨ws, h1, h2, h3, h4, h5⟩ := flush_writes hb h hw
  refine ⟨_, _, h1, hist_puts, ?_⟩
  have tailSame : ∀ (vs : List (Location × List Byte)) (d : Device), Wf d s → WsOK s vs →
      ∀ i, 256 * s.sectors ≤ i → (d.puts s vs).image.bytes[i]? = d.image.bytes[i]? := by
    intro vs
    induction vs with
    | nil => intros; rfl
    | cons w t ih =>
      intro d hd ho i hi
      have hbound := hd.bound ho.head.1
      have hlt := sectorNumber_lt ho.head.1
      have hlen := ho.head.2
      rw [puts_cons, ih _ (hd.put ho.head.1 hlen) ho.tail i hi]
      simp only [Device.put]
      rw [getElem?_splice _ _ _ _ (by omega)]
      simp only [Shape.sectors] at hi
      rw [if_neg (by omega), if_neg (by omega)]
  intro img himg
  have hk : ∃ k, img = (d.puts s (ws.take k)).image.bytes := by
    rcases List.mem_cons.1 himg with rfl | himg
    · exact ⟨ws.length, by rw [List.take_length]⟩
    · obtain ⟨k, _, _, hk⟩ := mem_crashImages.1 himg
      exact ⟨k, hk⟩
  obtain ⟨k, rfl⟩ := hk
  have hwk := h.puts (h2.take k)
  refine ⟨by rw [hwk.size, h.size], ?_, tailSame _ _ h (h2.take k)⟩
  intro l j hl hj hA
  have := h4.mono (inSections_area s.type) k l j hl hA
  unfold Device.blk at this
  rw [getElem?_slice, getElem?_slice, if_pos hj, if_pos hj] at this
  exact this

/-- **C07** Reading the BAM and flushing it without a change leaves every sector
of the image as it is. -/
theorem C07_flush_unmodified {d : Device} {s : Shape} (h : Wf d s) (hw : Writable d) :
    ∃ r d', Bam.read d s.type.format = .ok r ∧ r.flush d = (.ok (), d') ∧
      ∀ l, s.Valid l → d'.blk s l = d.blk s l := by
  have hr := h.readBam s.type.format rfl
  have hb : BamOf ⟨s.type.format, storedEntries d s, false⟩ s.type :=
    ⟨by cases s.type <;> rfl, length_storedEntries d s, rfl⟩
  obtain ⟨ws, h1, h2, h3, h4, h5⟩ := flush_writes hb h hw
  refine ⟨_, _, hr, h1, ?_⟩
  -- the entries in memory are the ones stored in `d`, so `d` already holds them
  have hd : ∀ (secs : List BamSection) (pre : List BamEntry), (∀ sec ∈ secs, sec ∈ s.type.format.bam) →
      HoldsAll d s (pre ++ (secs.map fun sec =>
        (List.range sec.tracks).map (storedEntry d s sec)).flatten) pre.length secs := by
    intro secs
    induction secs with
    | nil => intros; trivial
    | cons sec t ih =>
      intro pre hm
      have hsec := section_ok s.type sec (hm sec (by simp))
      have vb := h.bam_valid hsec.validBitmap
      have vf := h.bam_valid hsec.validFree
      refine ⟨?_, ?_⟩
      · intro i hi
        refine ⟨storedEntry d s sec i, ?_, ?_, ?_⟩
        · rw [List.getElem?_append_right (by omega), Nat.add_sub_cancel_left, List.map_cons,
            List.flatten_cons, List.getElem?_append_left (by simp; exact hi), List.getElem?_map,
            List.getElem?_range hi]
          rfl
        · have b2 := index_bound (a := sec.bitmapOffset) (b := sec.bitmapStride) hi
          have := hsec.bitmapEnd
          have hlen : (slice (d.blk s sec.bitmapLocation)
              (sec.bitmapOffset + i * sec.bitmapStride) sec.bitmapSize).length = sec.bitmapSize := by
            apply length_slice; rw [h.blk_length vb]; omega
          have := writeBitmap_foldr (slice (d.blk s sec.bitmapLocation)
              (sec.bitmapOffset + i * sec.bitmapStride) sec.bitmapSize)
              (by rw [hlen]; exact hsec.size8)
          rw [hlen] at this
          exact this.symm
        · have b1 := index_bound (a := sec.freeOffset) (b := sec.freeStride) hi
          have := hsec.freeEnd
          have hl := h.blk_length vf
          simp only [storedEntry, BamEntry.fromBytes]
          rw [List.getElem?_eq_getElem (by omega), byteAt_eq _ _ (by omega)]
      · have := ih (pre ++ (List.range sec.tracks).map (storedEntry d s sec))
          (fun x hx => hm x (by simp [hx]))
        simp only [List.length_append, List.length_map, List.length_range,
          List.append_assoc] at this
        simpa using this
  have hd0 := hd s.type.format.bam [] (fun _ h => h)
  rw [List.nil_append, List.length_nil] at hd0
  have same : ∀ (secs : List BamSection) (prev : Nat) (es : List BamEntry) (d' : Device),
      HoldsAll d s es prev secs → HoldsAll d' s es prev secs →
      ∀ sec ∈ secs, ∀ l j, InSection sec l j → (d'.blk s l)[j]? = (d.blk s l)[j]? := by
    intro secs
    induction secs with
    | nil => intro _ _ _ _ _ sec hs; cases hs
    | cons sec t ih =>
      intro prev es d' ha hb sec' hs l j hin
      rcases List.mem_cons.1 hs with rfl | hs
      · rcases hin with ⟨rfl, i, hi, h1, h2⟩ | ⟨rfl, i, hi, rfl⟩
        · obtain ⟨e, a1, a2, _⟩ := ha.1 i hi
          obtain ⟨e', b1, b2, _⟩ := hb.1 i hi
          have : e' = e := by rw [a1] at b1; exact (Option.some.inj b1).symm
          subst this
          have heq := congrArg (fun x => x[j - (sec'.bitmapOffset + i * sec'.bitmapStride)]?)
            (b2.trans a2.symm)
          simp only [getElem?_slice] at heq
          rw [if_pos (by omega), if_pos (by omega)] at heq
          rwa [show sec'.bitmapOffset + i * sec'.bitmapStride +
            (j - (sec'.bitmapOffset + i * sec'.bitmapStride)) = j by omega] at heq
        · obtain ⟨e, a1, _, a3⟩ := ha.1 i hi
          obtain ⟨e', b1, _, b3⟩ := hb.1 i hi
          have : e' = e := by rw [a1] at b1; exact (Option.some.inj b1).symm
          subst this
          rw [a3, b3]
      · exact ih _ _ _ ha.2 hb.2 sec' hs l j hin
  intro l hl
  apply List.ext_getElem?
  intro j
  by_cases hin : InSections s.type.format.bam l j
  · obtain ⟨sec, hs, hin⟩ := hin
    exact same _ _ _ _ hd0 h3 sec hs l j hin
  · exact h4.all hl hin

/-- A prior content and a BAM to which C07 applies. -/
example : ∃ d', (freshBam .d81).flush (blankDevice D81.GEOMETRY_ERRORS) = (.ok (), d') ∧
    ∃ r, Bam.read d' D81.DISK_FORMAT = .ok r ∧ isFree r ⟨80, 39⟩ = true := by
  obtain ⟨d', h1, _, r, h2, _, h3, _⟩ := C07_flush_read (b := freshBam .d81)
    (blankDevice_wf (ty := .d81) (g := D81.GEOMETRY_ERRORS)
      (by simp [DiskType.geometries, D81.ALLOWED_GEOMETRIES]))
    (by simp [Writable, blankDevice, Image.openMemory])
    (freshBam_consistent .d81).toBamOf (freshBam_consistent .d81).fits
  exact ⟨d', h1, r, h2, by rw [h3, isFree, freeAt_freshBam _ _ _ (by decide) (by decide)]; decide⟩

/-! ## C12 and the listings of C39 -/

theorem format_rows : ∀ ty ∈ [DiskType.d64, .d71, .d81], ∀ t ∈ List.range (bamTracks ty),
    (trackRow ty.format.tracks (t + 1)).map Track.sectors = .ok (sectorsPerTrack ty (t + 1)) := by
  decide +kernel

theorem format_row (ty : DiskType) {t : Nat} (h : t < bamTracks ty) :
    ∃ row, trackRow ty.format.tracks (t + 1) = .ok row ∧ row.sectors = sectorsPerTrack ty (t + 1) := by
  have := format_rows ty (mem_diskTypes ty) t (List.mem_range.2 h)
  cases hr : trackRow ty.format.tracks (t + 1) with
  | error e => rw [hr] at this; cases this
  | ok row => rw [hr] at this; exact ⟨row, rfl, by simpa [Except.map] using this⟩

theorem allSectors_succ (ty : DiskType) (n : Nat) : allSectors ty (n + 1) =
    allSectors ty n ++ (List.range (sectorsPerTrack ty (n + 1))).map fun s => (n + 1, s) := by
  unfold allSectors
  rw [List.range_succ, List.flatMap_append]; simp

/-- **C12** `blocks_free` is the number of free sectors outside the directory
track. -/
theorem C12_blocks_free (h : Consistent b ty) :
    b.blocksFree = .ok ((allSectors ty (bamTracks ty)).filter fun p =>
      p.1 ≠ directoryTrack ty && freeAt b p.1 p.2).length := by
  have hlast : b.format.lastTrack = bamTracks ty := by rw [h.format]; cases ty <;> rfl
  have hdir : b.format.directoryTrack = directoryTrack ty := by rw [h.format]; cases ty <;> rfl
  have hdir1 : 1 ≤ directoryTrack ty := by cases ty <;> decide
  unfold Bam.blocksFree
  rw [hlast, hdir]
  have : ∀ n, n ≤ bamTracks ty → foldRes (fun n track =>
      if track = directoryTrack ty - 1 then .ok n
      else do
        let e ← indexRes b.entries track
        return n + e.freeSectors.toNat) (List.range n) 0 =
      (.ok ((allSectors ty n).filter fun p =>
        p.1 ≠ directoryTrack ty && freeAt b p.1 p.2).length : Res Nat) := by
    intro n
    induction n with
    | zero => intro _; rfl
    | succ n ih =>
      intro hn
      rw [List.range_succ, foldRes_append, ih (by omega), res_bind_ok, allSectors_succ,
        List.filter_append, List.length_append, List.filter_map, List.length_map]
      simp only [foldRes]
      by_cases hd : n = directoryTrack ty - 1
      · rw [if_pos hd]
        have : n + 1 = directoryTrack ty := by omega
        simp [Function.comp_def, this]
      · rw [if_neg hd]
        have hlt : n < b.entries.length := by rw [h.length]; omega
        have hne : n + 1 ≠ directoryTrack ty := by omega
        rw [indexRes_ok hlt]
        have hc := h.counts (n + 1) (by omega) hn
        unfold recorded at hc
        rw [Nat.add_sub_cancel, List.getElem?_eq_getElem hlt, Option.map_some] at hc
        have hc := Option.some.inj hc
        simp only [res_bind_ok, res_pure]
        rw [hc]
        simp [freeOn, Function.comp_def, hne]
  exact this _ (Nat.le_refl _)

example : (freshBam .d64).blocksFree = .ok 664 := by
  rw [C12_blocks_free (freshBam_consistent .d64)]; decide +kernel

/-- The location with the given track and sector numbers. -/
def Spec.locOf (p : Nat × Nat) : Location := ⟨UInt8.ofNat p.1, UInt8.ofNat p.2⟩

theorem scanTrack_eq (want : BitVec 64) (v : Bool)
    (hv : ∀ m : BitVec 64, (m &&& 1#64 = want) ↔ m.getLsbD 0 = v) (n s0 : Nat) (m : BitVec 64) :
    scanTrack want n s0 (m >>> s0) = (List.range' s0 n).filter fun i => m.getLsbD i == v := by
  induction n generalizing s0 with
  | zero => rfl
  | succ n ih =>
    rw [scanTrack, shift_shift, ih, List.range'_succ, List.filter_cons]
    have := hv (m >>> s0)
    rw [getLsbD_shift, Nat.add_zero] at this
    by_cases h : m.getLsbD s0 = v
    · rw [if_pos (this.2 h)]; simp [h]
    · rw [if_neg (fun e => h (this.1 e))]; simp [h]

theorem sectorsWith_eq (h : BamOf b ty) (want : BitVec 64) (v : Bool)
    (hv : ∀ m : BitVec 64, (m &&& 1#64 = want) ↔ m.getLsbD 0 = v) :
    b.sectorsWith want = .ok (((allSectors ty (bamTracks ty)).filter fun p =>
      freeAt b p.1 p.2 == v).map locOf) := by
  have hlast : b.format.lastTrack = bamTracks ty := by rw [h.format]; cases ty <;> rfl
  have hrows : b.format.tracks = ty.format.tracks := by rw [h.format]
  unfold Bam.sectorsWith
  rw [hlast, mapRes_ok (g := fun t => ((List.range (sectorsPerTrack ty (t + 1))).filter fun s =>
    freeAt b (t + 1) s == v).map fun s => locOf (t + 1, s))]
  · simp only [res_bind_ok, res_pure]
    congr 1
    unfold allSectors
    rw [List.filter_flatMap, List.map_flatMap, List.flatMap_def]
    congr 1
    apply List.map_congr_left
    intro t _
    rw [List.filter_map, List.map_map]
    rfl
  · intro t ht
    rw [List.mem_range] at ht
    have hlt : t < b.entries.length := by rw [h.length]; omega
    obtain ⟨row, hr1, hr2⟩ := format_row ty ht
    rw [indexRes_ok hlt, res_bind_ok, hrows, hr1, res_bind_ok, res_pure, hr2]
    congr 1
    have := scanTrack_eq want v hv (sectorsPerTrack ty (t + 1)) 0 (b.entries[t].sectorMap)
    rw [BitVec.ushiftRight_zero] at this
    rw [this, List.range_eq_range']
    have hf : (fun s => freeAt b (t + 1) s == v) = fun i => b.entries[t].sectorMap.getLsbD i == v := by
      funext i
      rw [freeAt_entry (List.getElem?_eq_getElem hlt)]
    rw [hf]
    rfl

/-- **C39** `free_sectors` and `allocated_sectors` list, in the order of the
format iterator, the sectors marked free and the others. -/
theorem C39_bam_listings (h : BamOf b ty) :
    b.freeSectorsList =
      .ok (((allSectors ty (bamTracks ty)).filter fun p => freeAt b p.1 p.2).map locOf) ∧
    b.allocatedSectors =
      .ok (((allSectors ty (bamTracks ty)).filter fun p => !freeAt b p.1 p.2).map locOf) := by
  constructor
  · rw [Bam.freeSectorsList, sectorsWith_eq h _ true and_one_eq]
    congr 3
    funext p; simp
  · rw [Bam.allocatedSectors, sectorsWith_eq h _ false and_one_eq_zero]
    congr 3
    funext p; simp

/-- **C39** The two listings partition the existing sectors. -/
theorem C39_bam_partition (h : BamOf b ty) :
    ∃ free alloc, b.freeSectorsList = .ok free ∧ b.allocatedSectors = .ok alloc ∧
      (free ++ alloc).Nodup ∧
      (∀ l, l ∈ free ++ alloc ↔ ValidLoc ty (bamTracks ty) l) ∧
      (∀ l, l ∈ free ↔ ValidLoc ty (bamTracks ty) l ∧ isFree b l = true) := by
  obtain ⟨h1, h2⟩ := C39_bam_listings h
  obtain ⟨hs, hm⟩ := C39_enumeration_exact ty (bamTracks ty)
  have hbt : bamTracks ty < 256 := by cases ty <;> decide
  have hloc : ∀ p ∈ allSectors ty (bamTracks ty),
      (locOf p).track.toNat = p.1 ∧ (locOf p).sector.toNat = p.2 := by
    intro p hp
    have := (hm p.1 p.2).1 hp
    have := sectorsPerTrack_le ty p.1
    simp only [locOf, UInt8.toNat_ofNat']
    omega
  have hinj : ∀ p ∈ allSectors ty (bamTracks ty), ∀ q ∈ allSectors ty (bamTracks ty),
      locOf p = locOf q → p = q := by
    intro p hp q hq e
    obtain ⟨a1, a2⟩ := hloc p hp
    obtain ⟨b1, b2⟩ := hloc q hq
    rw [e] at a1 a2
    exact Prod.ext (a1.symm.trans b1) (a2.symm.trans b2)
  have hfree : ∀ l, l ∈ (((allSectors ty (bamTracks ty)).filter fun p =>
      freeAt b p.1 p.2).map locOf) ↔ ValidLoc ty (bamTracks ty) l ∧ isFree b l = true := by
    intro l
    rw [List.mem_map]
    constructor
    · rintro ⟨p, hp, rfl⟩
      rw [List.mem_filter] at hp
      obtain ⟨a1, a2⟩ := hloc p hp.1
      refine ⟨?_, ?_⟩
      · unfold ValidLoc; rw [a1, a2]; exact (hm p.1 p.2).1 hp.1
      · unfold isFree; rw [a1, a2]; exact hp.2
    · rintro ⟨hv, hf⟩
      refine ⟨(l.track.toNat, l.sector.toNat), List.mem_filter.2 ⟨(hm _ _).2 hv, hf⟩, ?_⟩
      simp [locOf]
  have halloc : ∀ l, l ∈ (((allSectors ty (bamTracks ty)).filter fun p =>
      !freeAt b p.1 p.2).map locOf) ↔ ValidLoc ty (bamTracks ty) l ∧ isFree b l = false := by
    intro l
    rw [List.mem_map]
    constructor
    · rintro ⟨p, hp, rfl⟩
      rw [List.mem_filter] at hp
      obtain ⟨a1, a2⟩ := hloc p hp.1
      refine ⟨?_, ?_⟩
      · unfold ValidLoc; rw [a1, a2]; exact (hm p.1 p.2).1 hp.1
      · unfold isFree; rw [a1, a2]; simpa using hp.2
    · rintro ⟨hv, hf⟩
      refine ⟨(l.track.toNat, l.sector.toNat), List.mem_filter.2 ⟨(hm _ _).2 hv, by simpa using hf⟩, ?_⟩
      simp [locOf]
  have hnd : (allSectors ty (bamTracks ty)).Nodup := by
    refine hs.imp ?_
    rintro a c hac rfl
    omega
  refine ⟨_, _, h1, h2, ?_, ?_, hfree⟩
  · rw [List.nodup_append]
    refine ⟨?_, ?_, ?_⟩
    · exact nodup_map_of_injOn _ (hnd.sublist List.filter_sublist) fun p hp q hq =>
        hinj p (List.mem_filter.1 hp).1 q (List.mem_filter.1 hq).1
    · exact nodup_map_of_injOn _ (hnd.sublist List.filter_sublist) fun p hp q hq =>
        hinj p (List.mem_filter.1 hp).1 q (List.mem_filter.1 hq).1
    · intro x hx y hy e
      subst e
      have := (hfree x).1 hx
      have := (halloc x).1 hy
      simp_all
  · intro l
    rw [List.mem_append, hfree, halloc]
    cases isFree b l <;> simp

example : ∃ free, (freshBam .d81).freeSectorsList = .ok free ∧ ⟨80, 39⟩ ∈ free := by
  obtain ⟨free, alloc, h1, _, _, _, h5⟩ := C39_bam_partition (freshBam_consistent .d81).toBamOf
  refine ⟨free, h1, (h5 _).2 ⟨by decide, ?_⟩⟩
  rw [isFree, freeAt_freshBam _ _ _ (by decide) (by decide)]; decide

end Cbm
