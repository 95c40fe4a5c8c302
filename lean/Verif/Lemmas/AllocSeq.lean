import Verif.Lemmas.Bam
import Verif.Lemmas.BamFlush
/-!
# Block allocation

The order in which the search loops visit tracks does not depend on the BAM;
each loop stops at the first visited track with a positive count.  The visiting
orders are finite tables (three formats, two policies, at most 80 starting
tracks) and their properties are checked by kernel evaluation over the whole
table.
-/

namespace Cbm
open Spec

/-- Go through the tracks in order and stop at the first with availability. -/
def firstAvail (b : Bam) (last : Fail) : List (Nat × Bool) → Res (Nat × BamEntry × Bool)
  | [] => .error last
  | (t, reset) :: rest => do
    let e ← b.entry t
    if e.hasAvailability then return (t, e, reset) else firstAvail b last rest

/-- Visiting order of `cbmLoop`: the tracks, and the failure at the end. -/
def cbmSeq (f : DiskFormat) : Nat → Nat → Nat → Bool → List (Nat × Bool) × Fail
  | 0, _, _, _ => ([], .diverge)
  | fuel + 1, track, passes, reset =>
    if passes > 0 then
      let rest :=
        if track < f.directoryTrack then
          match (do
            let track ← subU track 1
            let track := cbmSkipDown f track
            if track < f.firstTrack then do
              let track ← addU8 f.directoryTrack 1
              return (track, passes - 1, true)
            else return (track, passes, reset) : Res (Nat × Nat × Bool)) with
          | .ok (t, p, r) => cbmSeq f fuel t p r
          | .error e => ([], e)
        else if track = f.directoryTrack then ([], .err .diskFull)
        else
          match (do
            let track ← addU8 track 1
            let track ← cbmSkipUp f trackFuel track
            if track > f.lastTrack then do
              let track ← subU f.directoryTrack 1
              return (track, passes - 1, true)
            else return (track, passes, reset) : Res (Nat × Nat × Bool)) with
          | .ok (t, p, r) => cbmSeq f fuel t p r
          | .error e => ([], e)
      ((track, reset) :: rest.1, rest.2)
    else ([], .err .diskFull)

theorem cbmLoop_seq (f : DiskFormat) (b : Bam) (fuel track passes : Nat) (reset : Bool) :
    cbmLoop f b fuel track passes reset =
      firstAvail b (cbmSeq f fuel track passes reset).2 (cbmSeq f fuel track passes reset).1 := by
  induction fuel generalizing track passes reset with
  | zero => rfl
  | succ fuel ih =>
    unfold cbmLoop cbmSeq
    by_cases hp : passes > 0
    · simp only [hp, if_true, firstAvail]
      congr 1
      funext e
      by_cases ha : e.hasAvailability = true
      · simp only [ha, if_true]
      · simp only [ha, if_false, Bool.false_eq_true]
        by_cases h1 : track < f.directoryTrack
        · simp only [h1, if_true]
          cases subU track 1 with
          | error e => rfl
          | ok t =>
            simp only [res_bind_ok]
            by_cases h2 : cbmSkipDown f t < f.firstTrack
            · simp only [h2, if_true]
              cases addU8 f.directoryTrack 1 with
              | error e => rfl
              | ok t' => simp only [res_bind_ok, res_pure]; exact ih _ _ _
            · simp only [h2, if_false, res_pure]; exact ih _ _ _
        · simp only [h1, if_false]
          by_cases h2 : track = f.directoryTrack
          · simp only [h2, if_true]; rfl
          · simp only [h2, if_false]
            cases addU8 track 1 with
            | error e => rfl
            | ok t =>
              simp only [res_bind_ok]
              cases cbmSkipUp f trackFuel t with
              | error e => rfl
              | ok t' =>
                simp only [res_bind_ok]
                by_cases h3 : t' > f.lastTrack
                · simp only [h3, if_true]
                  cases subU f.directoryTrack 1 with
                  | error e => rfl
                  | ok t'' => simp only [res_bind_ok, res_pure]; exact ih _ _ _
                · simp only [h3, if_false, res_pure]; exact ih _ _ _
    · simp only [hp, if_false]; rfl

/-- Visiting order of `geosLoop`. -/
def geosSeq (f : DiskFormat) : Nat → Nat → Nat → Bool → List (Nat × Bool) × Fail
  | 0, _, _, _ => ([], .diverge)
  | fuel + 1, track, passes, reset =>
    if passes > 0 then
      let rest :=
        if track = f.directoryTrack then ([], .err .diskFull)
        else
          match (do
            let track ← addU8 track 1
            let (track, passes, reset) :=
              if track > f.lastTrack then (f.firstTrack, passes - 1, true)
              else (track, passes, reset)
            geosSkip f trackFuel track passes reset : Res (Nat × Nat × Bool)) with
          | .ok (t, p, r) => geosSeq f fuel t p r
          | .error e => ([], e)
      ((track, reset) :: rest.1, rest.2)
    else ([], .err .diskFull)

theorem geosLoop_seq (f : DiskFormat) (b : Bam) (fuel track passes : Nat) (reset : Bool) :
    geosLoop f b fuel track passes reset =
      firstAvail b (geosSeq f fuel track passes reset).2 (geosSeq f fuel track passes reset).1 := by
  induction fuel generalizing track passes reset with
  | zero => rfl
  | succ fuel ih =>
    unfold geosLoop geosSeq
    by_cases hp : passes > 0
    · simp only [hp, if_true, firstAvail]
      congr 1
      funext e
      by_cases ha : e.hasAvailability = true
      · simp only [ha, if_true]
      · simp only [ha, if_false, Bool.false_eq_true]
        by_cases h2 : track = f.directoryTrack
        · simp only [h2, if_true]; rfl
        · simp only [h2, if_false]
          cases addU8 track 1 with
          | error e => rfl
          | ok t =>
            simp only [res_bind_ok]
            by_cases h3 : t > f.lastTrack
            · simp only [h3, if_true]
              cases geosSkip f trackFuel f.firstTrack (passes - 1) true with
              | error e => rfl
              | ok r => simp only [res_bind_ok]; exact ih _ _ _
            · simp only [h3, if_false]
              cases geosSkip f trackFuel t passes reset with
              | error e => rfl
              | ok r => simp only [res_bind_ok]; exact ih _ _ _
    · simp only [hp, if_false]; rfl

/-- Visiting order of `firstFreeTrackLoop`. -/
def firstSeq (f : DiskFormat) : List Nat → List Nat × Fail
  | [] => ([], .err .diskFull)
  | distance :: rest =>
    let below := if distance ≤ f.directoryTrack && f.directoryTrack - distance ≥ f.firstTrack
      then [f.directoryTrack - distance] else []
    match addU8 f.directoryTrack distance with
    | .error e => (below, e)
    | .ok track =>
      let r := firstSeq f rest
      (below ++ (if track ≤ f.lastTrack then [track] else []) ++ r.1, r.2)

/-- `firstAvail` without the reset flag. -/
def firstAvailTrack (b : Bam) (last : Fail) : List Nat → Res (Nat × BamEntry)
  | [] => .error last
  | t :: rest => do
    let e ← b.entry t
    if e.hasAvailability then return (t, e) else firstAvailTrack b last rest

theorem firstAvailTrack_append (b : Bam) (last : Fail) (c : Bool) (t : Nat) (ts : List Nat) :
    firstAvailTrack b last ((if c then [t] else []) ++ ts) =
      (tryTrack b c t >>= fun
        | some r => .ok r
        | none => firstAvailTrack b last ts) := by
  unfold tryTrack
  cases c with
  | false => rfl
  | true =>
    simp only [if_true, List.singleton_append, firstAvailTrack]
    cases b.entry t with
    | error e => rfl
    | ok e =>
      simp only [res_bind_ok, res_pure]
      cases e.hasAvailability <;> rfl

theorem firstFreeTrackLoop_seq (f : DiskFormat) (b : Bam) (ds : List Nat) :
    firstFreeTrackLoop f b ds = firstAvailTrack b (firstSeq f ds).2 (firstSeq f ds).1 := by
  induction ds with
  | nil => rfl
  | cons d t ih =>
    unfold firstFreeTrackLoop firstSeq
    simp only []
    cases ha : addU8 f.directoryTrack d with
    | error e =>
      simp only []
      have := firstAvailTrack_append b e
        (decide (d ≤ f.directoryTrack) && decide (f.directoryTrack - d ≥ f.firstTrack))
        (f.directoryTrack - d) []
      rw [List.append_nil] at this
      rw [this]
      rfl
    | ok track =>
      simp only []
      rw [List.append_assoc, firstAvailTrack_append]
      congr 1
      funext o
      cases o with
      | some r => rfl
      | none =>
        simp only [res_bind_ok]
        have := firstAvailTrack_append b (firstSeq f t).2 (decide (track ≤ f.lastTrack)) track
          (firstSeq f t).1
        simp only [decide_eq_true_eq] at this
        rw [this]
        congr 1
        funext o
        cases o with
        | some r => rfl
        | none => exact ih

/-! ## The visiting orders of the three formats -/

/-- The format of a disk type with the given policy. -/
def fmt (ty : DiskType) (geos : Bool) : DiskFormat := { ty.format with geos := geos }

/-- Visiting order of `next_free_track` from a track. -/
def nextSeq (ty : DiskType) (geos : Bool) (prev : Nat) : List (Nat × Bool) × Fail :=
  if geos then geosSeq (fmt ty true) trackFuel prev (if prev = 1 then 1 else 2) false
  else cbmSeq (fmt ty false) trackFuel prev 3 false

/-- The set of visited tracks as a bit mask (cheap to evaluate). -/
def trackMask (seq : List (Nat × Bool)) : Nat := seq.foldl (fun m x => m ||| 1 <<< x.1) 0

/-- The set of data tracks as a bit mask. -/
def dataMask (ty : DiskType) : Nat :=
  (List.range (bamTracks ty)).foldl
    (fun m t => if systemTrack ty (t + 1) then m else m ||| 1 <<< (t + 1)) 0

theorem trackMask_mem (seq : List (Nat × Bool)) (t : Nat) (h : (trackMask seq).testBit t = true) :
    ∃ x ∈ seq, x.1 = t := by
  have : ∀ (seq : List (Nat × Bool)) (m : Nat),
      (seq.foldl (fun m x => m ||| 1 <<< x.1) m).testBit t = true →
      m.testBit t = true ∨ ∃ x ∈ seq, x.1 = t := by
    intro seq
    induction seq with
    | nil => intro m h; left; exact h
    | cons x r ih =>
      intro m h
      rcases ih _ h with h | ⟨y, hy, e⟩
      · rw [Nat.testBit_or, Bool.or_eq_true, Nat.one_shiftLeft, Nat.testBit_two_pow] at h
        rcases h with h | h
        · left; exact h
        · right; exact ⟨x, by simp, by simpa using h⟩
      · right; exact ⟨y, by simp [hy], e⟩
  rcases this seq 0 h with h | h
  · simp at h
  · exact h

theorem dataMask_checked : ∀ ty ∈ [DiskType.d64, .d71, .d81], ∀ t ∈ List.range (bamTracks ty),
    systemTrack ty (t + 1) = true ∨ (dataMask ty).testBit (t + 1) = true := by decide +kernel

/-- All that is needed of a visiting order, as one decidable check. -/
def nextSeqOK (ty : DiskType) (geos : Bool) (prev : Nat) : Bool :=
  let r := nextSeq ty geos prev
  decide (r.2 = .err .diskFull) &&
  r.1.all (fun x => decide (1 ≤ x.1) && decide (x.1 ≤ bamTracks ty) &&
    (x.1 == prev || !systemTrack ty x.1) && (x.2 || !geos || decide (prev ≤ x.1))) &&
  (systemTrack ty prev || trackMask r.1 &&& dataMask ty == dataMask ty)

theorem nextSeq_d64 : ∀ geos ∈ [false, true],
    ∀ i ∈ List.range 35, nextSeqOK .d64 geos (i + 1) = true := by decide +kernel

theorem nextSeq_d71 : ∀ geos ∈ [false, true],
    ∀ i ∈ List.range 70, nextSeqOK .d71 geos (i + 1) = true := by decide +kernel

theorem nextSeq_d81 : ∀ geos ∈ [false, true],
    ∀ i ∈ List.range 80, nextSeqOK .d81 geos (i + 1) = true := by decide +kernel

theorem nextSeq_checked (ty : DiskType) : ∀ geos ∈ [false, true],
    ∀ i ∈ List.range (bamTracks ty), nextSeqOK ty geos (i + 1) = true := by
  cases ty
  · exact nextSeq_d64
  · exact nextSeq_d71
  · exact nextSeq_d81

structure NextSeqFacts (ty : DiskType) (geos : Bool) (prev : Nat) : Prop where
  ends : (nextSeq ty geos prev).2 = .err .diskFull
  range : ∀ x ∈ (nextSeq ty geos prev).1, 1 ≤ x.1 ∧ x.1 ≤ bamTracks ty
  data : ∀ x ∈ (nextSeq ty geos prev).1, x.1 = prev ∨ systemTrack ty x.1 = false
  up : ∀ x ∈ (nextSeq ty geos prev).1, x.2 = false → geos = true → prev ≤ x.1
  covers : systemTrack ty prev = false → ∀ t, 1 ≤ t → t ≤ bamTracks ty →
    systemTrack ty t = false → ∃ x ∈ (nextSeq ty geos prev).1, x.1 = t

theorem nextSeq_facts (ty : DiskType) (geos : Bool) {prev : Nat} (h1 : 1 ≤ prev)
    (h2 : prev ≤ bamTracks ty) : NextSeqFacts ty geos prev := by
  have h := nextSeq_checked ty geos (by cases geos <;> simp) (prev - 1)
    (by simp; omega)
  rw [show prev - 1 + 1 = prev by omega] at h
  unfold nextSeqOK at h
  simp only [Bool.and_eq_true, decide_eq_true_eq, List.all_eq_true, Bool.or_eq_true, beq_iff_eq,
    Bool.not_eq_true'] at h
  obtain ⟨⟨ha, hb⟩, hc⟩ := h
  refine ⟨ha, fun x hx => ⟨(hb x hx).1.1.1, (hb x hx).1.1.2⟩, fun x hx => (hb x hx).1.2, ?_, ?_⟩
  · intro x hx e1 e2
    rcases (hb x hx).2 with (h | h) | h
    · rw [e1] at h; cases h
    · rw [e2] at h; cases h
    · exact h
  · intro hs t ht1 ht2 hst
    rcases hc with h | h
    · rw [hs] at h; cases h
    · have hm := dataMask_checked ty (mem_diskTypes ty) (t - 1) (by simp; omega)
      rw [show t - 1 + 1 = t by omega] at hm
      rcases hm with hm | hm
      · rw [hst] at hm; cases hm
      · apply trackMask_mem
        rw [← h, Nat.testBit_and, Bool.and_eq_true] at hm
        exact hm.1

/-- Visiting order of `first_free_track`: as a single table check. -/
theorem firstSeq_checked : ∀ ty ∈ [DiskType.d64, .d71, .d81],
    ∃ n, subU ty.format.directoryTrack ty.format.firstTrack = .ok (directoryTrack ty - 1) ∧
    addU8 ty.format.lastTrack 1 = .ok (bamTracks ty + 1) ∧
    subU (bamTracks ty + 1) ty.format.directoryTrack = .ok n ∧
    let r := firstSeq ty.format ((List.range (max (directoryTrack ty - 1) n)).map (· + 1))
    r.2 = .err .diskFull ∧
    (∀ t ∈ r.1, 1 ≤ t ∧ t ≤ bamTracks ty ∧ t ≠ directoryTrack ty) ∧
    (∀ t ∈ List.range (bamTracks ty), t + 1 = directoryTrack ty ∨ t + 1 ∈ r.1) := by
  intro ty hty
  simp only [List.mem_cons, List.not_mem_nil, or_false] at hty
  rcases hty with rfl | rfl | rfl
  · exact ⟨18, by decide +kernel⟩
  · exact ⟨53, by decide +kernel⟩
  · exact ⟨41, by decide +kernel⟩

end Cbm
