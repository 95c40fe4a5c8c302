import Verif.Lemmas.Geos
/-!
# GEOS files: C44, C45, C46
-/

namespace Cbm
open Spec
variable {d : Device} {s : Shape} {entry : DirectoryEntry}

/-! ## C44 -/

theorem vlirRecords_index {b : List Byte} (h : b.length = 256) (h0 : byteAt b 0 = 0)
    (h1 : byteAt b 1 ≠ 0) :
    vlirRecords b = (if byteAt b 1 = 0xFF then none else some ⟨0, byteAt b 1⟩) ::
      (vlirIndex b).map fun l => if l = noRecord then none else some l := by
  obtain ⟨x, y, rest, rfl⟩ : ∃ x y rest, b = x :: y :: rest := by
    match b, h with
    | x :: y :: rest, _ => exact ⟨x, y, rest, rfl⟩
  have hx : x = 0 := h0
  have hy : y ≠ 0 := h1
  subst hx
  rw [vlirRecords_pairs]
  unfold vlirIndex
  rw [show (0 :: y :: rest).drop 2 = rest from rfl]
  conv => lhs; unfold pairs
  rw [List.takeWhile_cons_of_pos (by simpa using hy), List.map_cons]
  congr 1
  show (if (⟨0, y⟩ : Location) = noRecord then none else some (⟨0, y⟩ : Location)) =
    if y = 0xFF then none else some (⟨0, y⟩ : Location)
  by_cases hf : y = 0xFF
  · rw [if_pos hf, if_pos (by rw [hf]; rfl)]
  · rw [if_neg hf, if_neg]
    intro h
    injection h with _ h'
    exact hf h'

/-- **C44** (partial: the index counts from one instead of zero).  For a VLIR file
whose index sector is marked as the last of its chain, record `i + 1` is the
record named by the `i`-th pair of the index; record 0 is empty or does not
exist, and there are no others. -/
theorem C44_shifted_partial {disk : Disk} {ref : Nat} (hw : Wf disk.dev s)
    (hb : disk.bamRef = .ok ref) (hsc : entry.scheme = .geosVLIR) (hv : entry.isVlir = .ok true)
    (hvx : s.Valid entry.firstSector) (h0 : byteAt (disk.dev.blk s entry.firstSector) 0 = 0)
    (h1 : byteAt (disk.dev.blk s entry.firstSector) 1 ≠ 0) :
    ∃ f : File, disk.openFileFromEntry entry = .ok (f, ref) ∧
      f.recordCount = (vlirIndex (disk.dev.blk s entry.firstSector)).length + 1 ∧
      (f.record disk.dev 0 = .ok [] ∨ f.record disk.dev 0 = fail .invalidLocation) ∧
      (∀ i p content, (vlirIndex (disk.dev.blk s entry.firstSector))[i]? = some p →
        (f.record disk.dev (i + 1) = .ok content ↔ RecordAt disk.dev s p content)) ∧
      ∀ i, f.recordCount ≤ i → f.record disk.dev i = fail .invalidRecordIndex := by
  have hrec := vlirRecords_index (hw.blk_length hvx) h0 h1
  refine ⟨.geosVLIR ⟨entry, some (vlirRecords (disk.dev.blk s entry.firstSector))⟩, ?_, ?_, ?_, ?_, ?_⟩
  · unfold Disk.openFileFromEntry File.fromEntry GEOSFile.new
    rw [hb, hsc]
    simp only [res_bind_ok, hv, if_true, hw.sector hvx, res_pure]
  · show (vlirRecords (disk.dev.blk s entry.firstSector)).length = _
    rw [hrec, List.length_cons, List.length_map]
  · show GEOSFile.record ⟨entry, some (vlirRecords (disk.dev.blk s entry.firstSector))⟩ disk.dev 0 = _ ∨
      GEOSFile.record ⟨entry, some (vlirRecords (disk.dev.blk s entry.firstSector))⟩ disk.dev 0 = _
    unfold GEOSFile.record GEOSFile.recordStart
    rw [hrec]
    simp only [List.getElem?_cons_zero, res_bind_ok]
    split
    · rename_i l heq
      split at heq
      · cases heq
      · injection heq with heq
        subst heq
        right
        obtain ⟨ls, e, hp, hst, hc⟩ := content_of_walk hw ⟨0, byteAt (disk.dev.blk s entry.firstSector) 1⟩
        have hnv : ¬ s.Valid ⟨0, byteAt (disk.dev.blk s entry.firstSector) 1⟩ := by
          intro h
          exact absurd h.1 (by decide : ¬ 1 ≤ (0 : UInt8).toNat)
        have hls : ls = [] := by
          cases ls with
          | nil => rfl
          | cons x xs =>
            have hx : x = ⟨0, byteAt (disk.dev.blk s entry.firstSector) 1⟩ := by
              have := hp.start
              simpa using this
            exact absurd (hx ▸ hp.valid x (by simp)) hnv
        subst hls
        have he : e = ⟨0, byteAt (disk.dev.blk s entry.firstSector) 1⟩ := by
          have := hp.start
          simpa using this
        rw [hc, if_neg (by simp), if_pos (by rw [he]; exact hnv)]
    · exact .inl rfl
  · intro i p content hp
    show GEOSFile.record ⟨entry, some (vlirRecords (disk.dev.blk s entry.firstSector))⟩ disk.dev (i + 1)
      = _ ↔ _
    unfold GEOSFile.record GEOSFile.recordStart
    rw [hrec]
    simp only [List.getElem?_cons_succ, List.getElem?_map, hp, Option.map_some, res_bind_ok]
    by_cases hn : p = noRecord
    · rw [if_pos hn]
      simp only [res_pure, Except.ok.injEq]
      constructor
      · intro h
        exact .inl ⟨hn, h.symm⟩
      · rintro (⟨-, h⟩ | ⟨h, -⟩)
        · exact h.symm
        · exact absurd hn h
    · rw [if_neg hn]
      simp only
      rw [C16_read_ok_iff hw]
      constructor
      · intro h
        exact .inr ⟨hn, h⟩
      · rintro (⟨h, -⟩ | ⟨-, h⟩)
        · exact absurd h hn
        · exact h
  · intro i hi
    show GEOSFile.record ⟨entry, some (vlirRecords (disk.dev.blk s entry.firstSector))⟩ disk.dev i = _
    have hi' : (vlirRecords (disk.dev.blk s entry.firstSector)).length ≤ i := hi
    unfold GEOSFile.record GEOSFile.recordStart
    simp only [List.getElem?_eq_none hi']
    rfl

/-- **C44** refuted: for every VLIR file with the usual index sector (marked as
last, all 255 bytes used) whose first record is not empty, record 0 is not that
record. -/
theorem C44_refuted {disk : Disk} {f : File} {ref : Nat} {p : Location} {content : List Byte}
    (hw : Wf disk.dev s) (hsc : entry.scheme = .geosVLIR) (hv : entry.isVlir = .ok true)
    (hvx : s.Valid entry.firstSector) (h0 : byteAt (disk.dev.blk s entry.firstSector) 0 = 0)
    (h1 : byteAt (disk.dev.blk s entry.firstSector) 1 = 0xFF)
    (hp : (vlirIndex (disk.dev.blk s entry.firstSector))[0]? = some p)
    (hr : RecordAt disk.dev s p content) (hne : content ≠ [])
    (ho : disk.openFileFromEntry entry = .ok (f, ref)) :
    f.record disk.dev 0 = .ok [] ∧ f.record disk.dev 0 ≠ .ok content ∧
      f.record disk.dev 1 = .ok content := by
  have hb : disk.bamRef = .ok ref := by
    unfold Disk.openFileFromEntry at ho
    cases hb : disk.bamRef with
    | error e => rw [hb] at ho; cases ho
    | ok r =>
      rw [hb, res_bind_ok] at ho
      cases hf : File.fromEntry disk.dev entry with
      | error e => rw [hf] at ho; cases ho
      | ok g =>
        rw [hf] at ho
        simp only [res_bind_ok, res_pure, Except.ok.injEq, Prod.mk.injEq] at ho
        rw [ho.2]
  obtain ⟨g, hg, -, -, hrec, -⟩ := C44_shifted_partial hw hb hsc hv hvx h0 (by rw [h1]; decide)
  rw [ho] at hg
  simp only [Except.ok.injEq, Prod.mk.injEq, and_true] at hg
  subst hg
  have hz : f.record disk.dev 0 = .ok [] := by
    unfold Disk.openFileFromEntry File.fromEntry GEOSFile.new at ho
    rw [hb, hsc] at ho
    simp only [res_bind_ok, hv, if_true, hw.sector hvx, res_pure, Except.ok.injEq, Prod.mk.injEq,
      and_true] at ho
    subst ho
    show GEOSFile.record ⟨entry, some (vlirRecords (disk.dev.blk s entry.firstSector))⟩ disk.dev 0 = _
    unfold GEOSFile.record GEOSFile.recordStart
    rw [vlirRecords_index (hw.blk_length hvx) h0 (by rw [h1]; decide), if_pos h1]
    rfl
  refine ⟨hz, ?_, (hrec 0 p content hp).2 hr⟩
  rw [hz]
  intro h
  injection h with h
  exact hne h.symm

/-! ## C45 -/

/-- **C45** (partial: the first read only).  The reader of a GEOS file can be made,
and its first read, of any size, delivers that many bytes of the export stream;
if it asks for more than there is, it gets all of it and later reads get
nothing. -/
theorem C45_first_read_partial (hw : Wf d s) {slot stream : List Byte} (hs : slot.length = 32)
    (p : Option Position) (he : Exports d s slot stream) :
    ∃ r, GEOSReader.new (DirectoryEntry.parse32 slot p) = .ok r ∧
      ∀ n, (r.read d n).1 = .ok (stream.take n) ∧
        (stream.length < n → ∀ m, ((r.read d n).2.read d m).1 = .ok []) := by
  obtain ⟨r, segs, hnew, hst, hbuf, hf, hfl, hlen, -⟩ := feeds_export hw hs p he
  refine ⟨r, hnew, fun n => ?_⟩
  obtain ⟨r', h1, h2, -⟩ := readLoop_feeds hf 200 n [] (by omega)
  have hread : r.read d n = (.ok (stream.take n), r') := by
    unfold GEOSReader.read
    rw [if_neg (by rw [hst]; simp), h1, hfl, List.nil_append]
  rw [hread]
  refine ⟨rfl, fun hlt m => ?_⟩
  unfold GEOSReader.read
  rw [if_pos (h2 (by rw [hfl]; exact hlt))]

/-- The results of reading again and again with buffers of the given sizes. -/
def GEOSReader.reads (d : Device) : GEOSReader → List Nat → List (Res (List Byte))
  | _, [] => []
  | r, n :: ns => (r.read d n).1 :: GEOSReader.reads d (r.read d n).2 ns

/-- **C45** refuted: with buffers of at most 254 bytes every read delivers the
beginning of the stream again, so reading never gets past the first block and
never ends. -/
theorem C45_small_reads_refuted (hw : Wf d s) {slot stream : List Byte} (hs : slot.length = 32)
    (p : Option Position) (he : Exports d s slot stream) :
    ∃ r, GEOSReader.new (DirectoryEntry.parse32 slot p) = .ok r ∧ 254 < stream.length ∧
      ∀ sizes : List Nat, (∀ n ∈ sizes, n ≤ 254) →
        r.reads d sizes = sizes.map fun n => .ok (stream.take n) := by
  obtain ⟨r, segs, hnew, hst, hbuf, hf, hfl, hlen, -⟩ := feeds_export hw hs p he
  refine ⟨r, hnew, ?_, fun sizes => ?_⟩
  · cases he with
    | sequential _ _ hv _ _ =>
      simp only [List.length_append, (exportHead_length hs _).2, List.length_drop, hw.blk_length hv]
      omega
    | vlir _ _ hv _ _ _ =>
      simp only [List.length_append, (exportHead_length hs _).2, List.length_drop, hw.blk_length hv]
      omega
  · induction sizes with
    | nil => intro _; rfl
    | cons n ns ih =>
      intro hsm
      obtain ⟨r', h1, -, h3⟩ := readLoop_feeds hf 200 n [] (by omega)
      have hr : r' = r := h3 (by rw [hbuf]; exact hsm n (by simp))
      have hread : r.read d n = (.ok (stream.take n), r) := by
        unfold GEOSReader.read
        rw [if_neg (by rw [hst]; simp), h1, hfl, List.nil_append, hr]
      unfold GEOSReader.reads
      rw [hread, List.map_cons]
      simp only
      rw [ih fun m hm => hsm m (by simp [hm])]

/-! ### Every read returns -/

theorem chainContent_returns (hw : Wf d s) (l : Location) :
    (∃ c, chainContent d l = .ok c) ∨ ∃ e, chainContent d l = fail e := by
  obtain ⟨ls, e, _, _, hc⟩ := content_of_walk hw l
  rw [hc]
  split
  · exact .inr ⟨_, rfl⟩
  split
  · exact .inr ⟨_, rfl⟩
  split
  · exact .inr ⟨_, rfl⟩
  · exact .inl ⟨_, rfl⟩

theorem scanItems_returns : ∀ (items : List (Res ChainSector)) (acc : Nat × Nat), acc.2 ≤ 255 →
    (∀ x ∈ items, (∃ e, x = fail e) ∨ ∃ c, x = .ok c ∧ 1 ≤ c.data.length ∧ c.data.length ≤ 256) →
    (∃ e, scanItems items acc = fail e) ∨ ∃ n k, scanItems items acc = .ok (n, k) ∧ k ≤ 255
  | [], acc, ha, _ => .inr ⟨acc.1, acc.2, rfl, ha⟩
  | x :: xs, acc, ha, h => by
    rcases h x (by simp) with ⟨e, rfl⟩ | ⟨c, rfl, h1, h2⟩
    · exact .inl ⟨e, rfl⟩
    · unfold scanItems
      simp only [subU, if_pos h1, res_bind_ok]
      exact scanItems_returns xs _ (by simp; omega) fun y hy => h y (by simp [hy])

theorem scanChain_returns (hw : Wf d s) (l : Location) :
    (∃ c, scanChain d l = .ok c) ∨ ∃ e, scanChain d l = fail e := by
  obtain ⟨ls, e, hit, hp, hst⟩ := chainItems_walk hw l
  unfold scanChain
  rw [hit]
  have hall := scanItems_returns (ls.map (fun l => .ok ⟨d.blk s l, l⟩) ++ [stopItem d s ls e]) (0, 0)
    (by simp) (by
      intro x hx
      rcases List.mem_append.1 hx with hx | hx
      · obtain ⟨m, hm, rfl⟩ := List.mem_map.1 hx
        exact .inr ⟨_, rfl, by rw [hw.blk_length (hp.valid m hm)]; omega,
          by rw [hw.blk_length (hp.valid m hm)]; omega⟩
      · simp only [List.mem_singleton] at hx
        subst hx
        unfold stopItem
        split
        · exact .inl ⟨_, rfl⟩
        split
        · exact .inl ⟨_, rfl⟩
        split
        · exact .inl ⟨_, rfl⟩
        · rename_i hv _
          have := hw.blk_length (Decidable.not_not.1 hv)
          exact .inr ⟨_, rfl, by rw [List.length_take]; omega, by rw [List.length_take]; omega⟩)
  rcases hall with ⟨e, he⟩ | ⟨n, k, hk, hle⟩
  · rw [he]; exact .inr ⟨e, rfl⟩
  · rw [hk]
    simp only [res_bind_ok]
    split
    · exact .inr ⟨_, rfl⟩
    · rw [if_neg (by omega)]
      exact .inl ⟨_, rfl⟩

theorem convertIndex_returns (hw : Wf d s) : ∀ b : List Byte,
    (∃ items, convertIndex d b = .ok items ∧ items.length ≤ b.length / 2) ∨
      ∃ e, convertIndex d b = fail e
  | [] => .inl ⟨[], rfl, by simp⟩
  | [_] => .inl ⟨[], rfl, by simp⟩
  | x :: y :: rest => by
    unfold convertIndex
    split
    · exact .inl ⟨[], rfl, by simp⟩
    · have hcons : ∀ item : Option Location × Byte × Byte,
          (∃ items, (do let items ← convertIndex d rest; pure (item :: items) : Res _) = .ok items ∧
            items.length ≤ (x :: y :: rest).length / 2) ∨
          ∃ e, (do let items ← convertIndex d rest; pure (item :: items) : Res _) = fail e := by
        intro item
        rcases convertIndex_returns hw rest with ⟨items, hr, hlen⟩ | ⟨e, he⟩
        · rw [hr]
          exact .inl ⟨_, rfl, by simp only [List.length_cons]; omega⟩
        · rw [he]; exact .inr ⟨_, rfl⟩
      simp only
      split
      · exact hcons _
      · rcases scanChain_returns hw ⟨x, y⟩ with ⟨c, hc⟩ | ⟨e, he⟩
        · rw [hc]; exact hcons _
        · rw [he]; exact .inr ⟨_, rfl⟩

/-- How many segments are left at most. -/
def segmentsLeft (r : GEOSReader) : Nat :=
  match r.state with
  | .directoryEntry => 131
  | .infoBlock => 130
  | .vlirIndexBlock | .records => r.chains.length + 1
  | .finished => 0

/-- The states a reader can be in. -/
structure ReaderOk (r : GEOSReader) : Prop where
  few : r.chains.length ≤ 127
  early : r.state = .directoryEntry ∨ r.state = .infoBlock → r.chains = []

theorem nextRecord_returns (hw : Wf d s) {r : GEOSReader} (hr : ReaderOk r) (hst : r.state = .records) :
    ∃ res r', r.nextRecord d = (res, r') ∧ ReaderOk r' ∧ ((∃ e, res = fail e) ∨
      (res = .ok () ∧ (r'.state = .finished ∨ segmentsLeft r' < r.chains.length + 1))) := by
  unfold GEOSReader.nextRecord
  cases hch : r.chains with
  | nil =>
    exact ⟨_, _, rfl, ⟨by simp, fun _ => rfl⟩, .inr ⟨rfl, .inl rfl⟩⟩
  | cons c cs =>
    have hf := hr.few
    rw [hch] at hf
    simp at hf
    simp only
    rcases chainContent_returns hw c with ⟨x, hx⟩ | ⟨e, he⟩
    · rw [hx]
      refine ⟨_, _, rfl, ⟨by simp; omega, by simp [hst]⟩, .inr ⟨rfl, .inr ?_⟩⟩
      unfold segmentsLeft
      simp [hst]
    · rw [he]
      exact ⟨_, _, rfl, ⟨by simp; omega, by simp [hst]⟩, .inl ⟨e, rfl⟩⟩

theorem nextState_returns (hw : Wf d s) {r : GEOSReader} (hr : ReaderOk r) :
    ∃ res r', r.nextState d = (res, r') ∧ ReaderOk r' ∧ ((∃ e, res = fail e) ∨
      (res = .ok () ∧ (r'.state = .finished ∨ segmentsLeft r' < segmentsLeft r))) := by
  unfold GEOSReader.nextState
  cases hst : r.state with
  | directoryEntry =>
    have hch := hr.early (.inl hst)
    simp only
    by_cases hv : s.Valid r.info
    · rw [hw.sector hv]
      exact ⟨_, _, rfl, ⟨hr.few, fun _ => hch⟩, .inr ⟨rfl, .inr (by unfold segmentsLeft; rw [hst]; simp)⟩⟩
    · rw [hw.sector_invalid hv]
      exact ⟨_, _, rfl, ⟨hr.few, fun _ => hch⟩, .inl ⟨_, rfl⟩⟩
  | infoBlock =>
    have hch := hr.early (.inr hst)
    simp only
    split
    · unfold GEOSReader.processIndex
      simp only
      by_cases hv : s.Valid r.start
      · rw [hw.sector hv, res_bind_ok]
        rcases convertIndex_returns hw ((d.blk s r.start).drop 2) with ⟨items, hi, hlen⟩ | ⟨e, he⟩
        · rw [hi]
          rw [List.length_drop, hw.blk_length hv] at hlen
          have h2 := List.length_filterMap_le (fun i : Option Location × Byte × Byte => i.1) items
          refine ⟨_, _, rfl, ⟨by simp; omega, by simp⟩, .inr ⟨rfl, .inr ?_⟩⟩
          unfold segmentsLeft
          simp only [hst]
          omega
        · rw [he]
          exact ⟨_, _, rfl, ⟨hr.few, by simp⟩, .inl ⟨e, rfl⟩⟩
      · rw [hw.sector_invalid hv]
        exact ⟨_, _, rfl, ⟨hr.few, by simp⟩, .inl ⟨_, rfl⟩⟩
    · refine ⟨_, _, rfl, ⟨by simp [hch], by simp⟩, .inr ⟨rfl, .inr ?_⟩⟩
      unfold segmentsLeft
      simp [hst, hch]
  | vlirIndexBlock =>
    obtain ⟨res, r', h1, h2, h3⟩ := nextRecord_returns hw (r := { r with state := .records })
      ⟨hr.few, by simp⟩ rfl
    refine ⟨res, r', h1, h2, h3.imp id fun ⟨h4, h5⟩ => ⟨h4, h5.imp id fun h6 => ?_⟩⟩
    unfold segmentsLeft at h6 ⊢
    rw [hst]
    exact h6
  | records =>
    obtain ⟨res, r', h1, h2, h3⟩ := nextRecord_returns hw hr hst
    refine ⟨res, r', h1, h2, h3.imp id fun ⟨h4, h5⟩ => ⟨h4, h5.imp id fun h6 => ?_⟩⟩
    unfold segmentsLeft at h6 ⊢
    rw [hst]
    exact h6
  | finished => exact ⟨_, _, rfl, hr, .inr ⟨rfl, .inl hst⟩⟩

theorem readLoop_returns (hw : Wf d s) : ∀ (fuel : Nat) (r : GEOSReader) (want : Nat) (acc : List Byte),
    ReaderOk r → segmentsLeft r < fuel →
    ∃ res r', r.readLoop d fuel want acc = (res, r') ∧ ReaderOk r' ∧
      ((∃ e, res = fail e) ∨ ∃ out, res = .ok (acc ++ out) ∧ out.length ≤ want)
  | 0, _, _, _, _, hl => by omega
  | fuel + 1, r, want, acc, hr, hl => by
    unfold GEOSReader.readLoop
    simp only
    split
    · rename_i he
      refine ⟨_, _, rfl, hr, .inr ⟨_, rfl, ?_⟩⟩
      rw [List.length_take]; omega
    · rename_i he
      rw [Nat.min_eq_right (by omega), List.drop_length]
      simp only [List.isEmpty_nil, if_true]
      obtain ⟨res, r', h1, h2, h3⟩ := nextState_returns hw (r := { r with buffer := [] })
        ⟨hr.few, hr.early⟩
      rw [h1]
      rcases h3 with ⟨e, rfl⟩ | ⟨rfl, h3⟩
      · exact ⟨_, _, rfl, h2, .inl ⟨e, rfl⟩⟩
      · simp only
        split
        · refine ⟨_, _, rfl, h2, .inr ⟨_, rfl, ?_⟩⟩
          rw [List.length_take]; omega
        · rename_i hne
          have hlt : segmentsLeft r' < segmentsLeft r := by
            rcases h3 with h | h
            · exact absurd h hne
            · exact h
          obtain ⟨res, r'', g1, g2, g3⟩ := readLoop_returns hw fuel r' (want - r.buffer.length)
            (acc ++ r.buffer.take r.buffer.length) h2 (by omega)
          rw [g1]
          refine ⟨_, _, rfl, g2, g3.imp id fun ⟨out, h4, h5⟩ => ⟨r.buffer ++ out, ?_, ?_⟩⟩
          · rw [h4, List.take_length, List.append_assoc]
          · rw [List.length_append]; omega

theorem geosReader_ok {r : GEOSReader} (hnew : GEOSReader.new entry = .ok r) : ReaderOk r := by
  unfold GEOSReader.new at hnew
  simp only at hnew
  cases hf : entry.toBytes (slice (List.replicate 256 (0 : Byte)) 0 ENTRY_SIZE) with
  | error e => rw [hf] at hnew; cases hnew
  | ok front =>
    rw [hf, res_bind_ok] at hnew
    cases hv : entry.isVlir with
    | error e => rw [hv] at hnew; cases hnew
    | ok v =>
      rw [hv, res_bind_ok] at hnew
      cases hi : entry.infoLocation with
      | error e => rw [hi] at hnew; cases hnew
      | ok o =>
        rw [hi, res_bind_ok] at hnew
        cases o with
        | none => cases hnew
        | some info =>
          simp only [res_pure, Except.ok.injEq] at hnew
          subst hnew
          exact ⟨by simp, fun _ => rfl⟩

theorem geosRead_returns (hw : Wf d s) {r : GEOSReader} (hr : ReaderOk r) (n : Nat) :
    ∃ res r', r.read d n = (res, r') ∧ ReaderOk r' ∧
      ((∃ e, res = fail e) ∨ ∃ out, res = .ok out ∧ out.length ≤ n) := by
  unfold GEOSReader.read
  split
  · exact ⟨_, _, rfl, hr, .inr ⟨[], rfl, by simp⟩⟩
  · have hl : segmentsLeft r < 200 := by
      unfold segmentsLeft
      have := hr.few
      split <;> omega
    obtain ⟨res, r', h1, h2, h3⟩ := readLoop_returns hw 200 r n [] hr hl
    refine ⟨res, r', h1, h2, h3.imp id fun ⟨out, h4, h5⟩ => ⟨out, by simpa using h4, h5⟩⟩

/-- **C45** Whatever the image holds, every read of a GEOS file's export stream
returns: an error, or no more bytes than asked for. -/
theorem C45_reads_return (hw : Wf d s) {r : GEOSReader} (hnew : GEOSReader.new entry = .ok r) :
    ∀ sizes : List Nat, ∀ res ∈ r.reads d sizes, (∃ e, res = fail e) ∨
      ∃ out n, n ∈ sizes ∧ res = .ok out ∧ out.length ≤ n := by
  have hr : ReaderOk r := geosReader_ok hnew
  clear hnew
  intro sizes
  induction sizes generalizing r with
  | nil => intro res h; cases h
  | cons n ns ih =>
    intro res hres
    obtain ⟨res0, r', h1, h2, h3⟩ := geosRead_returns hw hr n
    unfold GEOSReader.reads at hres
    rw [h1] at hres
    rcases List.mem_cons.1 hres with rfl | hres
    · exact h3.imp id fun ⟨out, h4, h5⟩ => ⟨out, n, by simp, h4, h5⟩
    · exact (ih h2 res hres).imp id fun ⟨out, m, h4, h5⟩ => ⟨out, m, by simp [h4], h5⟩

/-! ## C46 -/

/-- The fields of an info block. -/
def infoOf (b : List Byte) : GEOSInfo :=
  ⟨⟨slice b 5 63⟩, .fromByte (byteAt b 0x44), .fromByte (byteAt b 0x45),
    .fromByte (byteAt b 0x46), (byteAt b 0x48).toNat * 256 + (byteAt b 0x47).toNat,
    (byteAt b 0x4A).toNat * 256 + (byteAt b 0x49).toNat,
    (byteAt b 0x4C).toNat * 256 + (byteAt b 0x4B).toNat, slice b 0x4D 20, slice b 0x61 20,
    slice b 0x75 20, slice b 0x89 23, slice b 0xA0 96⟩

theorem info_parse {b : List Byte} (h : b.length = 256) : GEOSInfo.fromBytes b = .ok (infoOf b) := by
  have hidx : ∀ k, k < 256 → indexRes b k = .ok (byteAt b k) := by
    intro k hk
    rw [indexRes_ok (by omega)]
    simp only [byteAt, List.getD_eq_getElem?_getD]
    rw [List.getElem?_eq_getElem (by omega)]
    rfl
  have hle : ∀ k, k + 1 < 256 →
      u16FromLe b k = .ok ((byteAt b (k + 1)).toNat * 256 + (byteAt b k).toNat) := by
    intro k hk
    unfold u16FromLe
    rw [hidx k (by omega), res_bind_ok, hidx (k + 1) hk, res_bind_ok]
    rfl
  have hsp : Sprite.fromBytes (slice b 5 63) = .ok ⟨slice b 5 63⟩ :=
    if_pos (length_slice _ _ _ (by omega))
  unfold GEOSInfo.fromBytes
  rw [subSlice_ok (by omega), res_bind_ok, hsp, res_bind_ok, hidx 0x44 (by omega), res_bind_ok,
    hidx 0x45 (by omega), res_bind_ok, hidx 0x46 (by omega), res_bind_ok, hle 0x47 (by omega),
    res_bind_ok, hle 0x49 (by omega), res_bind_ok, hle 0x4B (by omega), res_bind_ok,
    subSlice_ok (show 0x4D + 20 ≤ b.length by omega), res_bind_ok,
    subSlice_ok (show 0x61 + 20 ≤ b.length by omega), res_bind_ok,
    subSlice_ok (show 0x75 + 20 ≤ b.length by omega), res_bind_ok,
    subSlice_ok (show 0x89 + 23 ≤ b.length by omega), res_bind_ok,
    subSlice_ok (show 0xA0 + 96 ≤ b.length by omega), res_bind_ok]
  rfl

/-- **C46** (partial: parsing only).  Every 256-byte info block parses, and the
fields are the bytes at the places of the info block. -/
theorem C46_parse_partial (b : List Byte) (h : b.length = 256) :
    ∃ i, GEOSInfo.fromBytes b = .ok i ∧ i.icon.data = slice b 5 63 ∧
      i.attributes.toByte = byteAt b 0x44 ∧ i.fileType.toByte = byteAt b 0x45 ∧
      i.structure_.toByte = byteAt b 0x46 ∧
      i.load = (byteAt b 0x47).toNat + 256 * (byteAt b 0x48).toNat ∧
      i.end = (byteAt b 0x49).toNat + 256 * (byteAt b 0x4A).toNat ∧
      i.start = (byteAt b 0x4B).toNat + 256 * (byteAt b 0x4C).toNat ∧
      i.class = slice b 0x4D 20 ∧ i.author = slice b 0x61 20 ∧ i.application = slice b 0x75 20 ∧
      i.reserved = slice b 0x89 23 ∧ i.description = slice b 0xA0 96 := by
  have hc : ∀ x y : Nat, x * 256 + y = y + 256 * x := fun x y => by omega
  exact ⟨infoOf b, info_parse h, rfl, attr_toByte_fromByte _,
    geosType_toByte_fromByte _, structure_toByte_fromByte _, hc _ _, hc _ _, hc _ _, rfl, rfl, rfl, rfl, rfl⟩

/-- **C46** refuted: writing back a parsed info block always panics. -/
theorem C46_refuted (b out : List Byte) (h : b.length = 256) (i : GEOSInfo)
    (hi : GEOSInfo.fromBytes b = .ok i) : i.toBytes out = .error .panic := by
  obtain ⟨i', hi', hic, -, -, -, -, -, -, h1, h2, h3, h4, h5⟩ := C46_parse_partial b h
  rw [hi] at hi'
  cases hi'
  have key : ∀ xs : List Byte, putString xs 0x75 20 i.description = .error .panic := by
    intro xs
    unfold putString
    by_cases hl : 0x75 + 20 ≤ xs.length
    · rw [subSlice_ok hl, res_bind_ok]
      unfold copyFromSlice
      rw [if_neg]
      · rfl
      · rw [h5, length_slice _ _ _ (by omega), length_slice _ _ _ hl]
        decide
    · rw [subSlice_panic hl]; rfl
  have bind_panic : ∀ {α : Type} (m : Res α) (f : α → Res (List Byte)),
      (m = .error .panic ∨ ∃ a, m = .ok a) → (∀ a, f a = .error .panic) →
      (m >>= f) = .error .panic := by
    intro α m f hm hf
    rcases hm with rfl | ⟨a, rfl⟩
    · rfl
    · exact hf a
  have hput : ∀ xs o n str, putString xs o n str = .error .panic ∨ ∃ a, putString xs o n str = .ok a := by
    intro xs o n str
    unfold putString subSlice copyFromSlice
    split
    · rw [res_bind_ok]
      split
      · exact .inr ⟨_, rfl⟩
      · exact .inl rfl
    · exact .inl rfl
  have hbyte : ∀ xs o x, putByte xs o x = .error .panic ∨ ∃ a, putByte xs o x = .ok a := by
    intro xs o x
    unfold putByte
    split
    · exact .inr ⟨_, rfl⟩
    · exact .inl rfl
  have hle : ∀ xs o x, u16ToLe xs o x = .error .panic ∨ ∃ a, u16ToLe xs o x = .ok a := by
    intro xs o x
    unfold u16ToLe
    split
    · exact .inr ⟨_, rfl⟩
    · exact .inl rfl
  unfold GEOSInfo.toBytes
  refine bind_panic _ _ (by unfold subSlice; split; exact .inr ⟨_, rfl⟩; exact .inl rfl) fun _ => ?_
  refine bind_panic _ _ (by unfold Sprite.toBytes; split; exact .inr ⟨_, rfl⟩; exact .inl rfl) fun _ => ?_
  refine bind_panic _ _ (hbyte _ _ _) fun _ => ?_
  refine bind_panic _ _ (hbyte _ _ _) fun _ => ?_
  refine bind_panic _ _ (hbyte _ _ _) fun _ => ?_
  refine bind_panic _ _ (hle _ _ _) fun _ => ?_
  refine bind_panic _ _ (hle _ _ _) fun _ => ?_
  refine bind_panic _ _ (hle _ _ _) fun _ => ?_
  refine bind_panic _ _ (hput _ _ _ _) fun _ => ?_
  refine bind_panic _ _ (hput _ _ _ _) fun _ => ?_
  refine bind_panic _ _ (hput _ _ _ _) fun _ => ?_
  refine bind_panic _ _ (hput _ _ _ _) fun _ => ?_
  exact key _

/-! ## Witnesses -/

/-- A VLIR file: index sector (1, 0) with one record (1, 1) of three bytes, one
absent record, and a record (1, 2) of one byte; info block (1, 3). -/
def sampleVlir : Device :=
  imageOf ([0x00, 0xFF, 1, 1, 0, 0xFF, 1, 2] ++ List.replicate 248 0 ++
    ([0x00, 4, 1, 2, 3] ++ List.replicate 251 0) ++ ([0x00, 2, 9] ++ List.replicate 253 0))

theorem sampleVlir_wf : Wf sampleVlir ⟨.d64, 35, false⟩ := imageOf_wf _ (by decide +kernel)

/-- Its directory entry: closed PRG, first sector (1, 0), info block (1, 3),
structure VLIR, type application data. -/
def sampleVlirSlot : List Byte :=
  [0, 0, 0x82, 1, 0] ++ List.replicate 16 0x41 ++ [1, 3, 1, 7, 0, 0, 0, 0, 0, 4, 0]

theorem sampleVlir_exports : ∃ stream, Exports sampleVlir ⟨.d64, 35, false⟩ sampleVlirSlot stream := by
  refine ⟨_, .vlir (info := ⟨1, 3⟩) (index := ⟨1, 0⟩) (records := [[1, 2, 3], [9]])
    (lengths := [1, 4, 0, 0xFF, 1, 2]) (by decide +kernel) (by decide +kernel) (by decide +kernel)
    (by decide +kernel) (by decide +kernel) ?_⟩
  have e : vlirIndex (sampleVlir.blk ⟨.d64, 35, false⟩ ⟨1, 0⟩) = [⟨1, 1⟩, noRecord, ⟨1, 2⟩] := by
    decide +kernel
  rw [e]
  have h4 : byteAt (sampleVlir.blk ⟨.d64, 35, false⟩ ⟨1, 1⟩) 1 = 4 := by decide +kernel
  have h2 : byteAt (sampleVlir.blk ⟨.d64, 35, false⟩ ⟨1, 2⟩) 1 = 2 := by decide +kernel
  have c1 : IsChain sampleVlir ⟨.d64, 35, false⟩ ([] ++ [⟨1, 1⟩]) [1, 2, 3] :=
    ⟨by decide +kernel, by decide, trivial, [], ⟨1, 1⟩, rfl, by decide +kernel, by decide +kernel,
      by decide +kernel⟩
  have c2 : IsChain sampleVlir ⟨.d64, 35, false⟩ ([] ++ [⟨1, 2⟩]) [9] :=
    ⟨by decide +kernel, by decide, trivial, [], ⟨1, 2⟩, rfl, by decide +kernel, by decide +kernel,
      by decide +kernel⟩
  have := Converted.present (by decide) rfl c1 (by decide)
    (.absent (.present (by decide) rfl c2 (by decide) .nil))
  rw [h4, h2] at this
  exact this

example : sampleVlirSlot.length = 32 := by decide

/-- The hypotheses of `C44_refuted` hold of it. -/
example : (DirectoryEntry.parse32 sampleVlirSlot none).scheme = .geosVLIR ∧
    (DirectoryEntry.parse32 sampleVlirSlot none).isVlir = .ok true ∧
    (DirectoryEntry.parse32 sampleVlirSlot none).firstSector = ⟨1, 0⟩ ∧
    byteAt (sampleVlir.blk ⟨.d64, 35, false⟩ ⟨1, 0⟩) 0 = 0 ∧
    byteAt (sampleVlir.blk ⟨.d64, 35, false⟩ ⟨1, 0⟩) 1 = 0xFF ∧
    RecordAt sampleVlir ⟨.d64, 35, false⟩ ⟨1, 1⟩ [1, 2, 3] := by
  refine ⟨by decide +kernel, by decide +kernel, by decide +kernel, by decide +kernel,
    by decide +kernel, .inr ⟨by decide, [⟨1, 1⟩], rfl, by decide +kernel, by decide, trivial, [],
      ⟨1, 1⟩, rfl, by decide +kernel, by decide +kernel, by decide +kernel⟩⟩

example : ∃ i, GEOSInfo.fromBytes (List.replicate 256 0) = .ok i := by
  obtain ⟨i, h, -⟩ := C46_parse_partial (List.replicate 256 0) List.length_replicate
  exact ⟨i, h⟩

end Cbm
