import Verif.Spec.Robust
import Verif.Lemmas.Listed
import Verif.Lemmas.Settled
import Verif.Lemmas.Standing
import Verif.Props.Format
import Verif.Props.Open
import Verif.Props.Relative
import Verif.Props.Geos
import Verif.Props.Validate
import Verif.Props.Report
import Verif.Props.Details
import Verif.Props.Special
/-!
# Damaged images: C78
-/

namespace Cbm
open Spec
variable {disk : Disk} {s : Shape} {d : Device} {e : DirectoryEntry} {f : File} {ref : Nat} {α β : Type}

/-! ## Calls that come back -/

theorem returns_ok (a : α) : Returns (.ok a : Res α) := ⟨nofun, nofun⟩
theorem returns_fail (e : DiskError) : Returns (fail e : Res α) := ⟨nofun, nofun⟩

theorem Spec.Returns.of_or {r : Res α} (h : (∃ a, r = .ok a) ∨ ∃ e, r = fail e) : Returns r := by
  rcases h with ⟨a, rfl⟩ | ⟨e, rfl⟩
  · exact returns_ok a
  · exact returns_fail e

theorem Spec.Returns.cases {r : Res α} (h : Returns r) : (∃ a, r = .ok a) ∨ ∃ e, r = fail e := by
  cases r with
  | ok a => exact .inl ⟨a, rfl⟩
  | error x =>
    cases x with
    | err y => exact .inr ⟨y, rfl⟩
    | panic => exact absurd rfl h.1
    | diverge => exact absurd rfl h.2

theorem Spec.Returns.bind {r : Res α} {k : α → Res β} (h : Returns r) (hk : ∀ a, r = .ok a → Returns (k a)) :
    Returns (r >>= k) := by
  rcases h.cases with ⟨a, rfl⟩ | ⟨y, rfl⟩
  · exact hk a rfl
  · exact returns_fail y

theorem Spec.Returns.error {q : Fail} (h : Returns (.error q : Res α)) : Returns (.error q : Res β) :=
  ⟨fun e => h.1 (by cases e; rfl), fun e => h.2 (by cases e; rfl)⟩

/-- Items none of which panics. -/
theorem returns_collect : ∀ {xs : List (Res α)}, (∀ x ∈ xs, Returns x) → Returns (collectRes xs)
  | [], _ => returns_ok _
  | .error q :: xs, h => (h (.error q) (by simp)).error
  | .ok a :: xs, h => by
    unfold collectRes
    exact (returns_collect fun x hx => h x (List.mem_cons_of_mem _ hx)).bind fun _ _ => returns_ok _

theorem returns_find (name : Petscii) : ∀ {xs : List (Res DirectoryEntry)}, (∀ x ∈ xs, Returns x) →
    Returns (findItem name xs)
  | [], _ => returns_fail _
  | .error q :: xs, h => h (.error q) (by simp)
  | .ok a :: xs, h => by
    unfold findItem
    split
    · exact returns_ok _
    · exact returns_find name fun x hx => h x (List.mem_cons_of_mem _ hx)

theorem mem_of_find {name : Petscii} : ∀ {xs : List (Res DirectoryEntry)}, findItem name xs = .ok e →
    .ok e ∈ xs ∧ e.filename = name
  | [], h => by cases h
  | .error q :: xs, h => by cases h
  | .ok a :: xs, h => by
    unfold findItem at h
    split at h
    · rename_i hn
      cases h
      exact ⟨by simp, hn⟩
    · obtain ⟨h1, h2⟩ := mem_of_find h
      exact ⟨List.mem_cons_of_mem _ h1, h2⟩

theorem returns_sector (hw : Wf d s) (l : Location) : Returns (d.sector l) := by
  by_cases hv : s.Valid l
  · rw [hw.sector hv]; exact returns_ok _
  · rw [hw.sector_invalid hv]; exact returns_fail _

theorem returns_chainItems (hw : Wf d s) (start : Location) : ∀ x ∈ chainItems d start, Returns x := by
  intro x hx
  obtain ⟨good, bad, hi, -, -, -, hb⟩ := C15_walk_terminates hw start
  rw [hi, List.mem_append] at hx
  rcases hx with hx | hx
  · obtain ⟨y, -, rfl⟩ := List.mem_map.1 hx
    exact returns_ok _
  · rcases hb with rfl | rfl | rfl | rfl
    · cases hx
    · rw [List.mem_singleton.1 hx]; exact returns_fail _
    · rw [List.mem_singleton.1 hx]; exact returns_fail _
    · rw [List.mem_singleton.1 hx]; exact returns_fail _

theorem returns_locations (hw : Wf d s) (l : Location) : Returns (chainLocations d l) := by
  unfold chainLocations
  exact (returns_collect (returns_chainItems hw l)).bind fun _ _ => returns_ok _

theorem returns_content (hw : Wf d s) (l : Location) : Returns (chainContent d l) :=
  .of_or (chainContent_returns hw l)

theorem returns_items (hw : Wf disk.dev s) : ∀ x ∈ disk.items, Returns x := by
  intro x hx
  unfold Disk.items at hx
  split at hx
  · rename_i q hq
    rw [List.mem_singleton.1 hx]
    unfold Disk.diskFormat at hq
    split at hq
    · cases hq
    · cases hq; exact returns_fail _
  · split at hx
    · rename_i q hq
      rw [List.mem_singleton.1 hx]
      unfold Disk.getHeader at hq
      split at hq
      · cases hq
      · cases hq; exact returns_fail _
    · unfold directoryItems at hx
      obtain ⟨it, hit, hx⟩ := List.mem_flatMap.1 hx
      have hr : Returns it := by
        unfold directoryBlocks at hit
        rcases List.mem_append.1 hit with hit | hit
        · exact returns_chainItems hw _ it hit
        · split at hit
          · rename_i g _
            rw [List.mem_singleton.1 hit]
            rcases (returns_sector hw g.border).cases with ⟨y, hy⟩ | ⟨y, hy⟩
            · rw [hy]; exact returns_ok _
            · rw [hy]; exact returns_fail _
          · cases hit
      cases it with
      | error q =>
        rw [List.mem_singleton.1 hx]
        exact hr.error
      | ok cs =>
        obtain ⟨y, -, rfl⟩ := List.mem_map.1 hx
        exact returns_ok _

/-! ## Looking around -/

theorem returns_bamRef : Returns disk.bamRef := by
  unfold Disk.bamRef
  split
  · exact returns_ok _
  · exact returns_fail _

theorem Spec.Standing.cell {r : Nat} (h : Standing disk s) (hr : disk.bamRef = .ok r) :
    disk.bam = some r ∧ ∃ b, indexRes disk.cells r = .ok b ∧ disk.cells[r]? = some b ∧ BamOf b s.type := by
  unfold Disk.bamRef at hr
  split at hr
  · rename_i q hq
    cases hr
    obtain ⟨b, hb, ho⟩ := h.bam _ hq
    refine ⟨hq, b, ?_, hb, ho⟩
    unfold indexRes
    rw [hb]
  · cases hr

/-- **C78** Looking around on a disk, whatever its image holds: listing the directory, looking up a name,
asking whether a name is available, reading any sector and counting the free blocks come back
with a result or an error. -/
theorem C78_looking (h : Standing disk s) :
    Returns disk.directory ∧ Returns disk.blocksFree ∧
    ∀ name l, Returns (disk.findDirectoryEntry name) ∧ Returns (disk.checkFilenameAvailability name) ∧
      Returns (disk.readSector l) := by
  have hfind : ∀ name, Returns (disk.findDirectoryEntry name) := fun name =>
    returns_find name (returns_items h.wf)
  refine ⟨returns_collect (returns_items h.wf), ?_, fun name l => ⟨hfind name, ?_, returns_sector h.wf l⟩⟩
  · unfold Disk.blocksFree
    refine returns_bamRef.bind fun r hr => ?_
    obtain ⟨-, b, hb, -, ho⟩ := h.cell hr
    obtain ⟨n, hn⟩ := blocksFree_total ho
    rw [hb, res_bind_ok, hn]
    exact returns_ok _
  · unfold Disk.checkFilenameAvailability
    rcases (hfind name).cases with ⟨a, ha⟩ | ⟨y, hy⟩
    · rw [ha]; exact returns_fail _
    · rw [hy]
      show Returns (match (fail y : Res DirectoryEntry) with
        | .ok _ => fail .fileExists
        | .error (.err .notFound) => .ok ()
        | .error e => .error e)
      split
      · exact returns_fail _
      · exact returns_ok _
      · rename_i q _ hq
        cases hq
        exact returns_fail y

/-! ## Opening a file -/

/-- What a listed entry opens as. -/
theorem fromEntry_cases (hw : Wf d s) {p : Position} (hp : InSlot d s e p) :
    File.fromEntry d e ≠ .error .diverge ∧ (File.fromEntry d e = .error .panic ↔ BadRelative d s e) := by
  have hne : ∀ {sc : Scheme}, e.scheme = sc → sc ≠ .relative → ¬ BadRelative d s e :=
    fun h1 h2 h3 => h2 (h1 ▸ h3.1)
  have hgeos : (e.scheme = .geosSequential ∨ e.scheme = .geosVLIR) → Returns (GEOSFile.new d e) := by
    intro hs
    unfold GEOSFile.new
    rw [hp.isVlir hs, res_bind_ok]
    split
    · exact (returns_sector hw _).bind fun _ _ => returns_ok _
    · exact returns_ok _
  unfold File.fromEntry
  cases hs : e.scheme with
  | linear =>
    exact ⟨nofun, nofun, fun h => absurd h (hne hs nofun)⟩
  | geosSequential =>
    have := (hgeos (.inl hs)).bind (k := fun f => (pure (.geosSequential f) : Res File)) fun _ _ => returns_ok _
    exact ⟨this.2, fun h => absurd h this.1, fun h => absurd h (hne hs nofun)⟩
  | geosVLIR =>
    have := (hgeos (.inr hs)).bind (k := fun f => (pure (.geosVLIR f) : Res File)) fun _ _ => returns_ok _
    exact ⟨this.2, fun h => absurd h this.1, fun h => absurd h (hne hs nofun)⟩
  | relative =>
    have hx : ∃ ex, e.extra = .relative ex := by
      obtain ⟨border, heq⟩ := hp.entry
      have hsch : entryScheme (slotData d s p) = .relative := by
        rw [← hs, heq]
        rfl
      rw [heq]
      simp only [entryAt, DirectoryEntry.parse32, hsch, Extra.fromBytes]
      exact ⟨_, rfl⟩
    obtain ⟨ex, hx⟩ := hx
    obtain ⟨h1, h2⟩ := C43_panics_iff_refuted hw hx
    have hbad : BadRelative d s e ↔ RelativeFile.new d e = .error .panic := by
      rw [h2]
      constructor
      · rintro ⟨-, ex', hx', h⟩
        rw [hx] at hx'
        cases hx'
        exact h
      · exact fun h => ⟨hs, ex, hx, h⟩
    rw [hbad]
    simp only
    cases hn : RelativeFile.new d e with
    | ok q => exact ⟨nofun, nofun, nofun⟩
    | error q =>
      cases q with
      | err y => exact ⟨nofun, nofun, nofun⟩
      | panic => exact ⟨nofun, fun _ => rfl, fun _ => rfl⟩
      | diverge => exact absurd hn h1

/-- **C78** Opening a file by name never loops for ever, and it panics if and only if the disk has a
BAM and the first entry with that name belongs to a relative file with one of the two kinds of damage. -/
theorem C78_opening (h : Standing disk s) (name : Petscii) :
    disk.openFile name ≠ .error .diverge ∧
    (disk.openFile name = .error .panic ↔
      disk.bam ≠ none ∧ ∃ e, disk.findDirectoryEntry name = .ok e ∧ BadRelative disk.dev s e) := by
  unfold Disk.openFile
  rcases ((C78_looking h).2.2 name ⟨0, 0⟩).1.cases with ⟨e, he⟩ | ⟨y, hy⟩
  · obtain ⟨p, -, hp⟩ := item_slot h.wf (mem_of_find he).1
    obtain ⟨h1, h2⟩ := fromEntry_cases h.wf hp
    rw [he, res_bind_ok]
    unfold Disk.openFileFromEntry Disk.bamRef
    cases hb : disk.bam with
    | none => exact ⟨nofun, nofun, fun h => absurd rfl h.1⟩
    | some r =>
      have : (∃ e', (Except.ok e : Res DirectoryEntry) = .ok e' ∧ BadRelative disk.dev s e') ↔
          BadRelative disk.dev s e :=
        ⟨fun ⟨e', h, hb⟩ => by cases h; exact hb, fun h => ⟨e, rfl, h⟩⟩
      rw [this, ← h2]
      simp only [res_bind_ok]
      cases hn : File.fromEntry disk.dev e with
      | ok q => exact ⟨nofun, nofun, fun h => nomatch h.2⟩
      | error q =>
        cases q with
        | err y => exact ⟨nofun, nofun, fun h => nomatch h.2⟩
        | panic => exact ⟨nofun, fun _ => ⟨nofun, rfl⟩, fun _ => rfl⟩
        | diverge => exact absurd hn h1
  · rw [hy]
    exact ⟨nofun, nofun, fun ⟨_, e, he, _⟩ => nomatch he⟩

/-! ## Reading a file -/

/-- What a reader has seen: different sectors of the disk, unless it has seen the end. -/
def ReaderSound (s : Shape) (r : ChainReader) : Prop :=
  r.chain.next = none ∨ r.chain.visited.Nodup ∧ ∀ l ∈ r.chain.visited, s.Valid l

/-- How often the loop can go round. -/
def roundsLeft (s : Shape) (r : ChainReader) : Nat :=
  (if r.chain.next = none then 0 else 2 * (s.sectors + 1 - r.chain.visited.length)) +
    (if r.block = none then 0 else 1) + 2

theorem step_sound (hw : Wf d s) {it : ChainIter} (h : it.next = none ∨ it.visited.Nodup ∧ ∀ l ∈ it.visited, s.Valid l) :
    (it.next = none ∧ it.step d = (none, it)) ∨
    (∃ y it', it.step d = (some (fail y), it') ∧ it'.next = none) ∨
    (∃ c it', it.step d = (some (.ok c), it') ∧ 2 ≤ c.data.length ∧
      (it'.next = none ∨ it'.visited.Nodup ∧ ∀ l ∈ it'.visited, s.Valid l) ∧
      it.next ≠ none ∧ it.visited.length < s.sectors + 1 ∧ it'.visited.length = it.visited.length + 1) := by
  unfold ChainIter.step
  cases hn : it.next with
  | none => exact .inl ⟨rfl, rfl⟩
  | some l =>
    right
    rcases h with h | ⟨h1, h2⟩
    · rw [hn] at h; cases h
    simp only
    split
    · exact .inl ⟨_, _, rfl, rfl⟩
    · rename_i hv
      by_cases hl : s.Valid l
      · have hlen := hw.blk_length hl
        have hcount := nodup_valid_length it.visited h1 h2
        rw [hw.sector hl]
        simp only
        rw [chainLink_new _ (by omega)]
        by_cases h0 : byteAt (d.blk s l) 0 = 0
        · rw [if_pos h0]
          by_cases h3 : byteAt (d.blk s l) 1 = 0
          · rw [if_pos h3]
            exact .inl ⟨_, _, rfl, rfl⟩
          · rw [if_neg h3]
            refine .inr ⟨_, _, rfl, ?_, .inl rfl, nofun, by omega, rfl⟩
            have : (byteAt (d.blk s l) 1).toNat ≠ 0 := fun h => h3 (UInt8.toNat.inj h)
            simp only [List.length_take, hlen]
            omega
        · rw [if_neg h0]
          refine .inr ⟨_, _, rfl, ?_, .inr ⟨List.nodup_cons.2 ⟨hv, h1⟩, ?_⟩, nofun, by omega, rfl⟩
          · simp only [List.length_take, hlen]
            decide
          · intro m hm
            rcases List.mem_cons.1 hm with rfl | hm
            · exact hl
            · exact h2 m hm
      · rw [hw.sector_invalid hl]
        exact .inl ⟨_, _, rfl, rfl⟩

theorem chainRead_loop (hw : Wf d s) : ∀ (fuel : Nat) (r : ChainReader) (want : Nat) (acc : List Byte),
    ReaderSound s r → roundsLeft s r ≤ fuel →
    Returns (r.readLoop d fuel want acc).1 ∧ ReaderSound s (r.readLoop d fuel want acc).2.2
  | 0, r, _, _, _, hl => by
    unfold roundsLeft at hl
    omega
  | fuel + 1, r, want, acc, hr, hl => by
    have hfuel : ∃ k, fuel = k + 1 := by
      unfold roundsLeft at hl
      exact ⟨fuel - 1, by omega⟩
    obtain ⟨k, hk⟩ := hfuel
    unfold ChainReader.readLoop
    split
    · exact ⟨returns_ok _, hr⟩
    · cases hb : r.block with
      | some block =>
        simp only
        by_cases hlen : block.length = min block.length want
        · rw [if_pos hlen]
          refine chainRead_loop hw fuel _ _ _ hr ?_
          unfold roundsLeft at hl ⊢
          rw [hb] at hl
          simp only [reduceCtorEq, if_false, if_true] at hl ⊢
          omega
        · have hz : want - min block.length want = 0 := by omega
          rw [hz, hk]
          unfold ChainReader.readLoop
          rw [if_pos (.inl rfl)]
          exact ⟨returns_ok _, hr⟩
      | none =>
        simp only
        rcases step_sound hw hr with ⟨hn, hs⟩ | ⟨y, it', hs, hn⟩ | ⟨c, it', hs, hc, ht, hne, h1, h2⟩
        · rw [hs, hk]
          simp only
          unfold ChainReader.readLoop
          rw [if_pos (.inr rfl)]
          exact ⟨returns_ok _, hr⟩
        · rw [hs]
          exact ⟨returns_fail y, .inl hn⟩
        · rw [hs]
          simp only
          rw [if_neg (by omega)]
          refine chainRead_loop hw fuel _ _ _ ht ?_
          unfold roundsLeft at hl ⊢
          rw [hb, if_neg hne] at hl
          simp only [reduceCtorEq, if_false, if_true] at hl ⊢
          split <;> omega

theorem chainRead_returns (hw : Wf d s) {r : ChainReader} (hr : ReaderSound s r) (n : Nat) :
    Returns (r.read d n).1 ∧ ReaderSound s (r.read d n).2 := by
  have hl : roundsLeft s r ≤ 2 * chainFuel + 2 * n + 2 := by
    have := sectors_le hw.shape
    unfold roundsLeft chainFuel
    split <;> split <;> omega
  obtain ⟨h1, h2⟩ := chainRead_loop hw _ r n [] hr hl
  unfold ChainReader.read
  generalize r.readLoop d (2 * chainFuel + 2 * n + 2) n [] = x at h1 h2 ⊢
  obtain ⟨res, out, r'⟩ := x
  cases res with
  | ok u => exact ⟨returns_ok _, h2⟩
  | error q => exact ⟨h1.error, h2⟩

theorem chainReads_return {r : ChainReader} (hr : ReaderSound s r) : ∀ (reads : List (Device × Nat)),
    (∀ x ∈ reads, Wf x.1 s) → ∀ x ∈ across (fun r d n => r.read d n) r reads, Returns x
  | [], _, x, hx => by cases hx
  | (d, n) :: rest, hw, x, hx => by
    obtain ⟨h1, h2⟩ := chainRead_returns (hw (d, n) (by simp)) hr n
    rcases List.mem_cons.1 hx with rfl | hx
    · exact h1
    · exact chainReads_return h2 rest (fun y hy => hw y (List.mem_cons_of_mem _ hy)) x hx

theorem geosReads_return {r : GEOSReader} (hr : ReaderOk r) : ∀ (reads : List (Device × Nat)),
    (∀ x ∈ reads, Wf x.1 s) → ∀ x ∈ across (fun r d n => r.read d n) r reads, Returns x
  | [], _, x, hx => by cases hx
  | (d, n) :: rest, hw, x, hx => by
    obtain ⟨res, r', h1, h2, h3⟩ := geosRead_returns (hw (d, n) (by simp)) hr n
    unfold across at hx
    simp only [h1] at hx
    rcases List.mem_cons.1 hx with rfl | hx
    · exact .of_or (h3.symm.imp (fun ⟨o, h, _⟩ => ⟨o, h⟩) id)
    · exact geosReads_return h2 rest (fun y hy => hw y (List.mem_cons_of_mem _ hy)) x hx

theorem returns_position (hw : Wf d s) {p : Position} (h : p.offset.toNat + p.size.toNat ≤ 256) :
    Returns (d.readPosition p) := by
  unfold Device.readPosition
  refine (returns_sector hw _).bind fun block hb => ?_
  have hv := hw.sector_isOk hb
  unfold subSlice
  rw [if_pos (by rw [hv.2, hw.blk_length hv.1]; exact h)]
  exact returns_ok _

theorem recordPosition_fits {q : RelativeFile} {i : Nat} (hL : q.recordSize ≤ 255) (h0 : 0 < q.recordSize)
    (hin : q.recordSize * i + q.recordSize ≤ 254 * q.dataSectors.length) (hi : i < q.records) :
    ∃ p o, q.recordPosition i = .ok (p, o) ∧ p.offset.toNat + p.size.toNat ≤ 256 ∧
      ∀ p', o = some p' → p'.offset.toNat + p'.size.toNat ≤ 256 := by
  unfold RelativeFile.recordPosition
  rw [if_neg (by omega)]
  simp only [show BLOCK_SIZE - 2 = 254 from rfl, show BLOCK_SIZE = 256 from rfl]
  have hoff : q.recordSize * i = 254 * (q.recordSize * i / 254) + q.recordSize * i % 254 :=
    (Nat.div_add_mod _ _).symm
  have hmod : q.recordSize * i % 254 < 254 := Nat.mod_lt _ (by omega)
  generalize q.recordSize * i / 254 = a at *
  generalize q.recordSize * i % 254 = m at *
  have hu : ∀ n : Nat, n < 256 → (UInt8.ofNat n).toNat = n := fun n hn => by
    rw [UInt8.toNat_ofNat']; omega
  have hget : ∀ {k : Nat}, k < q.dataSectors.length → ∃ l, indexRes q.dataSectors k = .ok l := by
    intro k hk
    unfold indexRes
    rw [List.getElem?_eq_getElem hk]
    exact ⟨_, rfl⟩
  obtain ⟨l, hl⟩ := hget (k := a) (by omega)
  rw [hl, res_bind_ok]
  split
  · rename_i hfit
    refine ⟨_, _, rfl, ?_, nofun⟩
    show (UInt8.ofNat (m + 2)).toNat + (UInt8.ofNat q.recordSize).toNat ≤ 256
    rw [hu _ (by omega), hu _ (by omega)]
    exact hfit
  · rename_i hfit
    obtain ⟨l', hl'⟩ := hget (k := a + 1) (by omega)
    rw [hl', res_bind_ok]
    refine ⟨_, _, rfl, ?_, fun p' hp' => ?_⟩
    · show (UInt8.ofNat (m + 2)).toNat +
        (UInt8.ofNat (q.recordSize - (m + 2 + q.recordSize - 256))).toNat ≤ 256
      rw [hu _ (by omega), hu _ (by omega)]
      omega
    · cases hp'
      show (2 : Byte).toNat + (UInt8.ofNat (m + 2 + q.recordSize - 256)).toNat ≤ 256
      rw [hu _ (by omega), show (2 : Byte).toNat = 2 from rfl]
      omega

/-- Records of a relative file that was opened, read later, from whatever the disk then holds. -/
theorem returns_relative {q : RelativeFile} {ex : RelativeExtra} {d' : Device} (hw : Wf d s) (hw' : Wf d' s)
    (hx : e.extra = .relative ex) (hq : RelativeFile.new d e = .ok q) (i : Nat) :
    Returns (q.record d' i) := by
  obtain ⟨side, data, size, -, hsz, hL, ⟨n, hn⟩, rfl⟩ := (C42_open_iff hw hx q).1 hq
  have hpos : 0 < ex.recordLength.toNat := Nat.pos_of_ne_zero fun h => hL (UInt8.toNat.inj h)
  have hle : ex.recordLength.toNat ≤ 255 := by have := UInt8.toNat_lt ex.recordLength; omega
  have hsize : size ≤ 254 * data.length := by
    rcases hsz with ⟨rfl, rfl⟩ | ⟨init, t, rfl, -, -, -, rfl⟩
    · simp
    · rw [List.length_append, List.length_singleton]
      have := UInt8.toNat_lt (byteAt (d.blk s t) 1)
      omega
  by_cases hi : i < n
  · have hin : ex.recordLength.toNat * i + ex.recordLength.toNat ≤ 254 * data.length := by
      have : ex.recordLength.toNat * (i + 1) ≤ ex.recordLength.toNat * n := Nat.mul_le_mul_left _ (by omega)
      rw [Nat.mul_add, Nat.mul_one] at this
      omega
    obtain ⟨p, o, h1, h2, h3⟩ := recordPosition_fits (i := i)
      (q := ⟨e, ex.recordLength.toNat, data, side, size / ex.recordLength.toNat⟩) hle hpos hin
      (by show i < size / ex.recordLength.toNat; rw [hn, Nat.mul_div_cancel_left _ hpos]; exact hi)
    unfold RelativeFile.record
    rw [h1, res_bind_ok]
    refine (returns_position hw' h2).bind fun a _ => ?_
    have hfin : ∀ b, Returns (if (a ++ b).length ≠ ex.recordLength.toNat then fail .invalidRelativeFile
        else pure (a ++ b) : Res (List Byte)) := by
      intro b
      split
      · exact returns_fail _
      · exact returns_ok _
    cases o with
    | none => exact hfin []
    | some p' => exact (returns_position hw' (h3 p' rfl)).bind fun b _ => hfin b
  · have : (⟨e, ex.recordLength.toNat, data, side, size / ex.recordLength.toNat⟩ : RelativeFile).recordPosition i
        = fail .invalidRecordIndex := by
      unfold RelativeFile.recordPosition
      rw [if_pos]
      show i ≥ size / ex.recordLength.toNat
      rw [hn, Nat.mul_div_cancel_left _ hpos]
      omega
    unfold RelativeFile.record
    rw [this]
    exact returns_fail _

theorem returns_recordChains (hw : Wf d s) : ∀ rs : List (Option Location), Returns (recordChains d rs)
  | [] => returns_ok _
  | none :: rs => returns_recordChains hw rs
  | some l :: rs => by
    unfold recordChains
    exact (returns_locations hw l).bind fun _ _ => (returns_recordChains hw rs).bind fun _ _ => returns_ok _

theorem InSlot.geos {p : Position} (hp : InSlot d s e p)
    (hs : e.scheme = .geosSequential ∨ e.scheme = .geosVLIR) : ∃ g, e.extra = .geos g := by
  obtain ⟨border, heq⟩ := hp.entry
  have hsch : e.scheme = entryScheme (slotData d s p) := by rw [heq]; rfl
  rw [hsch] at hs
  obtain ⟨g, hg, -⟩ := (parse32_geos (slotData d s p) (some p) hs).1
  rw [heq]
  exact ⟨g, hg⟩

theorem infoLocation_ok {g : GEOSExtra} (hg : e.extra = .geos g) : ∃ o, e.infoLocation = .ok o := by
  unfold DirectoryEntry.infoLocation
  rw [hg]
  exact ⟨_, rfl⟩

/-- What can be done with the handle of a GEOS file. -/
theorem returns_geos {p : Position} {g : GEOSFile} {d' : Device} (hw : Wf d s) (hw' : Wf d' s)
    (hp : InSlot d s e p) (hs : e.scheme = .geosSequential ∨ e.scheme = .geosVLIR) (he : g.entry = e) :
    (∀ i, Returns (g.record d' i)) ∧ Returns (g.occupiedSectors d') ∧ Returns (g.info d') ∧
      Returns (GEOSReader.new g.entry) := by
  obtain ⟨x, hx⟩ := hp.geos hs
  obtain ⟨o, ho⟩ := infoLocation_ok hx
  refine ⟨fun i => ?_, ?_, ?_, ?_⟩
  · have hst : Returns (g.recordStart i) := by
      unfold GEOSFile.recordStart
      split
      · split
        · exact returns_ok _
        · exact returns_fail _
      · exact returns_ok _
    unfold GEOSFile.record
    refine hst.bind fun a _ => ?_
    cases a with
    | none => exact returns_ok _
    | some l => exact returns_content hw' l
  · unfold GEOSFile.occupiedSectors
    rw [he, ho]
    refine (returns_locations hw' _).bind fun _ _ => ?_
    rw [res_bind_ok]
    cases g.vlir with
    | none => exact returns_ok _
    | some records => exact (returns_recordChains hw' records).bind fun _ _ => returns_ok _
  · unfold GEOSFile.info
    rw [he, ho, res_bind_ok]
    cases o with
    | none => exact returns_ok _
    | some l =>
      refine (returns_sector hw' l).bind fun block hb => ?_
      obtain ⟨hv, rfl⟩ := hw'.sector_isOk hb
      rw [info_parse (hw'.blk_length hv)]
      exact returns_ok _
  · obtain ⟨-, hn, hxb⟩ := hp.writable hw
    have hlen : (slice (List.replicate 256 (0 : Byte)) 0 ENTRY_SIZE).length = 32 := by decide +kernel
    obtain ⟨y, hy⟩ := hxb (slice (slice (List.replicate 256 (0 : Byte)) 0 ENTRY_SIZE) 0x15 9)
      (length_slice _ _ _ (by rw [hlen]; decide))
    unfold GEOSReader.new
    simp only
    rw [he, toBytes_ok hlen hn hy, res_bind_ok, hp.isVlir hs, res_bind_ok, ho, res_bind_ok]
    cases o with
    | none => exact returns_fail _
    | some l => exact returns_ok _

/-- The file an entry of the directory opens as. -/
theorem opened_file {name : Petscii} (h : Standing disk s) (ho : disk.openFile name = .ok (f, ref)) :
    ∃ e p, .ok e ∈ disk.items ∧ e.filename = name ∧ InSlot disk.dev s e p ∧
      File.fromEntry disk.dev e = .ok f := by
  unfold Disk.openFile at ho
  obtain ⟨e, he, ho⟩ := res_bind_eq_ok.1 ho
  obtain ⟨hm, hn⟩ := mem_of_find he
  obtain ⟨p, -, hp⟩ := item_slot h.wf hm
  exact ⟨e, p, hm, hn, hp, (openFile_parts ho).2⟩

/-- The four kinds of handles. -/
theorem handle_cases (hf : File.fromEntry d e = .ok f) :
    (e.scheme = .linear ∧ f = .linear e) ∨
    (e.scheme = .relative ∧ ∃ q, RelativeFile.new d e = .ok q ∧ f = .relative q) ∨
    ((e.scheme = .geosSequential ∨ e.scheme = .geosVLIR) ∧ ∃ g, g.entry = e ∧
      (f = .geosSequential g ∨ f = .geosVLIR g)) := by
  have hg : ∀ {g : GEOSFile}, GEOSFile.new d e = .ok g → g.entry = e := by
    intro g h
    unfold GEOSFile.new at h
    obtain ⟨v, -, h⟩ := res_bind_eq_ok.1 h
    cases v with
    | true =>
      obtain ⟨b, -, h⟩ := res_bind_eq_ok.1 h
      cases h
      rfl
    | false => cases h; rfl
  unfold File.fromEntry at hf
  cases hs : e.scheme with
  | linear =>
    rw [hs] at hf
    cases hf
    exact .inl ⟨rfl, rfl⟩
  | relative =>
    rw [hs] at hf
    obtain ⟨q, hq, hf⟩ := res_bind_eq_ok.1 hf
    cases hf
    exact .inr (.inl ⟨rfl, q, hq, rfl⟩)
  | geosSequential =>
    rw [hs] at hf
    obtain ⟨q, hq, hf⟩ := res_bind_eq_ok.1 hf
    cases hf
    exact .inr (.inr ⟨.inl rfl, q, hg hq, .inl rfl⟩)
  | geosVLIR =>
    rw [hs] at hf
    obtain ⟨q, hq, hf⟩ := res_bind_eq_ok.1 hf
    cases hf
    exact .inr (.inr ⟨.inr rfl, q, hg hq, .inr rfl⟩)

theorem InSlot.relative {p : Position} (hp : InSlot d s e p) (hs : e.scheme = .relative) :
    ∃ ex, e.extra = .relative ex := by
  obtain ⟨border, heq⟩ := hp.entry
  have hsch : entryScheme (slotData d s p) = .relative := by
    rw [← hs, heq]
    rfl
  rw [heq]
  simp only [entryAt, DirectoryEntry.parse32, hsch, Extra.fromBytes]
  exact ⟨_, rfl⟩

theorem returns_file {p : Position} {d' : Device} (hw : Wf d s) (hw' : Wf d' s) (hp : InSlot d s e p)
    (hf : File.fromEntry d e = .ok f) :
    (∀ i, Returns (f.record d' i)) ∧ Returns (f.occupiedSectors d') ∧ Returns f.reader ∧
    ∀ r, f.reader = .ok r → ReaderSound s r := by
  have hnew : ∀ l, ReaderSound s (ChainReader.new l) := fun l => .inr ⟨List.nodup_nil, nofun⟩
  have hgr : ∀ g : GEOSFile, Returns (match g.vlir with
      | some _ => fail .nonLinearFile
      | none => .ok (ChainReader.new g.entry.firstSector)) ∧
      ∀ r, (match g.vlir with
      | some _ => fail .nonLinearFile
      | none => .ok (ChainReader.new g.entry.firstSector)) = Except.ok r → ReaderSound s r := by
    intro g
    cases g.vlir with
    | none => exact ⟨returns_ok _, fun r hr => by cases hr; exact hnew _⟩
    | some _ => exact ⟨returns_fail _, fun r hr => by cases hr⟩
  rcases handle_cases hf with ⟨-, rfl⟩ | ⟨hs, q, hq, rfl⟩ | ⟨hs, g, hg, rfl | rfl⟩
  · refine ⟨fun i => ?_, ?_, returns_ok _, fun r hr => ?_⟩
    · unfold File.record
      simp only
      split
      · exact returns_content hw' _
      · exact returns_fail _
    · exact (returns_locations hw' _).bind fun _ _ => returns_ok _
    · cases hr
      exact hnew _
  · obtain ⟨ex, hx⟩ := hp.relative hs
    exact ⟨returns_relative hw hw' hx hq, returns_ok _, returns_fail _, fun r hr => by cases hr⟩
  · obtain ⟨h1, h2, -, -⟩ := returns_geos hw hw' hp hs hg
    exact ⟨h1, h2, (hgr g).1, (hgr g).2⟩
  · obtain ⟨h1, h2, -, -⟩ := returns_geos hw hw' hp hs hg
    exact ⟨h1, h2, (hgr g).1, (hgr g).2⟩

/-- **C78** What a program reads through the handle of a file that was opened, whatever the image
holds, and whatever it holds later, when the handle is used: each record, the list of the
sectors in use, the reader, and every read of the reader come back with a result or an
error. -/
theorem C78_reading {name : Petscii} {d' : Device} (h : Standing disk s) (ho : disk.openFile name = .ok (f, ref))
    (hw' : Wf d' s) :
    (∀ i, Returns (f.record d' i)) ∧ Returns (f.occupiedSectors d') ∧ Returns f.reader ∧
    ∀ r, f.reader = .ok r → ∀ reads : List (Device × Nat), (∀ x ∈ reads, Wf x.1 s) →
      ∀ x ∈ across (fun r d n => r.read d n) r reads, Returns x := by
  obtain ⟨e, p, -, -, hp, hf⟩ := opened_file h ho
  obtain ⟨h1, h2, h3, h4⟩ := returns_file h.wf hw' hp hf
  exact ⟨h1, h2, h3, fun r hr reads => chainReads_return (h4 r hr) reads⟩

/-- **C78** The same for what only GEOS files have: the info block, the export reader and every read
of it. -/
theorem C78_reading_geos {name : Petscii} {d' : Device} {g : GEOSFile} (h : Standing disk s)
    (ho : disk.openFile name = .ok (f, ref)) (hg : f = .geosSequential g ∨ f = .geosVLIR g) (hw' : Wf d' s) :
    Returns (g.info d') ∧ Returns (GEOSReader.new g.entry) ∧
    ∀ r, GEOSReader.new g.entry = .ok r → ∀ reads : List (Device × Nat), (∀ x ∈ reads, Wf x.1 s) →
      ∀ x ∈ across (fun r d n => r.read d n) r reads, Returns x := by
  obtain ⟨e, p, -, -, hp, hf⟩ := opened_file h ho
  have hge : (e.scheme = .geosSequential ∨ e.scheme = .geosVLIR) ∧ g.entry = e := by
    rcases handle_cases hf with ⟨-, rfl⟩ | ⟨-, q, -, rfl⟩ | ⟨hs, g', hg', rfl | rfl⟩
    · rcases hg with hg | hg <;> cases hg
    · rcases hg with hg | hg <;> cases hg
    · rcases hg with hg | hg <;> cases hg
      exact ⟨hs, hg'⟩
    · rcases hg with hg | hg <;> cases hg
      exact ⟨hs, hg'⟩
  obtain ⟨-, -, h1, h2⟩ := returns_geos h.wf hw' hp hge.1 hge.2
  exact ⟨h1, h2, fun r hr reads => geosReads_return (geosReader_ok hr) reads⟩

/-! ## Validating -/

theorem error_of_collectRes {q : Fail} : ∀ {xs : List (Res α)}, collectRes xs = .error q → .error q ∈ xs
  | [], h => by cases h
  | .error _ :: _, h => by cases h; simp
  | .ok a :: xs, h => by
    unfold collectRes at h
    cases hr : collectRes xs with
    | ok ys => rw [hr] at h; cases h
    | error q' =>
      rw [hr] at h
      cases h
      exact List.mem_cons_of_mem _ (error_of_collectRes hr)

theorem scanFile_cases (h : Standing disk s) (he : .ok e ∈ disk.items) :
    scanFile disk e ≠ .error .diverge ∧
    (scanFile disk e = .error .panic ↔ disk.bam ≠ none ∧ BadRelative disk.dev s e) := by
  obtain ⟨p, -, hp⟩ := item_slot h.wf he
  obtain ⟨h1, h2⟩ := fromEntry_cases h.wf hp
  rw [← h2]
  unfold scanFile Disk.openFileFromEntry Disk.bamRef
  cases hb : disk.bam with
  | none => exact ⟨nofun, nofun, fun h => absurd rfl h.1⟩
  | some r =>
    simp only [res_bind_ok]
    cases hn : File.fromEntry disk.dev e with
    | ok f =>
      obtain ⟨-, h3, -, -⟩ := returns_file h.wf h.wf hp hn
      exact ⟨h3.2, fun h => absurd h h3.1, fun h => nomatch h.2⟩
    | error q =>
      cases q with
      | err y => exact ⟨nofun, nofun, fun h => nomatch h.2⟩
      | panic => exact ⟨nofun, fun _ => ⟨nofun, rfl⟩, fun _ => rfl⟩
      | diverge => exact absurd hn h1

theorem scanAll_cases : ∀ (items : List (Res DirectoryEntry)) (acc : List (Location × Petscii) × List ValidationError),
    (∀ x ∈ items, Returns x) → (∀ e, .ok e ∈ items → scanFile disk e ≠ .error .diverge) →
    scanAll disk items acc ≠ .error .diverge ∧
    (scanAll disk items acc = .error .panic → ∃ e, .ok e ∈ items ∧ scanFile disk e = .error .panic) ∧
    ((∀ x ∈ items, ∃ e, x = .ok e) → (∃ e, .ok e ∈ items ∧ scanFile disk e = .error .panic) →
      scanAll disk items acc = .error .panic)
  | [], _, _, _ => ⟨nofun, nofun, fun _ ⟨_, h, _⟩ => nomatch h⟩
  | .error q :: rest, acc, hr, _ => by
    unfold scanAll
    have := (hr (.error q) (by simp)).error (β := List (Location × Petscii) × List ValidationError)
    exact ⟨this.2, fun h => absurd h this.1, fun h => by obtain ⟨e, he⟩ := h (.error q) (by simp); cases he⟩
  | .ok e :: rest, acc, hr, hd => by
    have hr' : ∀ x ∈ rest, Returns x := fun x hx => hr x (List.mem_cons_of_mem _ hx)
    have hd' : ∀ e, .ok e ∈ rest → scanFile disk e ≠ .error .diverge := fun x hx =>
      hd x (List.mem_cons_of_mem _ hx)
    have step : ∀ acc', scanFile disk e ≠ .error .panic →
        scanAll disk rest acc' ≠ .error .diverge ∧
        (scanAll disk rest acc' = .error .panic →
          ∃ x, .ok x ∈ (.ok e :: rest) ∧ scanFile disk x = .error .panic) ∧
        ((∀ x ∈ (.ok e :: rest), ∃ y, x = .ok y) →
          (∃ x, .ok x ∈ (.ok e :: rest) ∧ scanFile disk x = .error .panic) →
          scanAll disk rest acc' = .error .panic) := by
      intro acc' hne
      obtain ⟨h1, h2, h3⟩ := scanAll_cases rest acc' hr' hd'
      refine ⟨h1, fun h => ?_, fun hall ⟨x, hx, hp⟩ => ?_⟩
      · obtain ⟨x, hx, hp⟩ := h2 h
        exact ⟨x, List.mem_cons_of_mem _ hx, hp⟩
      · rcases List.mem_cons.1 hx with hx | hx
        · cases hx
          exact absurd hp hne
        · exact h3 (fun y hy => hall y (List.mem_cons_of_mem _ hy)) ⟨x, hx, hp⟩
    unfold scanAll
    cases hs : scanFile disk e with
    | ok ls => exact step _ (by rw [hs]; nofun)
    | error q =>
      cases q with
      | err y => exact step _ (by rw [hs]; nofun)
      | panic => exact ⟨nofun, fun _ => ⟨e, by simp, hs⟩, fun _ _ => rfl⟩
      | diverge => exact absurd hs (hd e (by simp))

/-- **C78** `validate` never loops for ever, whatever the image holds.  It panics only if the directory
has an entry of a relative file with one of the two kinds of damage; and if the directory can be
listed and the disk has a BAM, it does panic if there is such an entry. -/
theorem C78_validating (h : Standing disk s) :
    disk.validate ≠ .error .diverge ∧
    (disk.validate = .error .panic → ∃ e, .ok e ∈ disk.items ∧ BadRelative disk.dev s e) ∧
    ∀ entries, disk.directory = .ok entries → disk.bam ≠ none →
      (disk.validate = .error .panic ↔ ∃ e ∈ entries, BadRelative disk.dev s e) := by
  have hret : ∀ {r : Res (List ValidationError)}, Returns r → disk.validate = r →
      disk.validate ≠ .error .diverge ∧
      (disk.validate = .error .panic → ∃ e, .ok e ∈ disk.items ∧ BadRelative disk.dev s e) := by
    intro r hr he
    rw [he]
    exact ⟨hr.2, fun h => absurd h hr.1⟩
  have hnone : disk.bam = none ∨ disk.format = none ∨ disk.header = none → Returns disk.validate := by
    intro hn
    unfold Disk.validate
    unfold Disk.diskFormat
    cases hf : disk.format with
    | none => exact returns_fail _
    | some f =>
      obtain ⟨g, rfl⟩ := h.format f hf
      rw [res_bind_ok]
      refine returns_bamRef.bind fun r hr => ?_
      obtain ⟨hbr, b, hb, -, ho⟩ := h.cell hr
      obtain ⟨free, alloc, hfree, halloc, -, -, -⟩ := C39_bam_partition ho
      obtain ⟨sys, hsys, -⟩ := systemLocations_exact s.type g
      rw [hb, res_bind_ok, hsys, res_bind_ok, halloc, res_bind_ok, hfree, res_bind_ok]
      refine (returns_locations h.wf _).bind fun _ _ => ?_
      unfold Disk.getHeader
      have : disk.header = none := by
        rcases hn with hn | hn | hn
        · rw [hbr] at hn; cases hn
        · rw [hf] at hn; cases hn
        · exact hn
      rw [this]
      exact returns_fail _
  by_cases hn : disk.bam = none ∨ disk.format = none ∨ disk.header = none
  · refine ⟨(hnone hn).2, fun hp => absurd hp (hnone hn).1, fun entries hl hb => ?_⟩
    refine ⟨fun hp => absurd hp (hnone hn).1, fun _ => ?_⟩
    exfalso
    rcases hn with hn | hn | hn
    · exact hb hn
    · unfold Disk.directory Disk.items Disk.diskFormat at hl
      rw [hn] at hl
      cases hl
    · unfold Disk.directory Disk.items Disk.getHeader at hl
      rw [hn] at hl
      cases hf : disk.diskFormat with
      | error q => rw [hf] at hl; cases hl
      | ok f => rw [hf] at hl; cases hl
  · have hb : ∃ r, disk.bam = some r := by
      cases hb : disk.bam with
      | none => exact absurd (.inl hb) hn
      | some r => exact ⟨r, rfl⟩
    have hf : ∃ g, disk.format = some { s.type.format with geos := g } := by
      cases hf : disk.format with
      | none => exact absurd (.inr (.inl hf)) hn
      | some f =>
        obtain ⟨g, rfl⟩ := h.format f hf
        exact ⟨g, rfl⟩
    have hh : ∃ hd, disk.header = some hd := by
      cases hh : disk.header with
      | none => exact absurd (.inr (.inr hh)) hn
      | some hd => exact ⟨hd, rfl⟩
    obtain ⟨r, hb⟩ := hb
    obtain ⟨g, hf⟩ := hf
    obtain ⟨hd, hh⟩ := hh
    obtain ⟨b, hcell, ho⟩ := h.bam r hb
    have hidx : indexRes disk.cells r = .ok b := by
      unfold indexRes
      rw [hcell]
    obtain ⟨free, alloc, hfree, halloc, -, -, -⟩ := C39_bam_partition ho
    obtain ⟨sys, hsys, -⟩ := systemLocations_exact s.type g
    have hval : ∀ {dir : List Location},
        chainLocations disk.dev ({ s.type.format with geos := g } : DiskFormat).firstDirectoryLocation = .ok dir →
        (disk.validate ≠ .error .diverge ∧
        (disk.validate = .error .panic → ∃ e, .ok e ∈ disk.items ∧ BadRelative disk.dev s e)) ∧
        ((∀ x ∈ disk.items, ∃ e, x = .ok e) → (∃ e, .ok e ∈ disk.items ∧ BadRelative disk.dev s e) →
          disk.validate = .error .panic) := by
      intro dir hdir
      obtain ⟨h1, h2, h3⟩ := scanAll_cases disk.items
        ((sys ++ (dir ++ (hd.geos.map GEOSDiskHeader.border).toList)).map fun l => (l, SYSTEM_OWNER), [])
        (returns_items h.wf) fun e he => (scanFile_cases h he).1
      have hv : ∃ k : List (Location × Petscii) × List ValidationError → Res (List ValidationError),
          (∀ a, Returns (k a)) ∧ disk.validate = (scanAll disk disk.items
            ((sys ++ (dir ++ (hd.geos.map GEOSDiskHeader.border).toList)).map fun l => (l, SYSTEM_OWNER), [])
              >>= k) := by
        refine ⟨_, ?_, by
          unfold Disk.validate Disk.diskFormat Disk.bamRef Disk.getHeader
          simp only [hf, hb, hh, res_bind_ok, hidx, hsys, halloc, hfree, hdir]
          rfl⟩
        intro a
        obtain ⟨unocc, hun, -⟩ := invertLocations_exact s.type g (a.1.map Prod.fst)
        show Returns (invertLocations (a.1.map Prod.fst) { s.type.format with geos := g } >>= _)
        rw [hun, res_bind_ok]
        exact returns_ok _
      obtain ⟨k, hk, hv⟩ := hv
      rw [hv]
      refine ⟨⟨?_, ?_⟩, ?_⟩
      · cases hs : scanAll disk disk.items _ with
        | ok a => exact (hk a).2
        | error q =>
          rw [hs] at h1
          exact fun hq => h1 (by cases hq; rfl)
      · intro hp
        cases hs : scanAll disk disk.items _ with
        | ok a =>
          rw [hs] at hp
          exact absurd hp (hk a).1
        | error q =>
          rw [hs] at hp h2
          obtain ⟨e, he, hp⟩ := h2 (by cases hp; rfl)
          exact ⟨e, he, ((scanFile_cases h he).2.1 hp).2⟩
      · rintro hall ⟨e, he, hbad⟩
        rw [h3 hall ⟨e, he, (scanFile_cases h he).2.2 ⟨by rw [hb]; nofun, hbad⟩⟩]
        rfl
    rcases (returns_locations h.wf ({ s.type.format with geos := g } : DiskFormat).firstDirectoryLocation).cases with
      ⟨dir, hdir⟩ | ⟨y, hy⟩
    · obtain ⟨⟨h1, h2⟩, h3⟩ := hval hdir
      refine ⟨h1, h2, fun entries hl _ => ⟨fun hp => ?_, fun ⟨e, he, hbad⟩ => ?_⟩⟩
      · obtain ⟨e, he, hbad⟩ := h2 hp
        rw [collectRes_inv hl] at he
        obtain ⟨e', he', heq⟩ := List.mem_map.1 he
        cases heq
        exact ⟨e, he', hbad⟩
      · refine h3 ?_ ⟨e, mem_of_collectRes hl he, hbad⟩
        rw [collectRes_inv hl]
        intro x hx
        obtain ⟨e', -, rfl⟩ := List.mem_map.1 hx
        exact ⟨e', rfl⟩
    · have hv : disk.validate = fail y := by
        unfold Disk.validate Disk.diskFormat Disk.bamRef
        simp only [hf, hb, res_bind_ok, hidx, hsys, halloc, hfree, hy]
        rfl
      refine ⟨by rw [hv]; nofun, by rw [hv]; nofun, fun entries hl _ => ?_⟩
      exfalso
      have hmem : .error (.err y) ∈ disk.items := by
        have : (Except.error (.err y) : Res ChainSector) ∈
            chainItems disk.dev ({ s.type.format with geos := g } : DiskFormat).firstDirectoryLocation := by
          unfold chainLocations chainSectors at hy
          cases hs : collectRes (chainItems disk.dev
              ({ s.type.format with geos := g } : DiskFormat).firstDirectoryLocation) with
          | ok cs => rw [hs] at hy; cases hy
          | error q =>
            rw [hs] at hy
            cases hy
            exact error_of_collectRes hs
        unfold Disk.items Disk.diskFormat Disk.getHeader
        rw [hf, hh]
        unfold directoryItems
        refine List.mem_flatMap.2 ⟨.error (.err y), ?_, by simp⟩
        unfold directoryBlocks
        exact List.mem_append_left _ this
      rw [collectRes_inv hl] at hmem
      obtain ⟨e', -, heq⟩ := List.mem_map.1 hmem
      cases heq

/-- **C78** Opening returns, whatever the bytes of the image and however many there are, with or
without saying which kind of disk it is. -/
theorem C78_opened (ty : DiskType) (image : Image) :
    Returns (Disk.new ty image) ∧ Returns (Disk.openAny image) := by
  constructor
  · obtain ⟨h1, h2⟩ := C05_accepts_exactly ty image
    by_cases h : image.bytes.length ∈ imageSizes ty
    · obtain ⟨disk, hd⟩ := h1.2 h
      rw [hd]
      exact returns_ok _
    · rw [h2 h]
      exact returns_fail _
  · obtain ⟨h1, h2⟩ := C05_detection image
    by_cases h : ∃ ty, image.bytes.length ∈ imageSizes ty
    · obtain ⟨ty, h⟩ := h
      obtain ⟨disk, hd, -⟩ := h1 ty h
      rw [hd]
      exact returns_ok _
    · rw [h2 fun ty hty => h ⟨ty, hty⟩]
      exact returns_fail _

theorem formed_new {ty : DiskType} {image : Image} (hnew : Disk.new ty image = .ok disk) : Formed ty disk := by
  unfold Disk.new Disk.fromImage at hnew
  cases hf : Geometry.findBySize image.len ty.geometries with
  | none => rw [hf] at hnew; cases hnew
  | some g =>
    rw [hf] at hnew
    exact form_initialize hnew ⟨rfl, nofun, nofun⟩

/-- **C78** Every disk that was opened is one the theorems above are about, whatever the bytes of its
image, and so it stays after every history of calls, failed ones included, that installs no format and
no BAM of the caller's making. -/
theorem C78_kept {ty : DiskType} {image : Image} (hnew : Disk.new ty image = .ok disk) (calls : List Call)
    (hcalls : ∀ c ∈ calls, Installs c = false) :
    ∃ s : Shape, s.type = ty ∧ Standing (Session.run calls ⟨disk, [], []⟩).disk s := by
  obtain ⟨s, hty, hwf, -⟩ := history_ok hnew calls
  have h := form_run (ty := ty) calls ⟨disk, [], []⟩ hcalls (formed_new hnew)
  subst hty
  exact ⟨s, rfl, hwf, h.native, h.format, h.bam⟩

/-! ## Concrete cases -/

/-- `C78_kept`: every 174848 bytes are a 1541 disk that the theorems are about, before and after a file
is created and another one deleted. -/
theorem standing_of_any_bytes (bytes : List Byte) (hl : bytes.length = 174848) :
    ∃ disk, Disk.new .d64 ⟨.memory, bytes⟩ = .ok disk ∧ ∃ s : Shape, s.type = .d64 ∧
      Standing (Session.run [.create [0x41] .PRG .linear, .openFile [0x42], .delete 1] ⟨disk, [], []⟩).disk s := by
  obtain ⟨disk, hd⟩ := (C05_accepts_exactly .d64 ⟨.memory, bytes⟩).1.2 (by
    show bytes.length ∈ _
    rw [hl]
    decide)
  exact ⟨disk, hd, C78_kept hd _ (by decide)⟩

/-- There are such bytes that are not a proper disk at all. -/
example : (List.replicate 174848 (0x5A : Byte)).length = 174848 := List.length_replicate

/-- A disk with a relative file whose only side sector says that five of its bytes are used. -/
def sampleBroken (b : Bam) : Disk :=
  (sampleSession [0x00, 4, 0, 10] sampleRelativeSlot b (.linear (DirectoryEntry.parse32 [] none))).disk

/-- `C78_opening` and `C78_validating`: the one case in which they allow a panic. -/
example : ∃ b, Standing (sampleBroken b) ⟨.d64, 35, false⟩ ∧
    (sampleBroken b).openFile (List.replicate 16 0x41) = .error .panic ∧
    (sampleBroken b).validate = .error .panic := by
  obtain ⟨b, hb, -⟩ := exists_sampleBam
  obtain ⟨hw, hblk, hoth⟩ := sampleDev_facts (front := [0x00, 4, 0, 10]) (slot := sampleRelativeSlot)
    (by decide) (by decide)
  have hst : Standing (sampleBroken b) ⟨.d64, 35, false⟩ :=
    ⟨hw, rfl, fun f hf => ⟨false, by cases hf; rfl⟩, fun r hr => by cases hr; exact ⟨b, rfl, hb.toBamOf⟩⟩
  have h0 := hoth ⟨1, 0⟩ (by decide) (by decide)
  have hdir : (sampleBroken b).directory =
      .ok [DirectoryEntry.parse32 sampleRelativeSlot (some ⟨⟨18, 1⟩, 0, 32⟩)] := by
    have hc : IsChain (sampleDev [0x00, 4, 0, 10] sampleRelativeSlot) ⟨.d64, 35, false⟩ [⟨18, 1⟩] _ :=
      ⟨by decide, by decide, trivial, [], ⟨18, 1⟩, rfl, by rw [hblk]; rfl, by
        rw [hblk]; exact (by decide : (0xFF : Byte) ≠ 0), rfl⟩
    rw [directory_picked (disk := sampleBroken b) hw rfl rfl rfl hc (by nofun)]
    refine congrArg Except.ok ?_
    show picked (sampleDev _ _) _ (usedBytes ((sampleDev _ _).blk _ ⟨18, 1⟩) / 32) _ _ ++ [] ++ [] = _
    rw [hblk, List.append_nil, List.append_nil]
    exact picked_bytes.trans (by rw [hblk]; decide +kernel)
  have hbad : BadRelative (sampleBroken b).dev ⟨.d64, 35, false⟩
      (DirectoryEntry.parse32 sampleRelativeSlot (some ⟨⟨18, 1⟩, 0, 32⟩)) := by
    refine ⟨by decide +kernel, ⟨⟨1, 0⟩, 10, List.replicate 6 0⟩, by decide +kernel, .inl ⟨[⟨1, 0⟩], _, ⟨1, 0⟩, rfl,
      ⟨by decide, by decide, trivial, [], ⟨1, 0⟩, rfl, ?_, ?_, rfl⟩, rfl, ?_⟩⟩
    · show byteAt ((sampleDev _ _).blk _ _) 0 = 0
      rw [h0]; decide +kernel
    · show byteAt ((sampleDev _ _).blk _ _) 1 ≠ 0
      rw [h0]; decide +kernel
    · show usedBytes ((sampleDev _ _).blk _ _) < 16
      rw [h0]; decide +kernel
  refine ⟨b, hst, ?_, ?_⟩
  · refine ((C78_opening hst _).2).2 ⟨nofun, _, ?_, hbad⟩
    unfold Disk.findDirectoryEntry
    unfold Disk.directory at hdir
    rw [collectRes_inv hdir]
    rfl
  · exact (((C78_validating hst).2.2 _ hdir) nofun).2 ⟨_, by simp, hbad⟩

end Cbm
