import Verif.Lemmas.Steps
import Verif.Model.Disk
/-!
# Listing and searching the directory of a volume
-/

namespace Cbm
open Spec

variable {d d' d'' : Device} {s : Shape} {v v' : Volume} {i j : Nat} {f f' : FileRec}
  {l next : Location} {b : Bam}

theorem filterMap_congr_left {α β : Type} {g h : α → Option β} : ∀ {xs : List α},
    (∀ x ∈ xs, g x = h x) → xs.filterMap g = xs.filterMap h
  | [], _ => rfl
  | x :: xs, e => by
    rw [List.filterMap_cons, List.filterMap_cons, e x (by simp),
      filterMap_congr_left (xs := xs) fun y hy => e y (by simp [hy])]

theorem firstDirectory_format (ty : DiskType) :
    ty.format.firstDirectoryLocation = firstDirectory ty := by cases ty <;> rfl

/-- Items of a well-formed chain. -/
theorem chainItems_chain (hw : Wf d s) {locs init : List Location} {t start : Location}
    {content : List Byte} (h : IsChain d s locs content) (hs : locs.head? = some start)
    (hl : locs = init ++ [t]) :
    chainItems d start = init.map (fun l => .ok ⟨d.blk s l, l⟩) ++
      [.ok ⟨(d.blk s t).take ((byteAt (d.blk s t) 1).toNat + 1), t⟩] := by
  obtain ⟨ls, e, h1, h2, h3, h4, h5, h6, _⟩ := isChain_iff_path.1 ⟨hs, h⟩
  have hstop : Stops d s ls e := .inr (.inr h5)
  obtain ⟨ls', e', hit, hp', hs'⟩ := chainItems_walk hw start
  obtain ⟨ea, eb⟩ := path_unique hp' hs' h2 hstop
  subst ea eb
  have := hl.symm.trans h1
  obtain ⟨hi, ht⟩ := List.append_inj' this rfl
  have ht : t = e' := by simpa using ht
  subst hi ht
  rw [hit]
  unfold stopItem
  rw [if_neg h3, if_neg (by simpa using h4), if_neg h6]

theorem dirItems (h : OnDisk d s v) :
    chainItems d (firstDirectory s.type) = v.dir.map fun l => .ok ⟨d.blk s l, l⟩ := by
  obtain ⟨content, hc⟩ := h.dirChain
  obtain ⟨init, t, hl, _⟩ := hc.last
  rw [chainItems_chain h.wf hc h.dirFirst hl]
  have hlast : v.dir.getLast? = some t := by rw [hl]; simp
  have hv : s.Valid t := h.dir_valid (by rw [hl]; simp)
  rw [h.dirFull t hlast, List.take_of_length_le (by rw [h.wf.blk_length hv]; decide)]
  rw [hl]
  simp

theorem chunks_block {blk : List Byte} (h : blk.length = 256) :
    chunks ENTRY_SIZE blk = (List.range 8).map fun i => slice blk (32 * i) 32 := by
  unfold chunks
  rw [h]
  show (List.range 8).map _ = _
  refine List.map_congr_left fun i _ => ?_
  rw [Nat.mul_comm]

theorem zipIdx_map_range {α : Type} (g : Nat → α) (n : Nat) :
    ((List.range n).map g).zipIdx = (List.range n).map fun i => (g i, i) := by
  apply List.ext_getElem
  · simp
  · intro i h1 h2
    simp

theorem range_blocks (n : Nat) :
    List.range (8 * n) = (List.range n).flatMap fun q => (List.range 8).map (8 * q + ·) := by
  induction n with
  | zero => rfl
  | succ n ih =>
    rw [List.range_succ (n := n), List.flatMap_append, ← ih, Nat.mul_succ, List.range_add]
    simp

theorem flatMap_range {α β : Type} (xs : List α) (dflt : α) (g : α → List β) :
    xs.flatMap g = (List.range xs.length).flatMap fun q => g (xs.getD q dflt) := by
  have : xs = (List.range xs.length).map fun q => xs.getD q dflt := by
    apply List.ext_getElem
    · simp
    · intro i h1 h2
      simp only [List.getElem_map, List.getElem_range]
      exact (getD_getElem xs dflt h1).symm
  conv => lhs; rw [this]
  rw [List.flatMap_map]

/-- What one sector of the directory contributes. -/
theorem sectorEntries_block {blk : List Byte} (h : blk.length = 256) (l : Location) (border : Bool) :
    sectorEntries ⟨blk, l⟩ border = (List.range 8).filterMap fun k =>
      if (FileAttributes.fromByte (byteAt (slice blk (32 * k) 32) 2)).isScratched then none
      else some { DirectoryEntry.parse32 (slice blk (32 * k) 32)
        (some ⟨l, UInt8.ofNat (32 * k), 32⟩) with geosBorder := border } := by
  unfold sectorEntries
  rw [chunks_block h, zipIdx_map_range, List.filterMap_map]
  apply filterMap_congr_left
  intro k hk
  simp only [List.mem_range] at hk
  simp only [Function.comp]
  rw [if_neg]
  · rfl
  · simp only [slice, List.length_take, List.length_drop, h, ENTRY_SIZE]
    omega

/-- **Listing.** -/
theorem directoryItems_volume (h : OnDisk d s v) :
    directoryItems d s.type.format none = v.listing.map .ok := by
  unfold directoryItems directoryBlocks
  rw [firstDirectory_format, dirItems h]
  simp only [List.append_nil]
  rw [List.flatMap_map]
  have e1 : ∀ l ∈ v.dir, (sectorEntries ⟨d.blk s l, l⟩ false) = (List.range 8).filterMap fun k =>
      if (FileAttributes.fromByte (byteAt (slice (d.blk s l) (32 * k) 32) 2)).isScratched then none
      else some { DirectoryEntry.parse32 (slice (d.blk s l) (32 * k) 32)
        (some ⟨l, UInt8.ofNat (32 * k), 32⟩) with geosBorder := false } :=
    fun l hl => sectorEntries_block (h.wf.blk_length (h.dir_valid hl)) l false
  have e2 : v.dir.flatMap (fun l => (sectorEntries ⟨d.blk s l, l⟩ false).map Except.ok) =
      (v.listing.map Except.ok : List (Res DirectoryEntry)) := by
    rw [← List.map_flatMap]
    congr 1
    unfold Volume.listing
    rw [h.slotCount, range_blocks, List.filterMap_flatMap, flatMap_range _ ⟨0, 0⟩]
    apply flatMap_congr_left
    intro q hq
    rw [List.mem_range] at hq
    have hm : v.dir.getD q ⟨0, 0⟩ ∈ v.dir := by
      rw [getD_getElem _ _ hq]; exact List.getElem_mem hq
    rw [e1 _ hm, List.filterMap_map]
    apply filterMap_congr_left
    intro k hk
    rw [List.mem_range] at hk
    simp only [Function.comp]
    have hdiv : (8 * q + k) / 8 = q := by omega
    have hmod : (8 * q + k) % 8 = k := by omega
    have hlt : 8 * q + k < v.slots.length := by rw [h.slotCount]; omega
    have hslot : slotAt d s v.dir (8 * q + k) = slice (d.blk s (v.dir.getD q ⟨0, 0⟩)) (32 * k) 32 := by
      unfold slotAt
      rw [hdiv, hmod]
    have hpos : slotPos v.dir (8 * q + k) = ⟨v.dir.getD q ⟨0, 0⟩, UInt8.ofNat (32 * k), 32⟩ := by
      unfold slotPos
      rw [hdiv, hmod]
    rw [← hslot, ← hpos]
    cases hx : v.slots[8 * q + k]? with
    | none => rw [List.getElem?_eq_none_iff] at hx; omega
    | some x =>
      have hs := h.slots _ _ hx
      cases x with
      | none => rw [if_pos (show _ = true from hs)]
      | some f =>
        have hs' := slotIs_some.1 hs
        rw [if_neg (by rw [hs'.2.attr, hs'.1]; simp)]
        rw [hs.2]
        rfl
  exact e2

/-! ## Searching for a name -/

/-- The first slot whose file has the name. -/
theorem findItem_ok {es : List DirectoryEntry} (name : Petscii) :
    findItem name (es.map .ok) = match es.find? (fun e => e.filename = name) with
      | some e => .ok e
      | none => fail .notFound := by
  induction es with
  | nil => rfl
  | cons e es ih =>
    rw [List.map_cons, findItem, List.find?_cons]
    by_cases he : e.filename = name
    · simp [he]
    · simp [he, ih]


theorem mem_listing {e : DirectoryEntry} : e ∈ v.listing ↔
    ∃ (i : Nat) (f : FileRec), v.slots[i]? = some (some f) ∧ e = f.entry (slotPos v.dir i) := by
  unfold Volume.listing
  rw [List.mem_filterMap]
  constructor
  · rintro ⟨i, hi, h⟩
    split at h
    · rename_i f hf
      exact ⟨i, f, hf, (Option.some.inj h).symm⟩
    · cases h
  · rintro ⟨i, f, hf, rfl⟩
    exact ⟨i, by rw [List.mem_range]; exact slot_lt hf, by rw [hf]⟩

/-- The first slot with the name, or none. -/
theorem find_volume (name : Petscii) :
    (∃ (i : Nat) (f : FileRec), v.slots[i]? = some (some f) ∧ f.name = name ∧
      (∀ (j : Nat) (g : FileRec), j < i → v.slots[j]? = some (some g) → g.name ≠ name) ∧
      findItem name (v.listing.map .ok) = .ok (f.entry (slotPos v.dir i))) ∨
    ((∀ g ∈ v.files, g.name ≠ name) ∧ findItem name (v.listing.map .ok) = fail .notFound) := by
  rw [findItem_ok]
  cases hf : v.listing.find? fun e => e.filename = name with
  | none =>
    right
    refine ⟨fun g hg e => ?_, rfl⟩
    obtain ⟨i, hi⟩ := mem_files.1 hg
    rw [List.find?_eq_none] at hf
    have := hf _ (mem_listing.2 ⟨i, g, hi, rfl⟩)
    simp [FileRec.entry, e] at this
  | some e =>
    left
    unfold Volume.listing at hf
    rw [List.find?_filterMap] at hf
    rw [Option.bind_eq_some_iff] at hf
    obtain ⟨i, h1, h2⟩ := hf
    rw [List.find?_range_eq_some] at h1
    obtain ⟨h1, _, h3⟩ := h1
    split at h2
    · rename_i f hf
      have h2 := Option.some.inj h2
      subst h2
      refine ⟨i, f, hf, ?_, ?_, rfl⟩
      · rw [hf] at h1
        simpa [FileRec.entry] using h1
      · intro j g hj hg e
        have := h3 j hj
        rw [hg] at this
        simp [FileRec.entry, e] at this
    · cases h2

/-! ## Searching for a free slot -/

theorem parse32_attributes (bytes : List Byte) (p : Option Position) :
    (DirectoryEntry.parse32 bytes p).attributes = FileAttributes.fromByte (byteAt bytes 2) := rfl

theorem scanChunks_block {blk : List Byte} (h : blk.length = 256) (l : Location) :
    ∀ (n k : Nat), k + n = 8 →
    (∃ j, k ≤ j ∧ j < 8 ∧
      (FileAttributes.fromByte (byteAt (slice blk (32 * j) 32) 2)).isScratched = true ∧
      (∀ m, k ≤ m → m < j →
        (FileAttributes.fromByte (byteAt (slice blk (32 * m) 32) 2)).isScratched = false) ∧
      scanChunks l (32 * k) ((List.range' k n).map fun i => slice blk (32 * i) 32) =
        .ok (some (DirectoryEntry.parse32 (slice blk (32 * j) 32)
          (some ⟨l, UInt8.ofNat (32 * j), 32⟩)))) ∨
    ((∀ m, k ≤ m → m < 8 →
        (FileAttributes.fromByte (byteAt (slice blk (32 * m) 32) 2)).isScratched = false) ∧
      scanChunks l (32 * k) ((List.range' k n).map fun i => slice blk (32 * i) 32) = .ok none) := by
  intro n
  induction n with
  | zero =>
    intro k hk
    right
    exact ⟨fun m h1 h2 => by omega, rfl⟩
  | succ n ih =>
    intro k hk
    rw [List.range'_succ, List.map_cons, scanChunks]
    have hl : (slice blk (32 * k) 32).length = 32 := by
      simp only [slice, List.length_take, List.length_drop, h]; omega
    rw [show DirectoryEntry.parse (slice blk (32 * k) 32) _ = .ok (DirectoryEntry.parse32 _ _) from if_pos hl,
      res_bind_ok, parse32_attributes]
    by_cases hs : (FileAttributes.fromByte (byteAt (slice blk (32 * k) 32) 2)).isScratched = true
    · left
      refine ⟨k, Nat.le_refl _, by omega, hs, fun m h1 h2 => by omega, ?_⟩
      rw [if_pos hs]
      rfl
    · rw [if_neg hs]
      rw [show 32 * k + ENTRY_SIZE = 32 * (k + 1) from by simp only [ENTRY_SIZE]; omega]
      have hs' : (FileAttributes.fromByte (byteAt (slice blk (32 * k) 32) 2)).isScratched = false := by
        simpa using hs
      rcases ih (k + 1) (by omega) with ⟨j, h1, h2, h3, h4, h5⟩ | ⟨h1, h2⟩
      · left
        refine ⟨j, by omega, h2, h3, ?_, h5⟩
        intro m h6 h7
        rcases Nat.lt_or_ge k m with h8 | h8
        · exact h4 m h8 h7
        · have : m = k := by omega
          subst this; exact hs'
      · right
        refine ⟨?_, h2⟩
        intro m h6 h7
        rcases Nat.lt_or_ge k m with h8 | h8
        · exact h1 m h8 h7
        · have : m = k := by omega
          subst this; exact hs'

theorem slot_scratched (h : OnDisk d s v) (hi : i < v.slots.length) :
    (FileAttributes.fromByte (byteAt (slotAt d s v.dir i) 2)).isScratched = true ↔
      v.slots[i]? = some none := by
  have hx : v.slots[i]? = some v.slots[i] := List.getElem?_eq_getElem hi
  have hs := h.slots _ _ hx
  rw [hx]
  cases hc : v.slots[i] with
  | none => rw [hc] at hs; exact ⟨fun _ => rfl, fun _ => hs⟩
  | some f =>
    rw [hc] at hs
    have := slotIs_some.1 hs
    rw [this.2.attr, this.1]
    simp

theorem scanFree_from (h : OnDisk d s v) : ∀ (n q : Nat) (last : Location), q + n = v.dir.length →
    (∃ j : Nat, 8 * q ≤ j ∧ v.slots[j]? = some none ∧
      (∀ k : Nat, 8 * q ≤ k → k < j → v.slots[k]? ≠ some none) ∧
      scanFree ((v.dir.drop q).map fun l => .ok ⟨d.blk s l, l⟩) last =
        .ok (.inl (DirectoryEntry.parse32 (slotAt d s v.dir j) (some (slotPos v.dir j))))) ∨
    ((∀ k : Nat, 8 * q ≤ k → v.slots[k]? ≠ some none) ∧
      scanFree ((v.dir.drop q).map fun l => .ok ⟨d.blk s l, l⟩) last =
        .ok (.inr ((v.dir.drop q).getLast?.getD last))) := by
  intro n
  induction n with
  | zero =>
    intro q last hq
    right
    rw [List.drop_eq_nil_of_le (by omega)]
    refine ⟨fun k hk e => ?_, rfl⟩
    have := slot_lt e
    rw [h.slotCount] at this
    omega
  | succ n ih =>
    intro q last hq
    have hlt : q < v.dir.length := by omega
    rw [List.drop_eq_getElem_cons hlt]
    rw [List.map_cons, scanFree]
    have hm : v.dir[q] ∈ v.dir := List.getElem_mem hlt
    have hb := h.wf.blk_length (h.dir_valid hm)
    have hge : v.dir.getD q ⟨0, 0⟩ = v.dir[q] := getD_getElem _ _ hlt
    have slotk : ∀ k, k < 8 → slotAt d s v.dir (8 * q + k) = slice (d.blk s v.dir[q]) (32 * k) 32 := by
      intro k hk
      unfold slotAt
      rw [show (8 * q + k) / 8 = q from by omega, show (8 * q + k) % 8 = k from by omega, hge]
    have posk : ∀ k, k < 8 → slotPos v.dir (8 * q + k) = ⟨v.dir[q], UInt8.ofNat (32 * k), 32⟩ := by
      intro k hk
      unfold slotPos
      rw [show (8 * q + k) / 8 = q from by omega, show (8 * q + k) % 8 = k from by omega, hge]
    have ltk : ∀ k, k < 8 → 8 * q + k < v.slots.length := by
      intro k hk; rw [h.slotCount]; omega
    have nok : ∀ k, k < 8 →
        (FileAttributes.fromByte (byteAt (slice (d.blk s v.dir[q]) (32 * k) 32) 2)).isScratched = false →
        v.slots[8 * q + k]? ≠ some none := by
      intro k hk hs e
      have := (slot_scratched h (ltk k hk)).2 e
      rw [slotk k hk, hs] at this
      cases this
    rw [chunks_block hb, List.range_eq_range']
    rcases scanChunks_block hb v.dir[q] 8 0 rfl with ⟨j, h1, h2, h3, h4, h5⟩ | ⟨h1, h2⟩
    · left
      refine ⟨8 * q + j, by omega, ?_, ?_, ?_⟩
      · rw [← slotk j h2] at h3
        exact (slot_scratched h (ltk j h2)).1 h3
      · intro k hk1 hk2
        have : 8 * q + (k - 8 * q) = k := by omega
        rw [← this]
        exact nok _ (by omega) (h4 _ (by omega) (by omega))
      · rw [show (0 : Nat) = 32 * 0 from rfl, h5, res_bind_ok, slotk j h2, posk j h2]
        rfl
    · rw [show scanChunks v.dir[q] 0 _ = _ from h2, res_bind_ok]
      simp only []
      rcases ih (q + 1) v.dir[q] (by omega) with ⟨j, a1, a2, a3, a4⟩ | ⟨a1, a2⟩
      · left
        refine ⟨j, by omega, a2, ?_, a4⟩
        intro k hk1 hk2
        rcases Nat.lt_or_ge k (8 * (q + 1)) with h8 | h8
        · have : 8 * q + (k - 8 * q) = k := by omega
          rw [← this]
          exact nok _ (by omega) (h1 _ (by omega) (by omega))
        · exact a3 k h8 hk2
      · right
        refine ⟨?_, ?_⟩
        · intro k hk1
          rcases Nat.lt_or_ge k (8 * (q + 1)) with h8 | h8
          · have : 8 * q + (k - 8 * q) = k := by omega
            rw [← this]
            exact nok _ (by omega) (h1 _ (by omega) (by omega))
          · exact a1 k h8
        · rw [a2, List.getLast?_cons]
          rfl

/-- The first free slot, or the last directory sector. -/
theorem scanFree_volume (h : OnDisk d s v) (last : Location) :
    (∃ j : Nat, v.slots[j]? = some none ∧ (∀ k : Nat, k < j → v.slots[k]? ≠ some none) ∧
      scanFree (chainItems d (firstDirectory s.type)) last =
        .ok (.inl (DirectoryEntry.parse32 (slotAt d s v.dir j) (some (slotPos v.dir j))))) ∨
    ((∀ k : Nat, v.slots[k]? ≠ some none) ∧ ∃ t, v.dir.getLast? = some t ∧
      scanFree (chainItems d (firstDirectory s.type)) last = .ok (.inr t)) := by
  rw [dirItems h]
  rcases scanFree_from h v.dir.length 0 last (by omega) with ⟨j, _, h1, h2, h3⟩ | ⟨h1, h2⟩
  · exact .inl ⟨j, h1, fun k hk => h2 k (by omega) hk, h3⟩
  · refine .inr ⟨fun k => h1 k (by omega), ?_⟩
    rw [List.drop_zero] at h2
    cases hl : v.dir.getLast? with
    | none =>
      rw [List.getLast?_eq_none_iff] at hl
      exact absurd hl h.dir_ne
    | some t =>
      rw [hl] at h2
      exact ⟨t, rfl, h2⟩

end Cbm