import Verif.Lemmas.Listing
import Verif.Spec.Slots
/-!
# Listing and searching any directory
-/

namespace Cbm
open Spec

variable {d d' : Device} {s : Shape} {l t start : Location} {dir init : List Location}
  {content : List Byte}

theorem scratched_iff (b : Byte) :
    (FileAttributes.fromByte b).isScratched = (b &&& 0x8F == 0) := by
  have := forall_byte (P := fun b => (FileAttributes.fromByte b).isScratched = (b &&& 0x8F == 0))
    (by decide +kernel)
  exact this b

theorem chain_init (h : IsChain d s (init ++ [t]) content) :
    ∀ l ∈ init, byteAt (d.blk s l) 0 ≠ 0 := by
  obtain ⟨ls, e, h1, h2, -⟩ := isChain_iff_path.1 ⟨(List.head?_eq_some_head (by simp) :
    (init ++ [t]).head? = some _), h⟩
  obtain ⟨hi, -⟩ := List.append_inj' h1 rfl
  rw [hi]
  exact h2.onward

/-- Every sector of the chain, with its used bytes. -/
theorem chainItems_used (hw : Wf d s) (h : IsChain d s dir content) (hs : dir.head? = some start) :
    chainItems d start = dir.map fun l => .ok ⟨(d.blk s l).take (usedBytes (d.blk s l)), l⟩ := by
  obtain ⟨init, t, rfl, h0, h1, -⟩ := h.last
  rw [chainItems_chain hw h hs rfl, List.map_append]
  congr 1
  · apply List.map_congr_left
    intro l hl
    have := h.valid l (by simp [hl])
    unfold usedBytes
    rw [if_neg (chain_init h l hl), List.take_of_length_le (by rw [hw.blk_length this]; omega)]
  · simp only [List.map_cons, List.map_nil]
    unfold usedBytes
    rw [if_pos h0]

theorem usedBytes_le (blk : List Byte) : usedBytes blk ≤ 256 := by
  unfold usedBytes
  have := (byteAt blk 1).toNat_lt
  split <;> omega

theorem slice_take (xs : List Byte) (m o n : Nat) (h : o + n ≤ m) :
    slice (xs.take m) o n = slice xs o n := by
  unfold slice
  rw [List.drop_take, List.take_take, Nat.min_eq_left (by omega)]

/-- The whole slots, and what is left. -/
theorem chunks_take {blk : List Byte} (h : blk.length = 256) {m : Nat} (hm : m ≤ 256) :
    chunks ENTRY_SIZE (blk.take m) =
      ((List.range (m / 32)).map fun k => slice blk (32 * k) 32) ++
      (if m % 32 = 0 then [] else [slice (blk.take m) (32 * (m / 32)) 32]) := by
  unfold chunks ENTRY_SIZE
  have hl : (blk.take m).length = m := by rw [List.length_take, h, Nat.min_eq_left hm]
  rw [hl]
  have key : ∀ n, 32 * n ≤ m → (List.range n).map (fun i => slice (blk.take m) (i * 32) 32) =
      (List.range n).map fun k => slice blk (32 * k) 32 := by
    intro n hn
    apply List.map_congr_left
    intro k hk
    rw [List.mem_range] at hk
    rw [Nat.mul_comm k, slice_take _ _ _ _ (by omega)]
  split
  · rename_i h0
    rw [show (m + 32 - 1) / 32 = m / 32 by omega, List.append_nil]
    exact key _ (by omega)
  · rename_i h0
    rw [show (m + 32 - 1) / 32 = m / 32 + 1 by omega, List.range_succ, List.map_append, key _ (by omega)]
    simp only [List.map_cons, List.map_nil, Nat.mul_comm]

theorem slotData_at (d : Device) (s : Shape) (l : Location) {k : Nat} (hk : k < 8) :
    slotData d s ⟨l, UInt8.ofNat (32 * k), 32⟩ = slice (d.blk s l) (32 * k) 32 := by
  unfold slotData
  simp only [UInt8.toNat_ofNat']
  rw [Nat.mod_eq_of_lt (by omega)]

theorem zipIdx_append_range {α : Type} (g : Nat → α) (n : Nat) (rest : List α) :
    ((List.range n).map g ++ rest).zipIdx = ((List.range n).map fun i => (g i, i)) ++ rest.zipIdx n := by
  rw [List.zipIdx_append, zipIdx_map_range]
  simp

/-- The entries listed for the first bytes of a sector. -/
theorem sectorEntries_take (hb : (d.blk s l).length = 256) {m : Nat} (hm : m ≤ 256) (border : Bool) :
    sectorEntries ⟨(d.blk s l).take m, l⟩ border =
      ((List.range (m / 32)).map fun k =>
        (⟨l, UInt8.ofNat (32 * k), 32⟩ : Position)).filterMap fun p =>
          if slotFree d s p then none else some { entryAt d s p with geosBorder := border } := by
  unfold sectorEntries
  simp only
  rw [chunks_take hb hm, zipIdx_append_range, List.filterMap_append]
  have hrest : List.filterMap (fun (x : List Byte × Nat) =>
      if x.1.length ≠ ENTRY_SIZE then none
      else
        let e := { DirectoryEntry.parse32 x.1
          (some ⟨l, UInt8.ofNat (ENTRY_SIZE * x.2), UInt8.ofNat ENTRY_SIZE⟩) with geosBorder := border }
        if e.attributes.isScratched then none else some e)
      ((if m % 32 = 0 then [] else [slice ((d.blk s l).take m) (32 * (m / 32)) 32]).zipIdx (m / 32)) = [] := by
    split
    · rfl
    · rw [List.zipIdx_cons, List.filterMap_cons]
      have : (slice ((d.blk s l).take m) (32 * (m / 32)) 32).length ≠ ENTRY_SIZE := by
        simp only [slice, List.length_take, List.length_drop, hb, ENTRY_SIZE]
        omega
      rw [if_pos this]
      rfl
  refine (congrArg _ hrest).trans ?_
  rw [List.append_nil, List.filterMap_map, List.filterMap_map]
  apply filterMap_congr_left
  intro k hk
  rw [List.mem_range] at hk
  simp only [Function.comp]
  rw [if_neg]
  · unfold slotFree entryAt
    rw [slotData_at d s l (k := k) (by omega), ← scratched_iff]
    rfl
  · simp only [slice, List.length_take, List.length_drop, hb, ENTRY_SIZE]
    omega

/-- The entries listed for a sector. -/
theorem sectorEntries_used (hb : (d.blk s l).length = 256) (border : Bool) :
    sectorEntries ⟨(d.blk s l).take (usedBytes (d.blk s l)), l⟩ border =
      ((List.range (usedBytes (d.blk s l) / 32)).map fun k =>
        (⟨l, UInt8.ofNat (32 * k), 32⟩ : Position)).filterMap fun p =>
          if slotFree d s p then none else some { entryAt d s p with geosBorder := border } :=
  sectorEntries_take hb (usedBytes_le _) border

/-- Searching one sector for a free slot. -/
theorem scanChunks_used (hb : (d.blk s l).length = 256) {m : Nat} (hm : m ≤ 256) :
    scanChunks l 0 (chunks ENTRY_SIZE ((d.blk s l).take m)) =
      match (((List.range (m / 32)).map fun k => (⟨l, UInt8.ofNat (32 * k), 32⟩ : Position)).find?
          (slotFree d s)) with
      | some p => .ok (some (entryAt d s p))
      | none => if m % 32 = 0 then .ok none else rpanic := by
  rw [chunks_take hb hm]
  have key : ∀ n k, k + n = m / 32 →
      scanChunks l (32 * k) (((List.range' k n).map fun k => slice (d.blk s l) (32 * k) 32) ++
        (if m % 32 = 0 then [] else [slice ((d.blk s l).take m) (32 * (m / 32)) 32])) =
      match (((List.range' k n).map fun k => (⟨l, UInt8.ofNat (32 * k), 32⟩ : Position)).find?
          (slotFree d s)) with
      | some p => .ok (some (entryAt d s p))
      | none => if m % 32 = 0 then .ok none else rpanic := by
    intro n
    induction n with
    | zero =>
      intro k hk
      simp only [List.range'_zero, List.map_nil, List.nil_append, List.find?_nil]
      split
      · rfl
      · rw [scanChunks]
        have : (slice ((d.blk s l).take m) (32 * (m / 32)) 32).length ≠ ENTRY_SIZE := by
          simp only [slice, List.length_take, List.length_drop, hb, ENTRY_SIZE]
          omega
        rw [show DirectoryEntry.parse (slice ((d.blk s l).take m) (32 * (m / 32)) 32) _ = rpanic from
          if_neg this]
        rfl
    | succ n ih =>
      intro k hk
      rw [List.range'_succ, List.map_cons, List.map_cons, List.cons_append, scanChunks]
      have hl : (slice (d.blk s l) (32 * k) 32).length = 32 := by
        simp only [slice, List.length_take, List.length_drop, hb]; omega
      rw [show DirectoryEntry.parse (slice (d.blk s l) (32 * k) 32) _ = .ok (DirectoryEntry.parse32 _ _)
        from if_pos hl, res_bind_ok, parse32_attributes, List.find?_cons]
      have hfree : slotFree d s ⟨l, UInt8.ofNat (32 * k), 32⟩ =
          (FileAttributes.fromByte (byteAt (slice (d.blk s l) (32 * k) 32) 2)).isScratched := by
        unfold slotFree
        rw [slotData_at d s l (k := k) (by omega), scratched_iff]
      rw [hfree]
      cases hs : (FileAttributes.fromByte (byteAt (slice (d.blk s l) (32 * k) 32) 2)).isScratched with
      | true =>
        simp only [if_true]
        unfold entryAt
        rw [slotData_at d s l (k := k) (by omega)]
        rfl
      | false =>
        simp only [Bool.false_eq_true, if_false]
        rw [show 32 * k + ENTRY_SIZE = 32 * (k + 1) from by simp only [ENTRY_SIZE]; omega]
        exact ih (k + 1) (by omega)
  have := key (m / 32) 0 (by omega)
  rw [List.range_eq_range']
  exact this

/-- Searching the whole directory. -/
theorem scanFree_used (hw : Wf d s) : ∀ (init : List Location) (t last : Location),
    (∀ l ∈ init ++ [t], s.Valid l) → (∀ l ∈ init, byteAt (d.blk s l) 0 ≠ 0) →
    scanFree ((init ++ [t]).map fun l => .ok ⟨(d.blk s l).take (usedBytes (d.blk s l)), l⟩) last =
      match (dirSlots d s (init ++ [t])).find? (slotFree d s) with
      | some p => .ok (.inl (entryAt d s p))
      | none => if usedBytes (d.blk s t) % 32 = 0 then .ok (.inr t) else rpanic
  | [], t, last, hv, _ => by
    have hb := hw.blk_length (hv t (by simp))
    simp only [List.nil_append, List.map_cons, List.map_nil, scanFree]
    rw [scanChunks_used hb (usedBytes_le _)]
    have : dirSlots d s [t] = (List.range (usedBytes (d.blk s t) / 32)).map fun k =>
        (⟨t, UInt8.ofNat (32 * k), 32⟩ : Position) := by
      unfold dirSlots; simp
    rw [this]
    split
    · rfl
    · split <;> rfl
  | l :: init, t, last, hv, hi => by
    have hb := hw.blk_length (hv l (by simp))
    have ih := scanFree_used hw init t l (fun x hx => hv x (by simp_all)) (fun x hx => hi x (by simp_all))
    have hu : usedBytes (d.blk s l) = 256 := by
      unfold usedBytes; rw [if_neg (hi l (by simp))]
    simp only [List.cons_append, List.map_cons, scanFree]
    rw [scanChunks_used hb (usedBytes_le _)]
    have : dirSlots d s (l :: (init ++ [t])) = ((List.range (usedBytes (d.blk s l) / 32)).map fun k =>
        (⟨l, UInt8.ofNat (32 * k), 32⟩ : Position)) ++ dirSlots d s (init ++ [t]) := by
      unfold dirSlots; simp
    rw [this, List.find?_append]
    cases (List.find? (slotFree d s) ((List.range (usedBytes (d.blk s l) / 32)).map fun k =>
        (⟨l, UInt8.ofNat (32 * k), 32⟩ : Position))) with
    | some p => rfl
    | none =>
      simp only [Option.none_or]
      rw [← ih, hu]
      rfl

end Cbm
