import Verif.Spec.Geos
import Verif.Model.Geos
import Verif.Lemmas.Relative
import Verif.Props.Codec
import Verif.Props.Chain
/-!
# GEOS files
-/

namespace Cbm
open Spec
variable {d : Device} {s : Shape}

/-! ## The record table -/

theorem vlirRecords_pairs : ∀ b : List Byte, vlirRecords b =
    ((pairs b).takeWhile fun l => l != ⟨0, 0⟩).map fun l => if l = noRecord then none else some l
  | [] => rfl
  | [_] => rfl
  | a :: b :: rest => by
    unfold vlirRecords pairs
    by_cases h : a = 0 ∧ b = 0
    · obtain ⟨rfl, rfl⟩ := h
      rfl
    · rw [if_neg h, List.takeWhile_cons_of_pos, List.map_cons, vlirRecords_pairs rest]
      · congr 1
        by_cases h2 : a = 0 ∧ b = 0xFF
        · obtain ⟨rfl, rfl⟩ := h2
          rfl
        · rw [if_neg h2, if_neg]
          intro h3
          injection h3 with h4 h5
          exact h2 ⟨h4, h5⟩
      · simp only [bne_iff_ne, ne_eq, Location.mk.injEq]
        exact h

theorem pairs_length : ∀ b : List Byte, (pairs b).length = b.length / 2
  | [] => rfl
  | [_] => by simp [pairs]
  | _ :: _ :: rest => by
    unfold pairs
    rw [List.length_cons, pairs_length rest]
    simp only [List.length_cons]
    omega

theorem length_takeWhile_le' {α : Type} (p : α → Bool) (xs : List α) :
    (xs.takeWhile p).length ≤ xs.length := by
  induction xs with
  | nil => simp
  | cons x xs ih =>
    rw [List.takeWhile_cons]
    split
    · simpa using ih
    · simp

theorem vlirIndex_length {b : List Byte} (h : b.length = 256) : (vlirIndex b).length ≤ 127 := by
  unfold vlirIndex
  have := length_takeWhile_le' (fun l => l != ⟨0, 0⟩) (pairs (b.drop 2))
  rw [pairs_length] at this
  simp [h] at this
  exact this

/-! ## The first block -/

theorem signature_eq (vlir : Bool) :
    signature vlir = (if vlir then cvtPrg else cvtSeq) ++ cvtSuffix := by
  cases vlir <;> decide +kernel

/-- Writing a parsed GEOS entry over zeros gives its bytes again. -/
theorem geos_toBytes {slot : List Byte} (hs : slot.length = 32) (p : Option Position)
    (hg : entryScheme slot = .geosSequential ∨ entryScheme slot = .geosVLIR) :
    ∃ front, (DirectoryEntry.parse32 slot p).toBytes (List.replicate 32 0) = .ok front ∧
      front.length = 32 ∧ front.drop 2 = slot.drop 2 := by
  obtain ⟨e, he, hout⟩ := C23_rewrite_identity slot hs p
  unfold DirectoryEntry.parse at he
  rw [if_pos hs] at he
  cases he
  obtain ⟨-, hn, x, hx, heq⟩ := toBytes_eq hout
  have hx9 : x.length = 9 := extra_toBytes_length (length_slice _ _ _ (by omega)) hx
  have hex : ∃ ex, (DirectoryEntry.parse32 slot p).extra = .geos ex := by
    unfold DirectoryEntry.parse32
    rcases hg with h | h <;> rw [h] <;> exact ⟨_, rfl⟩
  obtain ⟨ex, hex⟩ := hex
  have hx0 : (DirectoryEntry.parse32 slot p).extra.toBytes (slice (List.replicate 32 0) 0x15 9)
      = .ok x := by
    rw [hex] at hx ⊢
    have e9 : ∀ (b src : List Byte), b.length = 9 → src.length = 9 → splice b 0 src = src := by
      intro b src h1 h2
      unfold splice
      rw [List.drop_eq_nil_of_le (by omega)]
      simp
    unfold Extra.toBytes at hx ⊢
    simp only at hx ⊢
    rw [e9 _ _ (length_slice _ _ _ (by omega)) rfl] at hx
    rw [e9 _ _ (by decide) rfl]
    exact hx
  have hz : (List.replicate 32 (0 : Byte)).length = 32 := by simp
  refine ⟨_, toBytes_ok hz hn hx0, ?_, ?_⟩
  · exact slotBytes_length hz rfl (by simp; omega) hx9 rfl
  · conv => rhs; rw [heq]
    apply List.ext_getElem?
    intro i
    rw [List.getElem?_drop, List.getElem?_drop, slotBytes_get hz rfl (by simp; omega) hx9 rfl,
      slotBytes_get hs rfl (by simp; omega) hx9 rfl]
    simp only [if_neg (show ¬ 2 + i < 2 by omega)]

theorem parse32_geos (slot : List Byte) (p : Option Position)
    (hg : entryScheme slot = .geosSequential ∨ entryScheme slot = .geosVLIR) :
    (∃ g, (DirectoryEntry.parse32 slot p).extra = .geos g ∧
      g.infoBlock = ⟨byteAt slot 0x15, byteAt slot 0x16⟩) ∧
    (DirectoryEntry.parse32 slot p).isVlir = .ok (decide (entryScheme slot = .geosVLIR)) := by
  have b0 : byteAt (slice slot 0x15 9) 0 = byteAt slot 0x15 := byteAt_slice _ _ _ _ (by omega)
  have b1 : byteAt (slice slot 0x15 9) 1 = byteAt slot 0x16 := byteAt_slice _ _ _ _ (by omega)
  have b2 : byteAt (slice slot 0x15 9) 2 = byteAt slot 0x17 := byteAt_slice _ _ _ _ (by omega)
  have hst : byteAt slot 0x17 = if entryScheme slot = .geosVLIR then 1 else 0 := by
    unfold entryScheme isEntryGeos isEntryVlir at hg ⊢
    simp only [ENTRY_EXTRA_OFFSET, show (0x15 + 2 : Nat) = 0x17 from rfl] at hg ⊢
    split at hg
    · rcases hg with h | h <;> cases h
    · rename_i hr
      rw [if_neg hr]
      split at hg
      · rename_i hgeos
        rw [if_pos hgeos]
        split
        · rename_i h1
          rw [if_pos rfl]
          exact beq_iff_eq.1 h1
        · rename_i h1
          rw [if_neg (by simp)]
          simp only [Bool.and_eq_true, decide_eq_true_eq, Bool.or_eq_true] at hgeos
          have h2 := hgeos.2
          have h3 : byteAt slot 0x17 ≠ 1 := fun h => h1 (beq_iff_eq.2 h)
          revert h2 h3
          generalize byteAt slot 0x17 = b
          revert b
          apply forall_byte
          decide +kernel
      · rcases hg with h | h <;> cases h
  have hex : (DirectoryEntry.parse32 slot p).extra = .geos
      { infoBlock := ⟨byteAt (slice slot 0x15 9) 0, byteAt (slice slot 0x15 9) 1⟩
        structure_ := .fromByte (byteAt (slice slot 0x15 9) 2)
        geosFileType := .fromByte (byteAt (slice slot 0x15 9) 3)
        year := byteAt (slice slot 0x15 9) 4
        month := byteAt (slice slot 0x15 9) 5
        day := byteAt (slice slot 0x15 9) 6
        hour := byteAt (slice slot 0x15 9) 7
        minute := byteAt (slice slot 0x15 9) 8 } := by
    unfold DirectoryEntry.parse32
    rcases hg with h | h <;> rw [h] <;> rfl
  refine ⟨⟨_, hex, by rw [b0, b1]⟩, ?_⟩
  unfold DirectoryEntry.isVlir
  rw [hex]
  simp only [b2, hst]
  by_cases h : entryScheme slot = .geosVLIR
  · rw [if_pos h]; simp [h, GEOSFileStructure.fromByte]
  · rw [if_neg h]; simp [h, GEOSFileStructure.fromByte]

theorem parse32_info (slot : List Byte) (p : Option Position)
    (hg : entryScheme slot = .geosSequential ∨ entryScheme slot = .geosVLIR)
    (hi : (⟨byteAt slot 0x15, byteAt slot 0x16⟩ : Location) ≠ ⟨0, 0⟩) :
    (DirectoryEntry.parse32 slot p).infoLocation = .ok (some ⟨byteAt slot 0x15, byteAt slot 0x16⟩) ∧
    (DirectoryEntry.parse32 slot p).isVlir = .ok (decide (entryScheme slot = .geosVLIR)) := by
  obtain ⟨⟨g, hex, hgi⟩, hv⟩ := parse32_geos slot p hg
  refine ⟨?_, hv⟩
  unfold DirectoryEntry.infoLocation
  rw [hex]
  simp only []
  rw [hgi, if_neg]
  intro h
  exact hi (congr (congrArg Location.mk h.1) h.2)

theorem exportHead_length {slot : List Byte} (hs : slot.length = 32) (vlir : Bool) :
    exportHead slot vlir =
      slot.drop 2 ++ ((if vlir then cvtPrg else cvtSeq) ++ cvtSuffix) ++ List.replicate 196 0 ∧
    (exportHead slot vlir).length = 254 := by
  have hl : (slot.drop 2 ++ signature vlir).length = 58 := by
    rw [signature_eq, List.length_append, List.length_drop, hs]
    cases vlir <;> rfl
  have h1 : exportHead slot vlir =
      slot.drop 2 ++ ((if vlir then cvtPrg else cvtSeq) ++ cvtSuffix) ++ List.replicate 196 0 := by
    unfold exportHead padded
    rw [hl, signature_eq]
  refine ⟨h1, ?_⟩
  unfold exportHead padded
  rw [List.length_append, hl, List.length_replicate]

/-- Making the reader. -/
theorem reader_new {slot : List Byte} (hs : slot.length = 32) (p : Option Position)
    (hg : entryScheme slot = .geosSequential ∨ entryScheme slot = .geosVLIR)
    (hi : (⟨byteAt slot 0x15, byteAt slot 0x16⟩ : Location) ≠ ⟨0, 0⟩) :
    GEOSReader.new (DirectoryEntry.parse32 slot p) =
      .ok ⟨.directoryEntry, exportHead slot (decide (entryScheme slot = .geosVLIR)),
        decide (entryScheme slot = .geosVLIR), ⟨byteAt slot 0x15, byteAt slot 0x16⟩,
        ⟨byteAt slot 3, byteAt slot 4⟩, []⟩ := by
  obtain ⟨front, hf, hlen, hdrop⟩ := geos_toBytes hs p hg
  obtain ⟨hinfo, hvl⟩ := parse32_info slot p hg hi
  unfold GEOSReader.new
  have hz : slice (List.replicate 256 (0 : Byte)) 0 ENTRY_SIZE = List.replicate 32 0 := by
    decide +kernel
  simp only [hz, hf, res_bind_ok, hvl, hinfo, res_pure]
  congr 2
  rw [(exportHead_length hs _).1, ← hdrop]
  generalize decide (entryScheme slot = .geosVLIR) = v
  have h3 : ((if v then cvtPrg else cvtSeq) : List Byte).length = 3 := by cases v <;> rfl
  have e1 : splice (List.replicate 256 (0 : Byte)) 0 front = front ++ List.replicate 224 0 := by
    unfold splice
    rw [hlen, List.take_zero, List.nil_append, List.drop_replicate]
  have e2 : splice (front ++ List.replicate 224 (0 : Byte)) 0x20 (if v then cvtPrg else cvtSeq)
      = front ++ (if v then cvtPrg else cvtSeq) ++ List.replicate 221 0 := by
    unfold splice
    rw [List.take_append, List.take_of_length_le (by omega), hlen, Nat.sub_self, List.take_zero,
      List.append_nil, List.drop_append, List.drop_eq_nil_of_le (by omega), hlen, h3,
      List.nil_append, List.drop_replicate]
  have e3 : splice (front ++ (if v then cvtPrg else cvtSeq) ++ List.replicate 221 (0 : Byte)) 0x23
      cvtSuffix = front ++ ((if v then cvtPrg else cvtSeq) ++ cvtSuffix) ++ List.replicate 196 0 := by
    have hl : (front ++ (if v then cvtPrg else cvtSeq)).length = 35 := by
      rw [List.length_append, hlen, h3]
    unfold splice
    rw [List.take_append, List.take_of_length_le (by omega), hl, Nat.sub_self, List.take_zero,
      List.append_nil, List.drop_append, List.drop_eq_nil_of_le (by rw [hl]; decide), hl,
      List.nil_append, List.drop_replicate, List.append_assoc front]
    rfl
  rw [e1, e2, e3, List.append_assoc, List.drop_append_of_le_length (by omega)]
  simp only [List.append_assoc]

/-! ## Reading -/

/-- The reader holds `segs.head` and will load the others one after the other. -/
inductive Feeds (d : Device) : GEOSReader → List (List Byte) → Prop
  | last {r r' : GEOSReader} : GEOSReader.nextState { r with buffer := [] } d = (.ok (), r') →
      r'.state = .finished → Feeds d r [r.buffer]
  | more {r r' : GEOSReader} {segs} : GEOSReader.nextState { r with buffer := [] } d = (.ok (), r') →
      r'.state ≠ .finished → Feeds d r' segs → Feeds d r (r.buffer :: segs)

theorem readLoop_feeds {r : GEOSReader} {segs : List (List Byte)} (h : Feeds d r segs) :
    ∀ (fuel want : Nat) (acc : List Byte), segs.length ≤ fuel →
    ∃ r', r.readLoop d fuel want acc = (.ok (acc ++ segs.flatten.take want), r') ∧
      (segs.flatten.length < want → r'.state = .finished) ∧ (want ≤ r.buffer.length → r' = r) := by
  induction h with
  | @last r r' hn hfin =>
    intro fuel want acc hf
    obtain ⟨fuel, rfl⟩ : ∃ k, fuel = k + 1 := ⟨fuel - 1, by simp at hf; omega⟩
    unfold GEOSReader.readLoop
    simp only [List.flatten_cons, List.flatten_nil, List.append_nil]
    by_cases hw : want ≤ r.buffer.length
    · rw [if_pos (by omega)]
      refine ⟨r, ?_, by omega, fun _ => rfl⟩
      rw [Nat.min_eq_left hw]
    · rw [if_neg (by omega), Nat.min_eq_right (by omega), List.drop_length]
      simp only [List.isEmpty_nil, if_true]
      rw [hn]
      simp only [hfin, if_true]
      refine ⟨r', ?_, fun _ => hfin, by omega⟩
      rw [List.take_length, List.take_of_length_le (by omega)]
  | @more r r' segs hn hne hfeeds ih =>
    intro fuel want acc hf
    obtain ⟨fuel, rfl⟩ : ∃ k, fuel = k + 1 := ⟨fuel - 1, by simp at hf; omega⟩
    unfold GEOSReader.readLoop
    simp only [List.flatten_cons]
    by_cases hw : want ≤ r.buffer.length
    · rw [if_pos (by omega)]
      refine ⟨r, ?_, ?_, fun _ => rfl⟩
      · rw [Nat.min_eq_left hw, List.take_append_of_le_length hw]
      · rw [List.length_append]; omega
    · rw [if_neg (by omega), Nat.min_eq_right (by omega), List.drop_length]
      simp only [List.isEmpty_nil, if_true]
      rw [hn]
      simp only [hne, if_false]
      obtain ⟨r'', h1, h2, -⟩ := ih fuel (want - r.buffer.length) (acc ++ r.buffer.take r.buffer.length)
        (by simp at hf; omega)
      refine ⟨r'', ?_, ?_, by omega⟩
      · rw [h1, List.take_length, List.append_assoc]
        congr 3
        rw [List.take_append, List.take_of_length_le (show r.buffer.length ≤ want by omega)]
      · intro hlt
        rw [List.length_append] at hlt
        exact h2 (by omega)

/-- A read that is satisfied leaves the reader in front of a segment that it has delivered at
least in part. -/
theorem readLoop_stuck {r : GEOSReader} {segs : List (List Byte)} (h : Feeds d r segs) :
    ∀ (fuel want : Nat) (acc : List Byte), segs.length ≤ fuel → 0 < want → want ≤ segs.flatten.length →
    ∃ r' pre rest, r.readLoop d fuel want acc = (.ok (acc ++ segs.flatten.take want), r') ∧
      segs = pre ++ rest ∧ Feeds d r' rest ∧ pre.flatten.length < want ∧
      (r.state ≠ .finished → r'.state ≠ .finished) := by
  induction h with
  | @last r r' hn hfin =>
    intro fuel want acc hf h0 hw
    simp only [List.flatten_cons, List.flatten_nil, List.append_nil] at hw ⊢
    obtain ⟨fuel, rfl⟩ : ∃ k, fuel = k + 1 := ⟨fuel - 1, by simp at hf; omega⟩
    unfold GEOSReader.readLoop
    simp only
    rw [if_pos (by omega), Nat.min_eq_left hw]
    exact ⟨r, [], [r.buffer], rfl, rfl, .last hn hfin, h0, id⟩
  | @more r r' segs hn hne hfeeds ih =>
    intro fuel want acc hf h0 hlen
    obtain ⟨fuel, rfl⟩ : ∃ k, fuel = k + 1 := ⟨fuel - 1, by simp at hf; omega⟩
    unfold GEOSReader.readLoop
    simp only [List.flatten_cons]
    rw [List.flatten_cons, List.length_append] at hlen
    by_cases hw : want ≤ r.buffer.length
    · rw [if_pos (by omega), Nat.min_eq_left hw, List.take_append_of_le_length hw]
      exact ⟨r, [], _, rfl, rfl, .more hn hne hfeeds, h0, id⟩
    · rw [if_neg (by omega), Nat.min_eq_right (by omega), List.drop_length]
      simp only [List.isEmpty_nil, if_true]
      rw [hn]
      simp only [hne, if_false]
      obtain ⟨r'', pre, rest, h1, h2, h3, h4, h5⟩ := ih fuel (want - r.buffer.length)
        (acc ++ r.buffer.take r.buffer.length) (by simp at hf; omega) (by omega) (by omega)
      refine ⟨r'', r.buffer :: pre, rest, ?_, by rw [h2]; rfl, h3, ?_, fun _ => h5 hne⟩
      · rw [h1, List.take_length, List.append_assoc]
        congr 3
        rw [List.take_append, List.take_of_length_le (show r.buffer.length ≤ want by omega)]
      · rw [List.flatten_cons, List.length_append]
        omega

/-! ## The converted index -/

theorem scanItems_ok : ∀ (ss : List ChainSector) (acc : Nat × Nat), (∀ x ∈ ss, 1 ≤ x.data.length) →
    scanItems (ss.map .ok) acc =
      .ok (acc.1 + ss.length, (ss.getLast?.map fun x => x.data.length - 1).getD acc.2)
  | [], acc, _ => rfl
  | x :: xs, acc, h => by
    rw [List.map_cons]
    unfold scanItems
    have h1 := h x (by simp)
    simp only [subU, if_pos h1, res_bind_ok]
    rw [scanItems_ok xs _ (fun y hy => h y (by simp [hy]))]
    congr 2
    · simp; omega
    · cases xs with
      | nil => rfl
      | cons y ys => rw [List.getLast?_cons_cons, List.getLast?_cons]; rfl

theorem scanChain_chain (hw : Wf d s) {init : List Location} {t p : Location} {content : List Byte}
    (hc : IsChain d s (init ++ [t]) content) (hp : (init ++ [t]).head? = some p)
    (hlen : init.length < 255) :
    scanChain d p = .ok (UInt8.ofNat (init.length + 1), byteAt (d.blk s t) 1) := by
  have hvt := hc.valid t (by simp)
  have hn := (byteAt (d.blk s t) 1).toNat_lt
  unfold scanChain
  rw [chainItems_chain hw hc hp rfl]
  have e : init.map (fun l => (Except.ok ⟨d.blk s l, l⟩ : Res ChainSector)) ++
      [.ok ⟨(d.blk s t).take ((byteAt (d.blk s t) 1).toNat + 1), t⟩] =
      (init.map (fun l => (⟨d.blk s l, l⟩ : ChainSector)) ++
        [(⟨(d.blk s t).take ((byteAt (d.blk s t) 1).toNat + 1), t⟩ : ChainSector)]).map .ok := by
    rw [List.map_append, List.map_map]; rfl
  have hl : ((d.blk s t).take ((byteAt (d.blk s t) 1).toNat + 1)).length
      = (byteAt (d.blk s t) 1).toNat + 1 := by
    rw [List.length_take, hw.blk_length hvt]; omega
  rw [e, scanItems_ok]
  · simp only [res_bind_ok, List.length_append, List.length_map, List.length_cons, List.length_nil,
      List.getLast?_append, List.getLast?_singleton, Option.some_or, Option.map_some, Option.getD_some,
      hl, Nat.zero_add, Nat.add_sub_cancel]
    rw [if_neg (by omega), if_neg (by omega), UInt8.ofNat_toNat]
    rfl
  · intro x hx
    rcases List.mem_append.1 hx with hx | hx
    · obtain ⟨l, hl, rfl⟩ := List.mem_map.1 hx
      rw [hw.blk_length (hc.valid l (by simp [hl]))]
      omega
    · simp only [List.mem_singleton] at hx
      subst hx
      rw [hl]
      omega

/-- The conversion of the index block. -/
theorem convertIndex_ok (hw : Wf d s) {ps : List Location} {records : List (List Byte)}
    {lengths : List Byte} (hc : Converted d s ps records lengths) :
    ∀ b : List Byte, (pairs b).takeWhile (fun l => l != ⟨0, 0⟩) = ps →
    ∃ items, convertIndex d b = .ok items ∧ items.flatMap (fun i => [i.2.1, i.2.2]) = lengths ∧
      items.length = ps.length ∧
      ∃ starts, items.filterMap (·.1) = starts ∧ starts.map (chainContent d) = records.map .ok := by
  induction hc with
  | nil =>
    intro b hb
    refine ⟨[], ?_, rfl, rfl, [], rfl, rfl⟩
    match b, hb with
    | [], _ => rfl
    | [_], _ => rfl
    | a :: b :: rest, hb =>
      unfold pairs at hb
      unfold convertIndex
      rw [List.takeWhile_cons] at hb
      split at hb
      · cases hb
      · rename_i h
        rw [if_pos]
        simpa using h
  | @absent ps records lengths _ ih =>
    intro b hb
    match b, hb with
    | [], hb => cases hb
    | [_], hb => cases hb
    | a :: b :: rest, hb =>
      unfold pairs at hb
      rw [List.takeWhile_cons] at hb
      split at hb
      · rename_i hne
        injection hb with h1 h2
        obtain ⟨items, hi, hf, hlen, starts, hst, hct⟩ := ih rest h2
        injection h1 with ha hb'
        subst ha; subst hb'
        refine ⟨(none, 0x00, 0xFF) :: items, ?_, ?_, ?_, starts, ?_, hct⟩
        · unfold convertIndex
          rw [if_neg (by decide), if_pos (by decide), hi]
          rfl
        · rw [List.flatMap_cons, hf]; rfl
        · simp [hlen]
        · rw [List.filterMap_cons_none rfl, hst]
      · cases hb
  | @present p init t content ps records lengths hp hh hchain hlen _ ih =>
    intro b hb
    match b, hb with
    | [], hb => cases hb
    | [_], hb => cases hb
    | a :: b :: rest, hb =>
      unfold pairs at hb
      rw [List.takeWhile_cons] at hb
      split at hb
      · rename_i hne
        injection hb with h1 h2
        obtain ⟨items, hi, hf, hln, starts, hst, hct⟩ := ih rest h2
        subst h1
        refine ⟨(some ⟨a, b⟩, UInt8.ofNat (init.length + 1), byteAt (d.blk s t) 1) :: items,
          ?_, ?_, ?_, ⟨a, b⟩ :: starts, ?_, ?_⟩
        · unfold convertIndex
          rw [if_neg (by simpa using hne), if_neg (by
            intro h
            exact hp (by rw [h.1, h.2]; rfl)), scanChain_chain hw hchain hh hlen, hi]
          rfl
        · rw [List.flatMap_cons, hf]; rfl
        · simp [hln]
        · rw [← hst]; rfl
        · rw [List.map_cons, List.map_cons, hct, (C16_read_ok_iff hw _ content).2 ⟨_, hh, hchain⟩]
      · cases hb

theorem padBlock_eq (b : List Byte) : padBlock b = padded b := by
  unfold padBlock padded
  simp only
  split
  · rename_i h
    have := Nat.mod_lt b.length (show 254 > 0 by omega)
    rw [Nat.mod_eq_of_lt (show 254 - b.length % 254 < 254 by omega)]
  · rename_i h
    have : b.length % 254 = 0 := by omega
    rw [this]
    simp

/-- The segments the records are delivered in. -/
def recordSegs : List (List Byte) → List (List Byte)
  | [] => []
  | [x] => [x]
  | x :: y :: rest => padded x :: recordSegs (y :: rest)

theorem recordSegs_flatten : ∀ rs, (recordSegs rs).flatten = joined rs
  | [] => rfl
  | [x] => by simp [recordSegs, joined]
  | x :: y :: rest => by
    unfold recordSegs joined
    rw [List.flatten_cons, recordSegs_flatten (y :: rest)]

theorem recordSegs_length : ∀ rs, (recordSegs rs).length = rs.length
  | [] => rfl
  | [x] => rfl
  | x :: y :: rest => by
    unfold recordSegs
    rw [List.length_cons, recordSegs_length (y :: rest)]
    rfl

theorem recordSegs_part {c : List Byte} : ∀ {rs : List (List Byte)}, c ∈ rs →
    ∃ b ∈ recordSegs rs, c.length ≤ b.length
  | [x], h => ⟨x, by simp [recordSegs], by rw [List.mem_singleton.1 h]; exact Nat.le_refl _⟩
  | x :: y :: rest, h => by
    unfold recordSegs
    rcases List.mem_cons.1 h with rfl | h
    · exact ⟨padded c, by simp, by unfold padded; rw [List.length_append]; omega⟩
    · obtain ⟨b, hb, hl⟩ := recordSegs_part h
      exact ⟨b, List.mem_cons_of_mem _ hb, hl⟩

theorem converted_part (hw : Wf d s) {ps : List Location} {records : List (List Byte)} {lengths : List Byte}
    (h : Converted d s ps records lengths) {q : Location} {locs : List Location} {c : List Byte}
    (hq : q ∈ ps) (hne : q ≠ noRecord) (hh : locs.head? = some q) (hc : IsChain d s locs c) : c ∈ records := by
  induction h with
  | nil => cases hq
  | absent _ ih =>
    rcases List.mem_cons.1 hq with rfl | hq
    · exact absurd rfl hne
    · exact ih hq
  | @present p init t content ps records lengths _ hp hcp _ _ ih =>
    rcases List.mem_cons.1 hq with rfl | hq
    · have h1 := (C16_read_ok_iff hw _ content).2 ⟨_, hp, hcp⟩
      rw [(C16_read_ok_iff hw _ c).2 ⟨_, hh, hc⟩] at h1
      cases h1
      simp
    · exact List.mem_cons_of_mem _ (ih hq)

/-- The state of the reader before each record. -/
theorem feeds_records : ∀ (records : List (List Byte)) (starts : List Location),
    starts.map (chainContent d) = records.map .ok → ∀ r : GEOSReader,
    (r.state = .records ∨ r.state = .vlirIndexBlock) → r.chains = starts →
    Feeds d r (r.buffer :: recordSegs records)
  | [], [], _, r, hst, hch => by
    have : GEOSReader.nextState { r with buffer := [] } d
        = (.ok (), { r with buffer := [], state := .finished }) := by
      unfold GEOSReader.nextState GEOSReader.nextRecord
      rcases hst with h | h <;> simp only [h, hch]
    exact .last this rfl
  | [], _ :: _, h, _, _, _ => by cases h
  | _ :: _, [], h, _, _, _ => by cases h
  | c :: rest, start :: starts, h, r, hst, hch => by
    rw [List.map_cons, List.map_cons] at h
    injection h with h1 h2
    have hiff : starts.isEmpty = rest.isEmpty := by
      cases starts <;> cases rest <;> first | rfl | cases h2
    have : GEOSReader.nextState { r with buffer := [] } d
        = (.ok (), { r with
            state := .records, chains := starts
            buffer := if rest.isEmpty then c else padded c }) := by
      unfold GEOSReader.nextState GEOSReader.nextRecord
      rcases hst with h | h <;>
        simp only [h, hch, h1, List.nil_append, hiff, padBlock_eq]
    have hf := feeds_records rest starts h2
      { r with state := .records, chains := starts, buffer := if rest.isEmpty then c else padded c }
      (.inl rfl) rfl
    have hseg : recordSegs (c :: rest) = (if rest.isEmpty then c else padded c) :: recordSegs rest := by
      cases rest <;> rfl
    rw [hseg]
    exact .more this (by simp) hf

/-- The reader of an exportable file delivers its stream. -/
theorem feeds_export (hw : Wf d s) {slot stream : List Byte} (hs : slot.length = 32)
    (p : Option Position) (he : Exports d s slot stream) :
    ∃ r segs, GEOSReader.new (DirectoryEntry.parse32 slot p) = .ok r ∧ r.state = .directoryEntry ∧
      r.buffer.length = 254 ∧ Feeds d r segs ∧ segs.flatten = stream ∧ segs.length ≤ 130 ∧
      ∀ content, PartOf d s slot content → ∃ b ∈ segs, content.length ≤ b.length := by
  cases he with
  | @sequential info locs content hsch hi hv hh hc =>
    subst hi
    have hne : (⟨byteAt slot 0x15, byteAt slot 0x16⟩ : Location) ≠ ⟨0, 0⟩ := by
      intro h
      rw [h] at hv
      exact absurd hv.1 (by decide)
    have hnew := reader_new hs p (.inl hsch) hne
    have hdec : decide (entryScheme slot = .geosVLIR) = false := by rw [hsch]; rfl
    rw [hdec] at hnew
    refine ⟨_, [exportHead slot false, (d.blk s ⟨byteAt slot 0x15, byteAt slot 0x16⟩).drop 2, [],
      content], hnew, rfl, (exportHead_length hs false).2, ?_, ?_, by simp, ?_⟩
    · have hct : chainContent d ⟨byteAt slot 3, byteAt slot 4⟩ = .ok content :=
        (C16_read_ok_iff hw _ content).2 ⟨locs, hh, hc⟩
      have h3 := feeds_records (d := d) [content] [⟨byteAt slot 3, byteAt slot 4⟩] (by rw [List.map_cons, hct]; rfl)
        ⟨.records, [], false, ⟨byteAt slot 0x15, byteAt slot 0x16⟩, ⟨byteAt slot 3, byteAt slot 4⟩,
          [⟨byteAt slot 3, byteAt slot 4⟩]⟩ (.inl rfl) rfl
      have h2 : Feeds d ⟨.infoBlock, (d.blk s ⟨byteAt slot 0x15, byteAt slot 0x16⟩).drop 2, false,
          ⟨byteAt slot 0x15, byteAt slot 0x16⟩, ⟨byteAt slot 3, byteAt slot 4⟩, []⟩
          ((d.blk s ⟨byteAt slot 0x15, byteAt slot 0x16⟩).drop 2 :: [] :: recordSegs [content]) :=
        .more rfl (by simp) h3
      refine .more (r' := ⟨.infoBlock, (d.blk s ⟨byteAt slot 0x15, byteAt slot 0x16⟩).drop 2, false,
          ⟨byteAt slot 0x15, byteAt slot 0x16⟩, ⟨byteAt slot 3, byteAt slot 4⟩, []⟩) ?_ (by simp) h2
      unfold GEOSReader.nextState
      simp only [hw.sector hv]
    · simp
    · rintro c (⟨-, locs', hh', hc'⟩ | ⟨h, -⟩)
      · have h1 := (C16_read_ok_iff hw _ content).2 ⟨locs, hh, hc⟩
        rw [(C16_read_ok_iff hw _ c).2 ⟨locs', hh', hc'⟩] at h1
        cases h1
        exact ⟨content, by simp, Nat.le_refl _⟩
      · rw [hsch] at h
        cases h
  | @vlir info index records lengths hsch hi hv hix hvx hc =>
    subst hi
    have hne : (⟨byteAt slot 0x15, byteAt slot 0x16⟩ : Location) ≠ ⟨0, 0⟩ := by
      intro h
      rw [h] at hv
      exact absurd hv.1 (by decide)
    have hnew := reader_new hs p (.inr hsch) hne
    have hdec : decide (entryScheme slot = .geosVLIR) = true := by rw [hsch]; rfl
    rw [hdec, ← hix] at hnew
    obtain ⟨items, hit, hfl, hlen, starts, hst, hct⟩ :=
      convertIndex_ok hw hc ((d.blk s index).drop 2) rfl
    have h127 := vlirIndex_length (hw.blk_length hvx)
    have hrl : records.length ≤ 127 := by
      have := congrArg List.length hct
      simp only [List.length_map] at this
      have h2 := List.length_filterMap_le (fun i : Option Location × Byte × Byte => i.1) items
      rw [hst] at h2
      omega
    have hll : lengths.length = 2 * items.length := by
      rw [← hfl]
      clear hfl hlen hst hit
      induction items with
      | nil => rfl
      | cons i is ih => rw [List.flatMap_cons, List.length_append, ih]; simp; omega
    have hblock : indexBlock items = lengths ++ List.replicate (254 - lengths.length) 0 := by
      unfold indexBlock
      simp only [hfl]
      rw [List.take_of_length_le]
      rw [List.length_append, List.length_replicate]
      omega
    have h3 := feeds_records records starts hct
      ⟨.vlirIndexBlock, indexBlock items, true, ⟨byteAt slot 0x15, byteAt slot 0x16⟩, index, starts⟩
      (.inr rfl) rfl
    have h2 : Feeds d ⟨.infoBlock, (d.blk s ⟨byteAt slot 0x15, byteAt slot 0x16⟩).drop 2, true,
        ⟨byteAt slot 0x15, byteAt slot 0x16⟩, index, []⟩
        ((d.blk s ⟨byteAt slot 0x15, byteAt slot 0x16⟩).drop 2 :: indexBlock items ::
          recordSegs records) := by
      refine .more (r' := ⟨.vlirIndexBlock, indexBlock items, true,
        ⟨byteAt slot 0x15, byteAt slot 0x16⟩, index, starts⟩) ?_ (by simp) h3
      unfold GEOSReader.nextState GEOSReader.processIndex
      simp only [if_true, hw.sector hvx, res_bind_ok, hit, res_pure, hst]
    refine ⟨_, exportHead slot true :: (d.blk s ⟨byteAt slot 0x15, byteAt slot 0x16⟩).drop 2 ::
      indexBlock items :: recordSegs records, hnew, rfl, (exportHead_length hs true).2, ?_, ?_, ?_, ?_⟩
    · refine .more (r' := ⟨.infoBlock, (d.blk s ⟨byteAt slot 0x15, byteAt slot 0x16⟩).drop 2, true,
        ⟨byteAt slot 0x15, byteAt slot 0x16⟩, index, []⟩) ?_ (by simp) h2
      unfold GEOSReader.nextState
      simp only [hw.sector hv]
    · simp only [List.flatten_cons, recordSegs_flatten, hblock, List.append_assoc]
    · simp only [List.length_cons, recordSegs_length]
      omega
    · rintro c (⟨h, -⟩ | ⟨-, q, hq, hne, locs, hh, hch⟩)
      · rw [hsch] at h
        cases h
      · rw [← hix] at hq
        obtain ⟨b, hb, hl⟩ := recordSegs_part (converted_part hw hc hq hne hh hch)
        exact ⟨b, by simp [hb], hl⟩

end Cbm
