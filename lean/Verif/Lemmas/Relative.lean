import Verif.Spec.Relative
import Verif.Lemmas.DirSlots
import Verif.Lemmas.Bam
import Verif.Model.File
/-!
# Opening relative files
-/

namespace Cbm
open Spec
variable {d : Device} {s : Shape}

theorem pairLocations_even : ∀ {xs : List Byte}, xs.length % 2 = 0 →
    pairLocations xs = .ok (pairs xs)
  | [], _ => rfl
  | [_], h => by simp at h
  | a :: b :: rest, h => by
    have : rest.length % 2 = 0 := by simp at h; omega
    unfold pairLocations pairs
    rw [pairLocations_even this]
    rfl

theorem subSlice_ok {b : List Byte} {o n : Nat} (h : o + n ≤ b.length) :
    subSlice b o n = .ok (slice b o n) := if_pos h

theorem subSlice_panic {b : List Byte} {o n : Nat} (h : ¬ o + n ≤ b.length) :
    subSlice b o n = rpanic := if_neg h

/-- One side sector of the chain: what the loop makes of it. -/
theorem sideSector_full {b : List Byte} {l : Location} (hb : b.length = 256) (h0 : byteAt b 0 ≠ 0)
    (rest : List (Res ChainSector)) (side : List Location) (lists : List (List Location))
    (data : List Location) :
    sideSectorLoop (.ok ⟨b, l⟩ :: rest) side lists data =
      sideSectorLoop rest (side ++ [l]) (lists ++ [listedSides b]) (data ++ listedData b) := by
  have hu : usedBytes b = 256 := if_neg h0
  have hlink := chainLink_new b (by omega)
  rw [if_neg h0] at hlink
  conv => lhs; unfold sideSectorLoop
  simp only [subSlice_ok (show 4 + 12 ≤ b.length by omega), res_bind_ok,
    pairLocations_even (show (slice b 4 12).length % 2 = 0 by rw [length_slice _ _ _ (by omega)]),
    hlink, res_pure]
  rw [if_neg (by decide)]
  simp only [BLOCK_SIZE, subSlice_ok (show 16 + (256 - 16) ≤ b.length by omega), res_bind_ok,
    pairLocations_even (show (slice b 16 (256 - 16)).length % 2 = 0 by
      rw [length_slice _ _ _ (by omega)])]
  unfold listedSides listedData
  rw [hu]

theorem sideSector_fulls {ls : List Location} (hw : Wf d s) (hv : ∀ l ∈ ls, s.Valid l)
    (h0 : ∀ l ∈ ls, byteAt (d.blk s l) 0 ≠ 0) (rest : List (Res ChainSector)) :
    ∀ (side : List Location) (lists : List (List Location)) (data : List Location),
    sideSectorLoop (ls.map (fun l => .ok ⟨d.blk s l, l⟩) ++ rest) side lists data =
      sideSectorLoop rest (side ++ ls) (lists ++ ls.map fun l => listedSides (d.blk s l))
        (data ++ ls.flatMap fun l => listedData (d.blk s l)) := by
  induction ls with
  | nil => intro side lists data; simp
  | cons l ls ih =>
    intro side lists data
    rw [List.map_cons, List.cons_append,
      sideSector_full (hw.blk_length (hv l (by simp))) (h0 l (by simp)),
      ih (fun m hm => hv m (by simp [hm])) (fun m hm => h0 m (by simp [hm]))]
    simp

/-- The last side sector. -/
theorem sideSector_tail {b : List Byte} {l : Location} (hb : b.length = 256) (h0 : byteAt b 0 = 0)
    (h1 : byteAt b 1 ≠ 0) (side : List Location) (lists : List (List Location))
    (data : List Location) :
    sideSectorLoop [.ok ⟨b.take ((byteAt b 1).toNat + 1), l⟩] side lists data =
      if usedBytes b < 16 then rpanic
      else if usedBytes b % 2 = 1 then fail .invalidRelativeFile
      else .ok (side ++ [l], lists ++ [listedSides b], data ++ listedData b) := by
  have hu : usedBytes b = (byteAt b 1).toNat + 1 := if_pos h0
  have hn := (byteAt b 1).toNat_lt
  have h1' : (byteAt b 1).toNat ≠ 0 := fun h => h1 (UInt8.toNat.inj h)
  have hlen : (b.take ((byteAt b 1).toNat + 1)).length = (byteAt b 1).toNat + 1 := by
    rw [List.length_take]; omega
  have hlink : ChainLink.new (b.take ((byteAt b 1).toNat + 1))
      = .ok (.tail ((byteAt b 1).toNat + 1)) := by
    rw [chainLink_new _ (by omega)]
    have e0 : byteAt (b.take ((byteAt b 1).toNat + 1)) 0 = byteAt b 0 := by
      simp only [byteAt, List.getD_eq_getElem?_getD]
      rw [List.getElem?_take, if_pos (by omega)]
    have e1 : byteAt (b.take ((byteAt b 1).toNat + 1)) 1 = byteAt b 1 := by
      simp only [byteAt, List.getD_eq_getElem?_getD]
      rw [List.getElem?_take, if_pos]
      simp only [byteAt, List.getD_eq_getElem?_getD] at h1'
      omega
    rw [e0, e1, if_pos h0, if_neg h1]
  rw [hu]
  unfold sideSectorLoop
  by_cases hs : (byteAt b 1).toNat + 1 < 16
  · rw [if_pos hs, subSlice_panic (by rw [hlen]; omega)]
    rfl
  · rw [if_neg hs]
    simp only [subSlice_ok (show 4 + 12 ≤ (b.take ((byteAt b 1).toNat + 1)).length by
      rw [hlen]; omega), res_bind_ok, hlink, res_pure]
    rw [slice_take _ _ _ _ (by omega),
      pairLocations_even (by rw [length_slice _ _ _ (by omega)])]
    simp only [res_bind_ok]
    by_cases ho : ((byteAt b 1).toNat + 1) % 2 = 1
    · rw [if_pos ho, if_pos (by rw [ho]; simp only [BEq.rfl, Bool.or_true])]
    · rw [if_neg ho, if_neg (by
        simp only [Bool.or_eq_true, decide_eq_true_eq, beq_iff_eq, not_or]
        exact ⟨hs, ho⟩)]
      rw [subSlice_ok (by rw [hlen]; omega), res_bind_ok, slice_take _ _ _ _ (by omega),
        pairLocations_even (by rw [length_slice _ _ _ (by omega)]; omega)]
      simp only [res_bind_ok, sideSectorLoop]
      unfold listedSides listedData
      rw [hu]

/-- The checks made once the side sectors are known. -/
def relFinish (d : Device) (entry : DirectoryEntry) (recordLength : Nat) (side : List Location)
    (lists : List (List Location)) (data : List Location) : Res RelativeFile :=
  if side.length > 6 then fail .invalidRelativeFile
  else if lists.any (fun l => l != side) then fail .invalidRelativeFile
  else do
    let last ← lastBlockBytes d data
    let size := (if data.isEmpty then 0 else (data.length - 1) * (BLOCK_SIZE - 2)) + last
    if recordLength = 0 then rpanic
    else if size % recordLength ≠ 0 then fail .invalidRelativeFile
    else pure ⟨entry, recordLength, data, side, size / recordLength⟩

/-- Opening a relative file, in terms of the walk along its side sectors. -/
theorem relative_new (hw : Wf d s) {entry : DirectoryEntry} {ex : RelativeExtra}
    (hx : entry.extra = .relative ex) :
    ∃ ls e, Path d s ex.firstSideSector ls e ∧ Stops d s ls e ∧
      RelativeFile.new d entry =
        if e ∈ ls then fail .chainLoop
        else if ¬ s.Valid e then fail .invalidLocation
        else if byteAt (d.blk s e) 1 = 0 then fail .invalidChainLink
        else if usedBytes (d.blk s e) < 16 then rpanic
        else if usedBytes (d.blk s e) % 2 = 1 then fail .invalidRelativeFile
        else relFinish d entry ex.recordLength.toNat (ls ++ [e])
          ((ls ++ [e]).map fun l => listedSides (d.blk s l))
          ((ls ++ [e]).flatMap fun l => listedData (d.blk s l)) := by
  obtain ⟨ls, e, hit, hp, hst⟩ := chainItems_walk hw ex.firstSideSector
  refine ⟨ls, e, hp, hst, ?_⟩
  unfold RelativeFile.new
  rw [hx]
  simp only []
  rw [hit, sideSector_fulls hw hp.valid hp.onward]
  unfold stopItem
  by_cases h1 : e ∈ ls
  · rw [if_pos h1, if_pos h1]; rfl
  rw [if_neg h1, if_neg h1]
  by_cases h2 : ¬ s.Valid e
  · rw [if_pos h2, if_pos h2]; rfl
  rw [if_neg h2, if_neg h2]
  by_cases h3 : byteAt (d.blk s e) 1 = 0
  · rw [if_pos h3, if_pos h3]; rfl
  rw [if_neg h3, if_neg h3]
  have hv : s.Valid e := Decidable.not_not.1 h2
  have h0 : byteAt (d.blk s e) 0 = 0 := by
    rcases hst with h | h | h
    · exact absurd h h1
    · exact absurd hv h
    · exact h
  rw [sideSector_tail (hw.blk_length hv) h0 h3]
  by_cases h4 : usedBytes (d.blk s e) < 16
  · rw [if_pos h4, if_pos h4]; rfl
  rw [if_neg h4, if_neg h4]
  by_cases h5 : usedBytes (d.blk s e) % 2 = 1
  · rw [if_pos h5, if_pos h5]; rfl
  rw [if_neg h5, if_neg h5]
  simp only [res_bind_ok, List.nil_append, List.map_append, List.map_cons, List.map_nil,
    List.flatMap_append, List.flatMap_cons, List.flatMap_nil, List.append_nil]
  rfl

theorem lastBlockBytes_append (hw : Wf d s) (init : List Location) (t : Location) :
    lastBlockBytes d (init ++ [t]) =
      if ¬ s.Valid t then fail .invalidLocation
      else if byteAt (d.blk s t) 0 ≠ 0 then fail .invalidRelativeFile
      else if byteAt (d.blk s t) 1 = 0 then fail .invalidChainLink
      else .ok ((byteAt (d.blk s t) 1).toNat - 1) := by
  unfold lastBlockBytes
  rw [List.getLast?_append]
  simp only [List.getLast?_singleton, Option.some_or]
  by_cases hv : s.Valid t
  · rw [if_neg (by simpa using hv), hw.sector hv, res_bind_ok,
      chainLink_new _ (by rw [hw.blk_length hv]; omega)]
    by_cases h0 : byteAt (d.blk s t) 0 = 0
    · rw [if_pos h0, if_neg (show ¬ byteAt (d.blk s t) 0 ≠ 0 from fun h => h h0)]
      by_cases h1 : byteAt (d.blk s t) 1 = 0
      · rw [if_pos h1, if_pos h1]; rfl
      · rw [if_neg h1, if_neg h1]
        simp only [res_bind_ok, res_pure]
        congr 1
    · rw [if_neg h0, if_pos h0]
      rfl
  · rw [if_pos hv, hw.sector_invalid hv]
    rfl

theorem relFinish_size {entry : DirectoryEntry} {L size : Nat} {side data : List Location}
    {lists : List (List Location)} (hw : Wf d s) (h6 : side.length ≤ 6)
    (hl : ∀ l ∈ lists, l = side) (hsz : DataSize d s data size) :
    relFinish d entry L side lists data =
      if L = 0 then rpanic else if size % L ≠ 0 then fail .invalidRelativeFile
      else .ok ⟨entry, L, data, side, size / L⟩ := by
  unfold relFinish
  rw [if_neg (by omega), if_neg]
  · rcases hsz with ⟨rfl, rfl⟩ | ⟨init, t, rfl, hv, h0, h1, rfl⟩
    · rfl
    · rw [lastBlockBytes_append hw, if_neg (fun h => h hv), if_neg (fun h => h h0), if_neg h1]
      simp only [res_bind_ok]
      have : (if (init ++ [t]).isEmpty = true then 0
          else ((init ++ [t]).length - 1) * (BLOCK_SIZE - 2)) = 254 * init.length := by
        simp [BLOCK_SIZE]; omega
      rw [this]
      rfl
  · intro h
    rw [List.any_eq_true] at h
    obtain ⟨x, hx, hne⟩ := h
    rw [hl x hx] at hne
    simp at hne

/-- Unless it reports an error, the last part of opening has found everything in order. -/
theorem relFinish_reached {entry : DirectoryEntry} {L : Nat} {side data : List Location}
    {lists : List (List Location)} {r : Res RelativeFile} (hw : Wf d s)
    (h : relFinish d entry L side lists data = r) (hr : ∀ y, r ≠ fail y) :
    side.length ≤ 6 ∧ (∀ l ∈ lists, l = side) ∧ ∃ size, DataSize d s data size := by
  have h6 : side.length ≤ 6 := by
    unfold relFinish at h
    split at h
    · exact absurd h.symm (hr _)
    · omega
  have hl : ∀ l ∈ lists, l = side := by
    unfold relFinish at h
    rw [if_neg (by omega)] at h
    split at h
    · exact absurd h.symm (hr _)
    · rename_i hn
      intro l hl
      rw [Bool.not_eq_true, List.any_eq_false] at hn
      simpa using hn l hl
  have hsz : ∃ size, DataSize d s data size := by
    rcases List.eq_nil_or_concat data with rfl | ⟨init, t, rfl⟩
    · exact ⟨0, .inl ⟨rfl, rfl⟩⟩
    · rw [List.concat_eq_append] at h ⊢
      unfold relFinish at h
      rw [if_neg (by omega), lastBlockBytes_append hw] at h
      split at h
      · exact absurd h.symm (hr _)
      · split at h
        · exact absurd h.symm (hr _)
        · rename_i hv
          split at h
          · exact absurd h.symm (hr _)
          · rename_i h0
            split at h
            · exact absurd h.symm (hr _)
            · rename_i h1
              exact ⟨_, .inr ⟨init, t, rfl, Decidable.not_not.1 hv, Decidable.not_not.1 h0, h1, rfl⟩⟩
  exact ⟨h6, hl, hsz⟩

/-- The checks succeed only for the sizes of the specification. -/
theorem relFinish_ok {entry : DirectoryEntry} {L : Nat} {side data : List Location}
    {lists : List (List Location)} {f : RelativeFile} (hw : Wf d s)
    (h : relFinish d entry L side lists data = .ok f) :
    side.length ≤ 6 ∧ (∀ l ∈ lists, l = side) ∧ L ≠ 0 ∧
      ∃ size, DataSize d s data size ∧ size % L = 0 ∧ f = ⟨entry, L, data, side, size / L⟩ := by
  obtain ⟨h6, hl, hsz⟩ := relFinish_reached hw h (by nofun)
  obtain ⟨size, hsz⟩ := hsz
  rw [relFinish_size hw h6 hl hsz] at h
  split at h
  · cases h
  · rename_i hL
    split at h
    · cases h
    · rename_i hm
      exact ⟨h6, hl, hL, size, hsz, Decidable.not_not.1 hm, (Except.ok.inj h).symm⟩

end Cbm

namespace Cbm
open Spec
variable {d : Device} {s : Shape}

theorem slice_append_left' (xs ys : List Byte) (o n : Nat) (h : o + n ≤ xs.length) :
    slice (xs ++ ys) o n = slice xs o n := by
  unfold slice
  rw [List.drop_append_of_le_length (by omega), List.take_append_of_le_length]
  rw [List.length_drop]; omega

theorem slice_append_right' (xs ys : List Byte) (o n : Nat) :
    slice (xs ++ ys) (xs.length + o) n = slice ys o n := by
  unfold slice
  rw [List.drop_append, List.drop_eq_nil_of_le (by omega), List.nil_append]
  congr 2
  omega

theorem slice_split (xs : List Byte) (o m n : Nat) :
    slice xs o (m + n) = slice xs o m ++ slice xs (o + m) n := by
  unfold slice
  rw [List.take_add, List.drop_drop]

theorem slice_drop (xs : List Byte) (k o n : Nat) : slice (xs.drop k) o n = slice xs (k + o) n := by
  unfold slice
  rw [List.drop_drop]

/-- A piece of the stream that lies in one data sector. -/
theorem stream_piece (hw : Wf d s) (t : Location) (m o n : Nat) (ho : o + n ≤ 254) :
    ∀ (init : List Location) (k : Nat), (∀ l ∈ init, s.Valid l) →
      254 * k + o + n ≤ 254 * init.length + m → m ≤ 254 → 0 < n →
      ∃ l, (init ++ [t])[k]? = some l ∧
        slice (payload d s init ++ slice (d.blk s t) 2 m) (254 * k + o) n
          = slice (d.blk s l) (2 + o) n
  | [], k, _, hk, hm, hn => by
    have : k = 0 := by simp at hk; omega
    subst this
    refine ⟨t, rfl, ?_⟩
    simp only [payload, List.flatMap_nil, List.nil_append, Nat.mul_zero, Nat.zero_add]
    simp at hk
    rw [slice_slice _ _ _ _ _ (by omega)]
  | l :: init, 0, hv, hk, hm, hn => by
    refine ⟨l, rfl, ?_⟩
    have hl := hw.blk_length (hv l (by simp))
    rw [payload_cons, List.append_assoc, slice_append_left' _ _ _ _
      (by rw [List.length_drop, hl]; omega), slice_drop]
    congr 1
    omega
  | l :: init, k + 1, hv, hk, hm, hn => by
    have hl := hw.blk_length (hv l (by simp))
    have hd : ((d.blk s l).drop 2).length = 254 := by rw [List.length_drop, hl]
    obtain ⟨x, hx, he⟩ := stream_piece hw t m o n ho init k (fun m hm => hv m (by simp [hm]))
      (by simp at hk; omega) hm hn
    refine ⟨x, hx, ?_⟩
    rw [← he, payload_cons, List.append_assoc,
      show 254 * (k + 1) + o = ((d.blk s l).drop 2).length + (254 * k + o) by rw [hd]; omega,
      slice_append_right']

theorem DataStream.length (hw : Wf d s) {data : List Location} {stream : List Byte}
    (h : DataStream d s data stream) : DataSize d s data stream.length := by
  rcases h with ⟨rfl, rfl⟩ | ⟨init, t, rfl, hv, h0, h1, rfl⟩
  · exact .inl ⟨rfl, rfl⟩
  · have hvt := hv t (by simp)
    refine .inr ⟨init, t, rfl, hvt, h0, h1, ?_⟩
    have hn := (byteAt (d.blk s t) 1).toNat_lt
    rw [List.length_append, length_slice _ _ _ (by rw [hw.blk_length hvt]; omega)]
    congr 1
    have hv' : ∀ l ∈ init, s.Valid l := fun l hl => hv l (by simp [hl])
    clear hv
    induction init with
    | nil => rfl
    | cons l ls ih =>
      rw [payload_cons, List.length_append, ih (fun m hm => hv' m (by simp [hm])), List.length_drop,
        hw.blk_length (hv' l (by simp))]
      simp; omega

theorem readPosition_ok (hw : Wf d s) {l : Location} (hv : s.Valid l) {o n : Nat}
    (h : o + n ≤ 256) (ho : o < 256) (hn : n < 256) :
    d.readPosition ⟨l, UInt8.ofNat o, UInt8.ofNat n⟩ = .ok (slice (d.blk s l) o n) := by
  have e1 : (UInt8.ofNat o).toNat = o := by simp; omega
  have e2 : (UInt8.ofNat n).toNat = n := by simp; omega
  unfold Device.readPosition
  simp only [hw.sector hv, res_bind_ok, e1, e2]
  exact subSlice_ok (by rw [hw.blk_length hv]; exact h)

/-- A record of an open relative file. -/
theorem relative_record (hw : Wf d s) {entry : DirectoryEntry} {L : Nat}
    {side data : List Location} {stream : List Byte} (hs : DataStream d s data stream)
    (hL : L ≠ 0) (hL' : L < 256) (hm : stream.length % L = 0) (i : Nat) :
    RelativeFile.record ⟨entry, L, data, side, stream.length / L⟩ d i =
      if i < stream.length / L then .ok (slice stream (i * L) L) else fail .invalidRecordIndex := by
  unfold RelativeFile.record RelativeFile.recordPosition
  by_cases hi : i < stream.length / L
  · rw [if_pos hi, if_neg (by simpa using hi)]
    have hend : (i + 1) * L ≤ stream.length := by
      have := Nat.div_mul_le_self stream.length L
      have := Nat.mul_le_mul_right L (show i + 1 ≤ stream.length / L by omega)
      omega
    have hend' : i * L + L ≤ stream.length := by rw [Nat.add_mul] at hend; omega
    have hsz := DataStream.length hw hs
    rcases hs with ⟨rfl, rfl⟩ | ⟨init, t, rfl, hv, h0, h1, rfl⟩
    · simp at hend'; omega
    · have hn := (byteAt (d.blk s t) 1).toNat_lt
      rcases hsz with ⟨h, -⟩ | ⟨init', t', he, -, -, -, hlen⟩
      · simp at h
      obtain ⟨rfl, rfl⟩ : init = init' ∧ t = t' := by
        have := List.append_inj' he rfl
        exact ⟨this.1, by simpa using this.2⟩
      simp only [BLOCK_SIZE, show 256 - 2 = 254 from rfl]
      have hc : L * i = i * L := Nat.mul_comm _ _
      rw [hc]
      generalize hq : i * L / 254 = q
      generalize hr : i * L % 254 = r
      have hr' : r < 254 := by rw [← hr]; exact Nat.mod_lt _ (by omega)
      have hp : i * L = 254 * q + r := by rw [← hq, ← hr, Nat.div_add_mod]
      rw [hlen] at hend'
      have hv' : ∀ l ∈ init, s.Valid l := fun l hl => hv l (by simp [hl])
      have hget : ∀ {k : Nat} {l : Location}, (init ++ [t])[k]? = some l →
          indexRes (init ++ [t]) k = .ok l ∧ s.Valid l := by
        intro k l h
        refine ⟨by unfold indexRes; rw [h], hv l (List.mem_of_getElem? h)⟩
      by_cases hone : r + 2 + L ≤ 256
      · obtain ⟨l, hl, hpc⟩ := stream_piece hw t ((byteAt (d.blk s t) 1).toNat - 1) r L (by omega)
          init q hv' (by omega) (by omega) (by omega)
        obtain ⟨hl1, hl2⟩ := hget hl
        rw [hl1]
        simp only [res_bind_ok]
        rw [if_pos hone]
        simp only [res_pure, res_bind_ok]
        rw [readPosition_ok hw hl2 (by omega) (by omega) (by omega)]
        simp only [res_bind_ok, List.append_nil]
        rw [length_slice _ _ _ (by rw [hw.blk_length hl2]; omega), if_neg (by simp), hp, hpc,
          Nat.add_comm 2 r]
      · obtain ⟨l, hl, hpc⟩ := stream_piece hw t ((byteAt (d.blk s t) 1).toNat - 1) r (254 - r)
          (by omega) init q hv' (by omega) (by omega) (by omega)
        obtain ⟨l', hl', hpc'⟩ := stream_piece hw t ((byteAt (d.blk s t) 1).toNat - 1) 0
          (r + 2 + L - 256) (by omega) init (q + 1) hv' (by omega) (by omega) (by omega)
        obtain ⟨hl1, hl2⟩ := hget hl
        obtain ⟨hl1', hl2'⟩ := hget hl'
        rw [hl1]
        simp only [res_bind_ok]
        rw [if_neg hone, hl1']
        simp only [res_pure, res_bind_ok]
        rw [readPosition_ok hw hl2 (by omega) (by omega) (by omega)]
        rw [show (2 : UInt8) = UInt8.ofNat 2 from rfl,
          readPosition_ok hw hl2' (by omega) (by omega) (by omega)]
        simp only [res_bind_ok]
        rw [if_neg]
        · refine congrArg Except.ok ?_
          rw [show slice (payload d s init ++ slice (d.blk s t) 2 ((byteAt (d.blk s t) 1).toNat - 1))
              (i * L) L = slice (payload d s init ++ slice (d.blk s t) 2
                ((byteAt (d.blk s t) 1).toNat - 1)) (254 * q + r) ((254 - r) + (r + 2 + L - 256)) by
            rw [hp, show (254 - r) + (r + 2 + L - 256) = L by omega]]
          rw [slice_split, hpc, show 254 * q + r + (254 - r) = 254 * (q + 1) + 0 by omega, hpc']
          rw [Nat.add_comm 2 r, show L - (r + 2 + L - 256) = 254 - r by omega]
        · rw [List.length_append, length_slice _ _ _ (by rw [hw.blk_length hl2]; omega),
            length_slice _ _ _ (by rw [hw.blk_length hl2']; omega)]
          simp
          omega
  · rw [if_neg hi, if_pos (by simpa using hi)]
    rfl

end Cbm
