import Verif.Model.Bam
/-!
# Bit-level facts about BAM entries
-/

namespace Cbm

theorem and_one_eq (m : BitVec 64) : (m &&& 1#64 = 1#64) ↔ m.getLsbD 0 = true := by
  constructor
  · intro h
    have := congrArg (fun x => BitVec.getLsbD x 0) h
    simpa using this
  · intro h
    apply BitVec.eq_of_getLsbD_eq
    intro i hi
    by_cases h0 : i = 0
    · subst h0; simp [h]
    · simp [BitVec.getLsbD_and, BitVec.getLsbD_one, h0]

theorem and_one_eq_zero (m : BitVec 64) : (m &&& 1#64 = 0#64) ↔ m.getLsbD 0 = false := by
  constructor
  · intro h
    have := congrArg (fun x => BitVec.getLsbD x 0) h
    simpa using this
  · intro h
    apply BitVec.eq_of_getLsbD_eq
    intro i hi
    by_cases h0 : i = 0
    · subst h0; simpa [BitVec.getLsbD_eq_getElem] using h
    · simp [BitVec.getLsbD_and, BitVec.getLsbD_one, h0]

theorem getLsbD_shift (m : BitVec 64) (k i : Nat) :
    (m >>> k).getLsbD i = m.getLsbD (k + i) := by simp

theorem shift_and_one_eq (m : BitVec 64) (k : Nat) :
    ((m >>> k) &&& 1#64 = 1#64) ↔ m.getLsbD k = true := by
  rw [and_one_eq, getLsbD_shift]; simp

theorem shift_shift (m : BitVec 64) (j k : Nat) : (m >>> j) >>> k = m >>> (j + k) := by
  rw [BitVec.shiftRight_add]

/-- `update_free_sectors` counts the set bits. -/
theorem countBits_eq (n : Nat) (m : BitVec 64) :
    countBits n m = ((List.range n).filter fun i => m.getLsbD i).length := by
  induction n generalizing m with
  | zero => rfl
  | succ n ih =>
    rw [countBits, ih, List.range_succ_eq_map, List.filter_cons, List.filter_map]
    simp only [getLsbD_shift, and_one_eq]
    have : (fun i => m.getLsbD (1 + i)) = ((fun i => m.getLsbD i) ∘ Nat.succ) := by
      funext i; simp [Nat.add_comm]
    rw [this]
    split <;> simp <;> omega

theorem countBits_le (n : Nat) (m : BitVec 64) : countBits n m ≤ n := by
  rw [countBits_eq]
  exact Nat.le_trans (List.length_filter_le _ _) (by simp)

theorem getLsbD_clear (m : BitVec 64) (k i : Nat) (hk : k < 64) :
    (m &&& ~~~(1#64 <<< k)).getLsbD i = (m.getLsbD i && decide (i ≠ k)) := by
  by_cases hi : i < 64
  · by_cases h : i = k
    · subst h; simp [hk]
    · by_cases h2 : i < k
      · simp [h, hi, h2]
      · have : i - k ≠ 0 := by omega
        simp [h, hi, h2, this]
  · simp [BitVec.getLsbD_of_ge m i (by omega), hi]

theorem getLsbD_setBit (m : BitVec 64) (k i : Nat) (hk : k < 64) :
    (m ||| (1#64 <<< k)).getLsbD i = (m.getLsbD i || decide (i = k)) := by
  by_cases hi : i < 64
  · by_cases h : i = k
    · subst h; simp [hk]
    · by_cases h2 : i < k
      · simp [h, h2]
      · have : i - k ≠ 0 := by omega
        simp [h, hi, this]
  · have : i ≠ k := by omega
    simp [BitVec.getLsbD_of_ge m i (by omega), hi, this]

theorem fullMap_bits (n i : Nat) (h : n ≤ 64) : (fullMap n).getLsbD i = decide (i < n) := by
  induction n generalizing i with
  | zero => simp [fullMap]
  | succ n ih =>
    simp only [fullMap, BitVec.getLsbD_or, BitVec.getLsbD_shiftLeft, BitVec.getLsbD_one]
    rw [ih _ (by omega)]
    by_cases h0 : i = 0
    · subst h0; simp
    · by_cases hi : i < 64
      · have h3 : ¬ i < 1 := by omega
        simp [h0, hi, h3]; omega
      · have : ¬ i < n + 1 := by omega
        simp [h0, hi, this]

/-- Bits of a bitmap written to bytes and read back. -/
theorem foldr_writeBitmap (n : Nat) (m : BitVec 64) (i : Nat) (hn : n ≤ 8) :
    ((writeBitmap n m).foldr (fun (b : Byte) (map : BitVec 64) => (map <<< 8) ||| BitVec.ofNat 64 b.toNat) 0#64).getLsbD i
      = (decide (i < 8 * n) && m.getLsbD i) := by
  induction n generalizing m i with
  | zero => simp [writeBitmap]
  | succ n ih =>
    simp only [writeBitmap, List.foldr_cons, BitVec.getLsbD_or, BitVec.getLsbD_shiftLeft]
    rw [ih _ _ (by omega), getLsbD_shift]
    have hb : (BitVec.ofNat 64 (UInt8.ofNat (m &&& 0xFF#64).toNat).toNat).getLsbD i
        = (decide (i < 8) && m.getLsbD i) := by
      rw [BitVec.getLsbD_ofNat]
      have h1 : (UInt8.ofNat (m &&& 0xFF#64).toNat).toNat = (m.toNat &&& 255) % 256 := by
        rw [UInt8.toNat_ofNat', BitVec.toNat_and]; rfl
      rw [h1]
      have h2 : (m.toNat &&& 255) % 256 = m.toNat % 2 ^ 8 := by
        rw [show (255 : Nat) = 2 ^ 8 - 1 from rfl, Nat.and_two_pow_sub_one_eq_mod]; omega
      rw [h2, Nat.testBit_mod_two_pow]
      by_cases hi : i < 64
      · simp [hi, BitVec.getLsbD]
      · simp [hi, BitVec.getLsbD_of_ge m i (by omega)]
    rw [hb]
    by_cases h8 : i < 8
    · have : i < 8 * (n + 1) := by omega
      simp [h8, this]
    · by_cases hi : i < 64
      · have e : 8 + (i - 8) = i := by omega
        have e2 : (i - 8 < 8 * n) ↔ (i < 8 * (n + 1)) := by omega
        simp [h8, hi, e, e2]
      · simp [h8, hi, BitVec.getLsbD_of_ge m i (by omega)]

theorem length_writeBitmap (n : Nat) (m : BitVec 64) : (writeBitmap n m).length = n := by
  induction n generalizing m with
  | zero => rfl
  | succ n ih => simp [writeBitmap, ih]

/-- A bitmap that fits the bytes survives the round trip. -/
theorem fromBytes_writeBitmap (c : Byte) (n : Nat) (m : BitVec 64) (hn : n ≤ 8)
    (hm : ∀ i, 8 * n ≤ i → m.getLsbD i = false) :
    BamEntry.fromBytes c (writeBitmap n m) = ⟨c, m⟩ := by
  unfold BamEntry.fromBytes
  congr 1
  apply BitVec.eq_of_getLsbD_eq
  intro i hi
  rw [foldr_writeBitmap _ _ _ hn]
  by_cases h : i < 8 * n
  · simp [h]
  · simp [h, hm i (by omega)]

/-- Bits beyond the bytes read are zero. -/
theorem foldr_bytes_high (bytes : List Byte) (i : Nat) (h : 8 * bytes.length ≤ i) :
    (bytes.foldr (fun (b : Byte) (map : BitVec 64) => (map <<< 8) ||| BitVec.ofNat 64 b.toNat) 0#64).getLsbD i
      = false := by
  induction bytes generalizing i with
  | nil => simp
  | cons b t ih =>
    simp only [List.length_cons] at h
    simp only [List.foldr_cons, BitVec.getLsbD_or, BitVec.getLsbD_shiftLeft]
    rw [ih _ (by omega), BitVec.getLsbD_ofNat]
    have : b.toNat.testBit i = false := by
      apply Nat.testBit_lt_two_pow
      exact Nat.lt_of_lt_of_le b.toNat_lt (Nat.pow_le_pow_right (by omega) (by omega))
    simp [this]

/-- Reading bytes and writing them back gives the same bytes. -/
theorem writeBitmap_foldr (bytes : List Byte) (h : bytes.length ≤ 8) :
    writeBitmap bytes.length
      (bytes.foldr (fun (b : Byte) (map : BitVec 64) => (map <<< 8) ||| BitVec.ofNat 64 b.toNat) 0#64) = bytes := by
  induction bytes with
  | nil => rfl
  | cons b t ih =>
    simp only [List.length_cons] at h
    simp only [List.length_cons, writeBitmap, List.foldr_cons]
    have key : ∀ (m : BitVec 64), (∀ i, 56 ≤ i → m.getLsbD i = false) →
        (m <<< 8 ||| BitVec.ofNat 64 b.toNat) >>> 8 = m := by
      intro m hm
      apply BitVec.eq_of_getLsbD_eq
      intro i hi
      rw [getLsbD_shift, BitVec.getLsbD_or, BitVec.getLsbD_shiftLeft, BitVec.getLsbD_ofNat]
      have : b.toNat.testBit (8 + i) = false := by
        apply Nat.testBit_lt_two_pow
        exact Nat.lt_of_lt_of_le b.toNat_lt (Nat.pow_le_pow_right (by omega) (by omega))
      rw [this]
      by_cases h2 : 8 + i < 64
      · simp [h2]
      · simp [h2, hm i (by omega)]
    congr 1
    · rw [← UInt8.toNat_inj, UInt8.toNat_ofNat']
      have : ∀ (m : BitVec 64), ((m <<< 8 ||| BitVec.ofNat 64 b.toNat) &&& 0xFF#64)
          = BitVec.ofNat 64 b.toNat := by
        intro m
        apply BitVec.eq_of_getLsbD_eq
        intro i hi
        simp only [BitVec.getLsbD_and, BitVec.getLsbD_or, BitVec.getLsbD_shiftLeft,
          BitVec.getLsbD_ofNat]
        rw [show (255 : Nat) = 2 ^ 8 - 1 from rfl, Nat.testBit_two_pow_sub_one]
        by_cases h8 : i < 8
        · simp [h8, hi]
        · have : b.toNat.testBit i = false := by
            apply Nat.testBit_lt_two_pow
            exact Nat.lt_of_lt_of_le b.toNat_lt (Nat.pow_le_pow_right (by omega) (by omega))
          simp [h8, this]
      rw [this, BitVec.toNat_ofNat]
      have := b.toNat_lt
      omega
    · rw [key _ (fun i hi => foldr_bytes_high t i (by omega)), ih (by omega)]

end Cbm
