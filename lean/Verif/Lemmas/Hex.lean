import Verif.Lemmas.Text
/-!
# Facts about hex dumps
-/

namespace Cbm

open Spec

theorem hexDigit_eq {n : Nat} (h : n < 16) : hexDigit n = n.digitChar := by
  have := (by decide : ∀ n : Fin 16, hexDigit n = Nat.digitChar n) ⟨n, h⟩
  exact this

theorem lowerHex_eq (n : Nat) : lowerHex n = Nat.toDigits 16 n := by
  induction n using Nat.strongRecOn with
  | ind n ih =>
    unfold lowerHex
    by_cases h : n < 16
    · rw [if_pos h, Nat.toDigits_of_lt_base h, hexDigit_eq h]
    · rw [if_neg h, Nat.toDigits_of_base_le (by omega) (by omega), ih _ (by omega),
        hexDigit_eq (by omega)]

theorem paddedHex_four (n : Nat) : paddedHex 4 n = hexNumber n := by
  simp only [paddedHex, hexNumber, lowerHex_eq, List.leftpad]

theorem paddedHex_two (b : Byte) : paddedHex 2 b.toNat = hexPair b := by
  have h : ∀ n : Fin 256,
      List.replicate (2 - (Nat.toDigits 16 (UInt8.ofNat n).toNat).length) '0'
        ++ Nat.toDigits 16 (UInt8.ofNat n).toNat = hexPair (UInt8.ofNat n) := by decide +kernel
  simp only [paddedHex, lowerHex_eq]
  exact forall_byte (P := fun b => List.replicate (2 - (Nat.toDigits 16 b.toNat).length) '0'
        ++ Nat.toDigits 16 b.toNat = hexPair b) h b

theorem hexPair_inj {a b : Byte} (h : hexPair a = hexPair b) : a = b := by
  have h1 : ∀ n : Fin 256, (("0123456789abcdef".toList.idxOf ((hexPair (UInt8.ofNat n)).getD 0 '?')) * 16
      + "0123456789abcdef".toList.idxOf ((hexPair (UInt8.ofNat n)).getD 1 '?')) = (UInt8.ofNat n).toNat := by
    decide +kernel
  have h2 := fun b => forall_byte (P := fun b =>
    (("0123456789abcdef".toList.idxOf ((hexPair b).getD 0 '?')) * 16
      + "0123456789abcdef".toList.idxOf ((hexPair b).getD 1 '?')) = b.toNat) h1 b
  apply UInt8.toNat_inj.mp
  have ha := h2 a
  have hb := h2 b
  rw [h] at ha
  omega

theorem hexPair_length (b : Byte) : (hexPair b).length = 2 := rfl

theorem hexPair_chars (b : Byte) : '\n' ∉ hexPair b ∧ ' ' ∉ hexPair b := by
  have h : ∀ n : Fin 256, '\n' ∉ hexPair (UInt8.ofNat n) ∧ ' ' ∉ hexPair (UInt8.ofNat n) := by
    decide +kernel
  exact forall_byte (P := fun b => '\n' ∉ hexPair b ∧ ' ' ∉ hexPair b) h b

theorem shown_ne (b : Byte) : shown b ≠ '\n' := by
  have h : ∀ n : Fin 256, shown (UInt8.ofNat n) ≠ '\n' := by decide +kernel
  exact forall_byte (P := fun b => shown b ≠ '\n') h b

theorem asciiOf_eq : asciiOf = shown := rfl

theorem hexNumber_newline (n : Nat) : '\n' ∉ hexNumber n := by
  have h : ∀ n, '\n' ∉ Nat.toDigits 16 n := by
    intro n
    induction n using Nat.strongRecOn with
    | ind n ih =>
      by_cases h : n < 16
      · rw [Nat.toDigits_of_lt_base h]
        exact (by decide : ∀ n : Fin 16, '\n' ∉ [Nat.digitChar n]) ⟨n, h⟩
      · rw [Nat.toDigits_of_base_le (by omega) (by omega), List.mem_append, not_or]
        exact ⟨ih _ (by omega),
          (by decide : ∀ n : Fin 16, '\n' ∉ [Nat.digitChar n]) ⟨n % 16, by omega⟩⟩
  simp only [hexNumber, List.leftpad, List.mem_append, List.mem_replicate, not_or]
  exact ⟨fun h => by simp at h, h n⟩

/-- The hexadecimal columns of a row. -/
theorem columns_eq {α γ : Type} (g : Option α → List γ) (n : Nat) (rest : List α) :
    (rest.take n).flatMap (fun a => g (some a))
        ++ (List.range (n - rest.length)).flatMap (fun _ => g none) =
      (List.range n).flatMap (fun j => g rest[j]?) := by
  induction n generalizing rest with
  | zero => simp
  | succ n ih =>
    rw [List.range_succ_eq_map, List.flatMap_cons, List.flatMap_map]
    cases rest with
    | nil =>
      have := ih []
      simp only [List.take_nil, List.flatMap_nil, List.nil_append, List.length_nil, Nat.sub_zero,
        List.getElem?_nil] at this ⊢
      rw [List.range_succ_eq_map, List.flatMap_cons, List.flatMap_map]
    | cons a rest =>
      have := ih rest
      simp only [List.take_succ_cons, List.flatMap_cons, List.length_cons, List.append_assoc,
        Nat.add_sub_add_right, List.getElem?_cons_zero, List.getElem?_cons_succ]
      rw [this]

theorem columns_inj {x y : List Byte} (n : Nat) (hx : x.length ≤ n) (hy : y.length ≤ n)
    (h : (List.range n).flatMap (fun j => dumpCell x[j]?) =
      (List.range n).flatMap (fun j => dumpCell y[j]?)) : x = y := by
  have hp := flatMap_inj_length (fun j _ => by cases x[j]? <;> cases y[j]? <;> rfl) h
  apply List.ext_getElem?
  intro j
  by_cases hj : j < n
  · have := hp j (List.mem_range.mpr hj)
    cases hxj : x[j]? with
    | none =>
      cases hyj : y[j]? with
      | none => rfl
      | some b =>
        rw [hxj, hyj] at this
        simp only [dumpCell] at this
        have hm : ' ' ∈ hexPair b := by
          have h0 := congrArg (List.take 2) this
          rw [List.take_append_of_le_length (Nat.le_of_eq (hexPair_length b).symm),
            List.take_of_length_le (Nat.le_of_eq (hexPair_length b))] at h0
          rw [← h0]; decide
        exact absurd hm (hexPair_chars b).2
    | some a =>
      cases hyj : y[j]? with
      | none =>
        rw [hxj, hyj] at this
        simp only [dumpCell] at this
        have hm : ' ' ∈ hexPair a := by
          have h0 := congrArg (List.take 2) this
          rw [List.take_append_of_le_length (Nat.le_of_eq (hexPair_length a).symm),
            List.take_of_length_le (Nat.le_of_eq (hexPair_length a))] at h0
          rw [h0]; decide
        exact absurd hm (hexPair_chars a).2
      | some b =>
        rw [hxj, hyj] at this
        simp only [dumpCell, List.append_cancel_right_eq] at this
        rw [hexPair_inj this]
  · rw [List.getElem?_eq_none (by omega), List.getElem?_eq_none (by omega)]

theorem hexRow_eq (p : List Char) {bytes : List Byte} {k : Nat} (h : 16 * k < bytes.length) :
    hexRow p (16 * k) bytes = dumpLine p bytes k := by
  have hs : slice bytes (16 * k)
      (if 16 * k + hexColumns ≤ bytes.length then hexColumns else bytes.length - 16 * k) =
      (bytes.drop (16 * k)).take 16 := by
    have he : hexColumns = 16 := rfl
    simp only [slice]
    by_cases hc : 16 * k + hexColumns ≤ bytes.length
    · rw [if_pos hc, he]
    · rw [if_neg hc, List.take_of_length_le (by simp), List.take_of_length_le (by simp; omega)]
  have hp : (if 16 * k + hexColumns ≤ bytes.length then 0 else 16 * k + hexColumns - bytes.length) =
      16 - (bytes.drop (16 * k)).length := by
    have he : hexColumns = 16 := rfl
    simp only [List.length_drop]
    by_cases hc : 16 * k + hexColumns ≤ bytes.length
    · rw [if_pos hc]; omega
    · rw [if_neg hc]; omega
  simp only [hexRow, hs, hp, asciiOf_eq, paddedHex_four, paddedHex_two, dumpLine]
  congr 1
  rw [List.append_assoc]
  have := columns_eq dumpCell 16 (bytes.drop (16 * k))
  simp only [List.getElem?_drop] at this
  rw [← this]
  rfl

theorem dumpLine_newline {p : List Char} (hp : '\n' ∉ p) (bytes : List Byte) (k : Nat) :
    '\n' ∉ dumpLine p bytes k := by
  simp only [dumpLine, List.mem_append, not_or, List.mem_flatMap, List.mem_map, not_exists, not_and]
  refine ⟨⟨⟨⟨hp, hexNumber_newline _⟩, by decide⟩, ?_⟩, fun b _ => shown_ne b⟩
  intro j _
  cases bytes[16 * k + j]? with
  | none => decide
  | some b =>
    simp only [dumpCell, List.mem_append, not_or]
    exact ⟨(hexPair_chars b).1, by decide⟩

theorem hexLoop_done (p : List Char) {bytes : List Byte} {o : Nat} (h : bytes.length ≤ o) :
    hexLoop p bytes o = [] := by
  unfold hexLoop
  rw [if_neg (by omega)]

theorem hexLoop_last (p : List Char) {bytes : List Byte} {k : Nat} (h : 16 * k < bytes.length)
    (hl : bytes.length ≤ 16 * (k + 1)) : hexLoop p bytes (16 * k) = dumpLine p bytes k := by
  unfold hexLoop
  rw [if_pos h, if_neg (by simp only [hexColumns]; omega), hexRow_eq p h,
    hexLoop_done p (by simp only [hexColumns]; omega)]
  simp

theorem hexLoop_more (p : List Char) {bytes : List Byte} {k : Nat}
    (hl : 16 * (k + 1) < bytes.length) :
    hexLoop p bytes (16 * k) = dumpLine p bytes k ++ '\n' :: hexLoop p bytes (16 * (k + 1)) := by
  rw [hexLoop, if_pos (by omega), if_pos (by simp only [hexColumns]; omega), hexRow_eq p (by omega)]
  rw [show 16 * k + hexColumns = 16 * (k + 1) by simp only [hexColumns]; omega]
  simp

theorem hexLoop_lines {p : List Char} (hp : '\n' ∉ p) {bytes : List Byte} (m k : Nat)
    (h1 : 16 * (k + m) < bytes.length) (h2 : bytes.length ≤ 16 * (k + m + 1)) :
    splitLines (hexLoop p bytes (16 * k)) =
      (List.range (m + 1)).map fun i => dumpLine p bytes (k + i) := by
  induction m generalizing k with
  | zero =>
    rw [hexLoop_last p (k := k) (by omega) (by omega), splitLines_plain (dumpLine_newline hp bytes k)]
    rfl
  | succ m ih =>
    rw [hexLoop_more p (by omega), splitLines_row (dumpLine_newline hp bytes k),
      ih (k + 1) (by omega) (by omega), List.range_succ_eq_map (n := m + 1), List.map_cons, List.map_map]
    congr 1
    apply List.map_congr_left
    intro i _
    simp only [Function.comp]
    congr 1
    omega

theorem hexdump_nil (p : List Char) : hexdump p [] = p ++ hexNumber 0 ++ [':', ' '] := by
  simp only [hexdump, if_pos, paddedHex_four]
  rw [hexLoop_done p (by simp)]
  simp

theorem hexdump_cons (p : List Char) {bytes : List Byte} (h : bytes ≠ []) :
    hexdump p bytes = hexLoop p bytes (16 * 0) := by
  simp [hexdump, h]

theorem hexdump_lines {p : List Char} (hp : '\n' ∉ p) {bytes : List Byte} (h : bytes ≠ []) :
    splitLines (hexdump p bytes) =
      (List.range ((bytes.length + 15) / 16)).map (dumpLine p bytes) := by
  have hpos : 0 < bytes.length := List.length_pos_iff.mpr h
  rw [hexdump_cons p h, hexLoop_lines hp ((bytes.length + 15) / 16 - 1) 0 (by omega) (by omega)]
  rw [show (bytes.length + 15) / 16 - 1 + 1 = (bytes.length + 15) / 16 by omega]
  apply List.map_congr_left
  intro i _
  rw [Nat.zero_add]

theorem columns_length (g : Nat → Option Byte) (n : Nat) :
    ((List.range n).flatMap fun j => dumpCell (g j)).length = 3 * n := by
  induction n with
  | zero => rfl
  | succ n ih =>
    rw [List.range_succ, List.flatMap_append, List.length_append, ih]
    have : (dumpCell (g n)).length = 3 := by cases g n <;> rfl
    simp only [List.flatMap_cons, List.flatMap_nil, List.append_nil, this]
    omega

theorem hexLoop_eq (p : List Char) {bytes : List Byte} {k : Nat} (h : 16 * k < bytes.length) :
    hexLoop p bytes (16 * k) = (p ++ hexNumber (16 * k) ++ [':', ' ']) ++
      ((List.range 16).flatMap (fun j => dumpCell (bytes.drop (16 * k))[j]?) ++
        (((bytes.drop (16 * k)).take 16).map shown ++
          (if 16 * (k + 1) < bytes.length then '\n' :: hexLoop p bytes (16 * (k + 1)) else []))) := by
  by_cases hl : 16 * (k + 1) < bytes.length
  · rw [hexLoop_more p hl, if_pos hl]
    simp only [dumpLine, List.append_assoc, List.getElem?_drop]
  · rw [hexLoop_last p h (by omega), if_neg hl]
    simp only [dumpLine, List.append_assoc, List.getElem?_drop, List.append_nil]

theorem hexLoop_inj (p : List Char) {a b : List Byte} (m k : Nat) (hm : a.length ≤ 16 * (k + m))
    (ha : 16 * k < a.length) (hb : 16 * k < b.length)
    (h : hexLoop p a (16 * k) = hexLoop p b (16 * k)) : a.drop (16 * k) = b.drop (16 * k) := by
  induction m generalizing k with
  | zero => omega
  | succ m ih =>
    rw [hexLoop_eq p ha, hexLoop_eq p hb] at h
    have h1 := List.append_cancel_left h
    have h2 := List.append_inj h1 (by simp only [columns_length])
    have hx : ∀ x : List Byte, (List.range 16).flatMap (fun j => dumpCell x[j]?) =
        (List.range 16).flatMap (fun j => dumpCell (x.take 16)[j]?) := by
      intro x
      apply flatMap_congr_left
      intro j hj
      rw [List.getElem?_take_of_lt (List.mem_range.mp hj)]
    have h3 : (a.drop (16 * k)).take 16 = (b.drop (16 * k)).take 16 := by
      apply columns_inj 16 (List.length_take_le ..) (List.length_take_le ..)
      rw [← hx, ← hx]
      exact h2.1
    have h4 := h2.2
    rw [h3] at h4
    have h5 := List.append_cancel_left h4
    have hl := congrArg List.length h3
    simp only [List.length_take, List.length_drop] at hl
    by_cases ha' : 16 * (k + 1) < a.length
    · have hb' : 16 * (k + 1) < b.length := by
        apply Decidable.byContradiction
        intro hb'
        rw [if_pos ha', if_neg hb'] at h5
        exact absurd h5 (by simp)
      rw [if_pos ha', if_pos hb', List.cons.injEq] at h5
      have h6 := ih (k + 1) (by omega) ha' hb' h5.2
      rw [← List.take_append_drop 16 (a.drop (16 * k)), ← List.take_append_drop 16 (b.drop (16 * k)), h3,
        List.drop_drop, List.drop_drop]
      rw [show 16 * k + 16 = 16 * (k + 1) by omega, h6]
    · have hb' : ¬ 16 * (k + 1) < b.length := by
        intro hb'
        rw [if_neg ha', if_pos hb'] at h5
        exact absurd h5 (by simp)
      rw [List.take_of_length_le (by simp; omega), List.take_of_length_le (by simp; omega)] at h3
      exact h3

theorem hexdump_length (p : List Char) {bytes : List Byte} (h : bytes ≠ []) :
    (p ++ hexNumber 0 ++ [':', ' ']).length < (hexdump p bytes).length := by
  have hpos : 0 < bytes.length := List.length_pos_iff.mpr h
  rw [hexdump_cons p h, hexLoop_eq p (by omega)]
  simp only [List.length_append, columns_length, Nat.mul_zero]
  omega

theorem column_at (g : Nat → Option Byte) {n j : Nat} (hj : j < n) :
    slice ((List.range n).flatMap fun j => dumpCell (g j)) (3 * j) 3 = dumpCell (g j) := by
  induction n with
  | zero => omega
  | succ n ih =>
    have hc : (dumpCell (g n)).length = 3 := by cases g n <;> rfl
    rw [List.range_succ, List.flatMap_append, List.flatMap_singleton]
    simp only [slice]
    by_cases h : j = n
    · subst h
      rw [List.drop_append_of_le_length (by rw [columns_length]; omega),
        List.drop_of_length_le (by rw [columns_length]; omega), List.nil_append,
        List.take_of_length_le (by omega)]
    · have := ih (by omega)
      rw [List.drop_append_of_le_length (by rw [columns_length]; omega),
        List.take_append_of_le_length (by rw [List.length_drop, columns_length]; omega)]
      exact this

theorem line_digits (p : List Char) (bytes : List Byte) {i : Nat} (hi : i < bytes.length) :
    slice (dumpLine p bytes (i / 16))
        (p.length + (hexNumber (16 * (i / 16))).length + 2 + 3 * (i % 16)) 2 = hexPair bytes[i] := by
  have h3 := column_at (fun j => bytes[16 * (i / 16) + j]?) (Nat.mod_lt i (by decide : 0 < 16))
  rw [show 16 * (i / 16) + i % 16 = i by omega, List.getElem?_eq_getElem hi] at h3
  have hl := columns_length (fun j => bytes[16 * (i / 16) + j]?) 16
  simp only [slice, dumpLine, List.append_assoc] at h3 ⊢
  generalize hF : (List.range 16).flatMap (fun j => dumpCell bytes[16 * (i / 16) + j]?) = F at *
  generalize ((bytes.drop (16 * (i / 16))).take 16).map shown = S
  generalize hexNumber (16 * (i / 16)) = H
  rw [show p ++ (H ++ ([':', ' '] ++ (F ++ S))) = (p ++ (H ++ [':', ' '])) ++ (F ++ S) by simp,
    show p.length + H.length + 2 + 3 * (i % 16) = (p ++ (H ++ [':', ' '])).length + 3 * (i % 16) by
      simp; omega,
    List.drop_length_add_append, List.drop_append_of_le_length (by omega),
    List.take_append_of_le_length (by rw [List.length_drop]; omega)]
  have h2 := congrArg (List.take 2) h3
  rw [List.take_take] at h2
  rw [show min 2 3 = 2 from rfl] at h2
  rw [h2]
  rfl

end Cbm
