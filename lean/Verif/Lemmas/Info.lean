import Verif.Spec.Info
import Verif.Lemmas.Report
import Verif.Lemmas.Commands
/-!
# Facts about type names and the text of info blocks
-/

namespace Cbm

open Spec

/-! ## Letters -/

theorem toUpper_lower (c : Char) :
    (c.toUpper = c ∧ ¬(97 ≤ c.toNat ∧ c.toNat ≤ 122)) ∨
      (97 ≤ c.toNat ∧ c.toNat ≤ 122 ∧ c.toUpper.toNat + 32 = c.toNat) := by
  unfold Char.toUpper
  split
  next h =>
    right
    obtain ⟨h1, h2⟩ := h
    have h1 : 97 ≤ c.val.toNat := h1
    have h2 : c.val.toNat ≤ 122 := h2
    refine ⟨h1, h2, ?_⟩
    show (c.val + ('A'.val - 'a'.val)).toNat + 32 = _
    rw [UInt32.toNat_add, show ('A'.val - 'a'.val).toNat = 2^32 - 32 from by decide]
    show (c.val.toNat + (2^32 - 32)) % 2^32 + 32 = c.val.toNat
    omega
  next h =>
    refine .inl ⟨rfl, fun hc => h ⟨?_, ?_⟩⟩
    · exact hc.1
    · exact hc.2

theorem upperChar_iff {c l u : Char} (hl : 97 ≤ l.toNat ∧ l.toNat ≤ 122) (hu : u.toNat + 32 = l.toNat) :
    upperChar c = u ↔ Letter c l := by
  unfold upperChar Letter
  by_cases hs : c = 'ſ'
  · subst hs
    rw [if_pos rfl]
    have h1 : 'ſ'.toNat = 383 := rfl
    have h2 : 'S'.toNat = 83 := rfl
    have h3 : 's'.toNat = 115 := rfl
    constructor
    · rintro rfl
      exact .inr (.inr ⟨rfl, char_ext (by omega)⟩)
    · rintro (rfl | h | ⟨-, rfl⟩)
      · omega
      · omega
      · exact char_ext (by omega)
  · rw [if_neg hs]
    constructor
    · rintro rfl
      rcases toUpper_lower c with ⟨h, h'⟩ | ⟨h1, h2, h3⟩
      · rw [h] at hu; exact .inr (.inl hu)
      · exact .inl (char_ext (by omega))
    · rintro (rfl | h | ⟨h, -⟩)
      · rcases toUpper_lower c with ⟨h, h'⟩ | ⟨h1, h2, h3⟩
        · exact absurd hl h'
        · exact char_ext (by omega)
      · rcases toUpper_lower c with ⟨h, h'⟩ | ⟨h1, h2, h3⟩
        · rw [h]; exact char_ext (by omega)
        · omega
      · exact absurd h hs

theorem spells_three {s : List Char} {a b c a' b' c' : Char}
    (ha : 97 ≤ a.toNat ∧ a.toNat ≤ 122 ∧ a'.toNat + 32 = a.toNat)
    (hb : 97 ≤ b.toNat ∧ b.toNat ≤ 122 ∧ b'.toNat + 32 = b.toNat)
    (hc : 97 ≤ c.toNat ∧ c.toNat ≤ 122 ∧ c'.toNat + 32 = c.toNat) :
    s.map upperChar = [a', b', c'] ↔ Spells s [a, b, c] := by
  unfold Spells
  match s with
  | [] => simp
  | [_] => simp
  | [_, _] => simp
  | [p, q, r] =>
    simp only [List.map_cons, List.map_nil, List.cons.injEq, and_true,
      upperChar_iff ⟨ha.1, ha.2.1⟩ ha.2.2, upperChar_iff ⟨hb.1, hb.2.1⟩ hb.2.2,
      upperChar_iff ⟨hc.1, hc.2.1⟩ hc.2.2]
    constructor
    · rintro ⟨h1, h2, h3⟩
      refine ⟨rfl, fun i x l => ?_⟩
      match i with
      | 0 => rintro ⟨⟩ ⟨⟩; exact h1
      | 1 => rintro ⟨⟩ ⟨⟩; exact h2
      | 2 => rintro ⟨⟩ ⟨⟩; exact h3
      | i + 3 => intro h; simp at h
    · rintro ⟨-, h⟩
      exact ⟨h 0 _ _ rfl rfl, h 1 _ _ rfl rfl, h 2 _ _ rfl rfl⟩
  | _ :: _ :: _ :: _ :: _ => simp

/-! ## Hexadecimal numbers -/

theorem mem_hexNumber {n : Nat} {c : Char} (h : c ∈ hexNumber n) : c ∈ "0123456789abcdef".toList := by
  have hd : ∀ n < 16, n.digitChar ∈ "0123456789abcdef".toList := by decide
  have h' : ∀ n, c ∈ Nat.toDigits 16 n → c ∈ "0123456789abcdef".toList := by
    intro n
    induction n using Nat.strongRecOn with
    | ind n ih =>
      by_cases hn : n < 16
      · rw [Nat.toDigits_of_lt_base hn, List.mem_singleton]
        rintro rfl
        exact hd n hn
      · rw [Nat.toDigits_of_base_le (by omega) (by omega), List.mem_append, List.mem_singleton]
        rintro (h | rfl)
        · exact ih _ (by omega) h
        · exact hd _ (Nat.mod_lt _ (by omega))
  unfold hexNumber List.leftpad at h
  rw [List.mem_append] at h
  rcases h with h | h
  · rw [List.eq_of_mem_replicate h]; decide
  · exact h' n h

def hexValue (s : List Char) : Nat := s.foldl (fun n c => 16 * n + "0123456789abcdef".toList.idxOf c) 0

theorem hexValue_append (s : List Char) (c : Char) :
    hexValue (s ++ [c]) = 16 * hexValue s + "0123456789abcdef".toList.idxOf c := by
  unfold hexValue; rw [List.foldl_append]; rfl

theorem hexValue_hexNumber (n : Nat) : hexValue (hexNumber n) = n := by
  have hd : ∀ n < 16, "0123456789abcdef".toList.idxOf n.digitChar = n := by decide
  have hv : ∀ n (k : Nat), hexValue (List.replicate k '0' ++ Nat.toDigits 16 n) = n := by
    intro n
    induction n using Nat.strongRecOn with
    | ind n ih =>
      intro k
      by_cases h : n < 16
      · rw [Nat.toDigits_of_lt_base h, hexValue_append, hd n h]
        have : ∀ k, hexValue (List.replicate k '0') = 0 := by
          intro k
          induction k with
          | zero => rfl
          | succ k ih =>
            rw [List.replicate_succ', hexValue_append, ih]; decide
        rw [this]; omega
      · rw [Nat.toDigits_of_base_le (by omega) (by omega), ← List.append_assoc, hexValue_append,
          ih _ (by omega), hd _ (Nat.mod_lt _ (by omega))]
        omega
  exact hv n _

theorem hexNumber_inj {m n : Nat} (h : hexNumber m = hexNumber n) : m = n := by
  rw [← hexValue_hexNumber m, h, hexValue_hexNumber]

/-! ## Escapes -/

theorem readable_eq (b : Byte) : escapeDefault b = readable b :=
  forall_byte (P := fun b => escapeDefault b = readable b) (by decide +kernel) b

theorem escaped_eq (s : List Byte) : escaped s = (s.takeWhile (· != 0)).flatMap readable := by
  unfold escaped trimmed
  exact flatMap_congr_left fun b _ => readable_eq b

/-- How many characters an escape has, from its beginning. -/
def escapeLength : List Char → Nat
  | c :: d :: _ => if c = '\\' then if d = 'x' then 4 else 2 else 1
  | _ => 1

theorem escapeLength_readable (b : Byte) (x : List Char) :
    escapeLength (readable b ++ x) = (readable b).length := by
  have h1 := forall_byte (P := fun b => escapeLength (readable b) = (readable b).length ∧
    ((readable b).length = 1 → (readable b).getD 0 ' ' ≠ '\\') ∧ (readable b).length ≠ 0)
    (by decide +kernel) b
  obtain ⟨h1, h2, h3⟩ := h1
  match hr : readable b with
  | [] => rw [hr] at h3; exact absurd rfl h3
  | [c] =>
    rw [hr] at h2
    have hc : c ≠ '\\' := h2 rfl
    cases x with
    | nil => rfl
    | cons y x => show (if c = '\\' then _ else 1) = 1; rw [if_neg hc]
  | c :: d :: t => rw [hr] at h1; exact h1

/-- The byte of an escape. -/
def unreadable : List Char → Nat
  | [c] => c.toNat
  | [_, c] => [9, 13, 10, 39, 34, 92].getD ("trn'\"\\".toList.idxOf c) 0
  | [_, _, h, l] => 16 * "0123456789abcdef".toList.idxOf h + "0123456789abcdef".toList.idxOf l
  | _ => 0

theorem readable_inj {a b : Byte} {x y : List Char} (h : readable a ++ x = readable b ++ y) :
    a = b ∧ x = y := by
  have hl : (readable a).length = (readable b).length := by
    rw [← escapeLength_readable a x, h, escapeLength_readable]
  obtain ⟨h1, h2⟩ := List.append_inj h hl
  refine ⟨?_, h2⟩
  have key := fun b => forall_byte (P := fun b => unreadable (readable b) = b.toNat)
    (by decide +kernel) b
  have ha := key a
  rw [h1, key b] at ha
  exact byte_of_toNat ha.symm

theorem readables_inj : ∀ {s t : List Byte}, s.flatMap readable = t.flatMap readable → s = t
  | [], [], _ => rfl
  | [], b :: t, h => by
    have := escapeLength_readable b (t.flatMap readable)
    have hl := congrArg List.length h
    rw [List.flatMap_cons, List.length_append] at hl
    have : (readable b).length ≠ 0 :=
      forall_byte (P := fun b => (readable b).length ≠ 0) (by decide +kernel) b
    simp only [List.flatMap_nil, List.length_nil] at hl
    omega
  | a :: s, [], h => by
    have hl := congrArg List.length h
    rw [List.flatMap_cons, List.length_append] at hl
    have : (readable a).length ≠ 0 :=
      forall_byte (P := fun b => (readable b).length ≠ 0) (by decide +kernel) a
    simp only [List.flatMap_nil, List.length_nil] at hl
    omega
  | a :: s, b :: t, h => by
    rw [List.flatMap_cons, List.flatMap_cons] at h
    obtain ⟨h1, h2⟩ := readable_inj h
    rw [h1, readables_inj h2]

theorem readable_chars (b : Byte) {c : Char} (h : c ∈ readable b) : ' ' ≤ c ∧ c ≤ '~' := by
  have h1 := forall_byte (P := fun b => ∀ c ∈ readable b, ' ' ≤ c ∧ c ≤ '~') (by decide +kernel) b
  exact h1 c h

theorem readables_chars {s : List Byte} {c : Char} (h : c ∈ s.flatMap readable) : ' ' ≤ c ∧ c ≤ '~' := by
  obtain ⟨b, -, h⟩ := List.mem_flatMap.1 h
  exact readable_chars b h

/-! ## Lines -/

theorem strLines_acc {r : List Char} (h : '\n' ∉ r) (cur rest : List Char) :
    strLines cur (r ++ rest) = strLines (cur ++ r) rest := by
  induction r generalizing cur with
  | nil => rw [List.append_nil]; rfl
  | cons c r ih =>
    simp only [List.mem_cons, not_or] at h
    rw [List.cons_append, strLines, if_neg (fun e => h.1 e.symm), ih h.2, List.append_assoc]
    rfl

theorem strLines_rows : ∀ (rows : List (List Char)), (∀ r ∈ rows, '\n' ∉ r ∧ '\r' ∉ r) →
    strLines [] (rows.flatMap (· ++ ['\n'])) = rows
  | [], _ => rfl
  | r :: rows, h => by
    have hr := h r (List.mem_cons_self ..)
    rw [List.flatMap_cons, List.append_assoc, List.singleton_append, strLines_acc hr.1, List.nil_append, strLines,
      if_pos rfl, strLines_rows rows (fun x hx => h x (List.mem_cons_of_mem _ hx)), if_neg]
    intro hl
    exact hr.2 (List.mem_of_getLast? hl)

theorem nameOfCode_type (b : Byte) : (GEOSFileType.fromByte b).text = nameOfCode geosTypeNames b := by
  have h := forall_byte (P := fun b => (GEOSFileType.fromByte b).text = nameOfCode geosTypeNames b ∨
    ((GEOSFileType.fromByte b) = .undefined b ∧ geosTypeNames[b.toNat]? = none)) ?_ b
  · rcases h with h | ⟨h, h'⟩
    · exact h
    · rw [h]; unfold nameOfCode; rw [h']
      show lit _ ++ paddedHex 2 _ ++ _ = _
      rw [paddedHex_two, lit_eq]
  · unfold GEOSFileType.text
    simp only [lit_eq]
    decide +kernel

theorem nameOfCode_structure (b : Byte) :
    (GEOSFileStructure.fromByte b).text = nameOfCode ["Sequential", "VLIR"] b := by
  have h := forall_byte (P := fun b => (GEOSFileStructure.fromByte b).text = nameOfCode ["Sequential", "VLIR"] b ∨
    ((GEOSFileStructure.fromByte b) = .undefined b ∧ ["Sequential", "VLIR"][b.toNat]? = none)) ?_ b
  · rcases h with h | ⟨h, h'⟩
    · exact h
    · rw [h]; unfold nameOfCode; rw [h']
      show lit _ ++ paddedHex 2 _ ++ _ = _
      rw [paddedHex_two, lit_eq]
  · unfold GEOSFileStructure.text
    simp only [lit_eq]
    decide +kernel

end Cbm
