import Verif.Model.Basic
import Verif.Lemmas.Tactic
/-!
# Lemmas about slices and in-place updates
-/

namespace Cbm
variable {α : Type}

theorem length_slice (xs : List α) (o n : Nat) (h : o + n ≤ xs.length) :
    (slice xs o n).length = n := by
  simp [slice]; omega

theorem length_splice (xs : List α) (o : Nat) (src : List α) (h : o + src.length ≤ xs.length) :
    (splice xs o src).length = xs.length := by
  simp [splice]; omega

theorem getElem?_splice (xs : List α) (o : Nat) (src : List α) (i : Nat) (h : o ≤ xs.length) :
    (splice xs o src)[i]? =
      if i < o then xs[i]? else if i < o + src.length then src[i - o]? else xs[i]? := by
  unfold splice
  rw [List.append_assoc, List.getElem?_append]
  have ht : (xs.take o).length = o := by simp; omega
  rw [ht]
  split
  · rename_i hi
    rw [List.getElem?_take]; simp [hi]
  · rename_i hi
    rw [List.getElem?_append]
    split
    · rename_i h2
      rw [if_pos (by omega)]
    · rename_i h2
      rw [if_neg (by omega), List.getElem?_drop]
      congr 1; omega

theorem getElem?_slice (xs : List α) (o n i : Nat) :
    (slice xs o n)[i]? = if i < n then xs[o + i]? else none := by
  unfold slice
  rw [List.getElem?_take]
  split
  · rw [List.getElem?_drop]
  · rfl

theorem slice_splice_same (xs : List α) (o : Nat) (src : List α) (h : o + src.length ≤ xs.length) :
    slice (splice xs o src) o src.length = src := by
  apply List.ext_getElem?; intro i
  rw [getElem?_slice, getElem?_splice _ _ _ _ (by omega)]
  split
  · rename_i hi
    rw [if_neg (by omega), if_pos (by omega)]; congr 1; omega
  · rename_i hi
    rw [List.getElem?_eq_none (by omega)]

theorem slice_splice_same' (xs : List α) (o n : Nat) (src : List α) (hn : n = src.length)
    (h : o + src.length ≤ xs.length) : slice (splice xs o src) o n = src := by
  subst hn; exact slice_splice_same xs o src h

/-- A slice not meeting the overwritten range is unchanged. -/
theorem slice_splice_disjoint (xs : List α) (o : Nat) (src : List α) (o' n : Nat)
    (h : o ≤ xs.length) (hd : o' + n ≤ o ∨ o + src.length ≤ o') :
    slice (splice xs o src) o' n = slice xs o' n := by
  apply List.ext_getElem?; intro i
  rw [getElem?_slice, getElem?_slice]
  split
  · rw [getElem?_splice _ _ _ _ h]
    split
    · rfl
    · rw [if_neg (by omega)]
  · rfl

theorem splice_slice_self (xs : List α) (o n : Nat) (h : o + n ≤ xs.length) :
    splice xs o (slice xs o n) = xs := by
  apply List.ext_getElem?; intro i
  rw [getElem?_splice _ _ _ _ (by omega), length_slice _ _ _ h]
  split
  · rfl
  · split
    · rw [getElem?_slice, if_pos (by omega)]; congr 1; omega
    · rfl

theorem splice_splice_same (xs : List α) (o : Nat) (a b : List α) (hl : a.length = b.length)
    (h : o + a.length ≤ xs.length) : splice (splice xs o a) o b = splice xs o b := by
  apply List.ext_getElem?; intro i
  rw [getElem?_splice _ _ _ _ (by rw [length_splice _ _ _ h]; omega),
    getElem?_splice _ _ _ _ (by omega), getElem?_splice _ _ _ _ (by omega)]
  split
  · rfl
  · split
    · rfl
    · rw [if_neg (by omega)]

theorem splice_comm (xs : List α) (o p : Nat) (a b : List α) (ho : o + a.length ≤ xs.length)
    (hp : p + b.length ≤ xs.length) (hd : o + a.length ≤ p ∨ p + b.length ≤ o) :
    splice (splice xs o a) p b = splice (splice xs p b) o a := by
  apply List.ext_getElem?; intro i
  rw [getElem?_splice _ _ _ _ (by rw [length_splice _ _ _ ho]; omega),
    getElem?_splice _ _ _ _ (by omega), getElem?_splice _ _ _ _ (by rw [length_splice _ _ _ hp]; omega),
    getElem?_splice _ _ _ _ (by omega)]
  repeat' split
  all_goals first | rfl | omega

theorem slice_slice (xs : List α) (o n p m : Nat) (h : p + m ≤ n) :
    slice (slice xs o n) p m = slice xs (o + p) m := by
  apply List.ext_getElem?; intro i
  simp only [getElem?_slice]
  split
  · rw [if_pos (by omega)]; congr 1; omega
  · rfl

theorem slice_zero_length (xs : List α) : slice xs 0 xs.length = xs := by
  simp [slice]

theorem splice_zero_full (xs src : List α) (h : xs.length = src.length) :
    splice xs 0 src = src := by
  simp [splice, ← h]

/-- Reading through a nested update: `splice` of a slice inside a bigger list. -/
theorem slice_splice_inside (xs : List α) (o n p : Nat) (src : List α)
    (h1 : o + n ≤ xs.length) (h2 : p + src.length ≤ n) :
    slice (splice xs (o + p) src) o n = splice (slice xs o n) p src := by
  apply List.ext_getElem?; intro i
  rw [getElem?_slice, getElem?_splice _ _ _ _ (by omega),
    getElem?_splice _ _ _ _ (by rw [length_slice _ _ _ h1]; omega), getElem?_slice]
  repeat' split
  all_goals first | rfl | omega | (congr 1; omega)

theorem byteAt_eq (xs : List Byte) (i : Nat) (h : i < xs.length) : byteAt xs i = xs[i] := by
  simp [byteAt, h]

theorem byteAt_splice (xs : List Byte) (o : Nat) (src : List Byte) (i : Nat)
    (h : o ≤ xs.length) :
    byteAt (splice xs o src) i =
      if i < o then byteAt xs i else if i < o + src.length then byteAt src (i - o)
      else byteAt xs i := by
  simp only [byteAt, List.getD_eq_getElem?_getD, getElem?_splice xs o src i h]
  split
  · rfl
  · split <;> rfl

theorem byteAt_slice (xs : List Byte) (o n i : Nat) (h : i < n) :
    byteAt (slice xs o n) i = byteAt xs (o + i) := by
  simp only [byteAt, List.getD_eq_getElem?_getD, getElem?_slice, if_pos h]

end Cbm
