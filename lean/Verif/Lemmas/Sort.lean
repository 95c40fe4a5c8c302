import Verif.Lemmas.List
import Verif.Model.Block
/-!
# Sorted lists of locations without duplicates
-/

namespace Cbm

theorem Location.le_iff (a b : Location) : a.le b = true ↔
    a.track.toNat < b.track.toNat ∨ (a.track.toNat = b.track.toNat ∧ a.sector.toNat ≤ b.sector.toNat) := by
  unfold Location.le
  rw [Bool.or_eq_true, Bool.and_eq_true, decide_eq_true_iff, decide_eq_true_iff, beq_iff_eq,
    UInt8.lt_iff_toNat_lt, UInt8.le_iff_toNat_le, ← UInt8.toNat_inj]

theorem Location.le_antisymm {a b : Location} (h : a.le b = true) (h' : b.le a = true) : a = b := by
  rw [Location.le_iff] at h h'
  have h1 : a.track.toNat = b.track.toNat := by omega
  have h2 : a.sector.toNat = b.sector.toNat := by omega
  cases a; cases b
  simp only [Location.mk.injEq]
  exact ⟨UInt8.toNat_inj.1 h1, UInt8.toNat_inj.1 h2⟩

theorem mem_insertLoc {x l : Location} : ∀ {ls : List Location},
    l ∈ insertLoc x ls ↔ l = x ∨ l ∈ ls
  | [] => by simp [insertLoc]
  | y :: ys => by
    unfold insertLoc
    split
    · simp
    · rw [List.mem_cons, mem_insertLoc, List.mem_cons]
      constructor
      · rintro (h | h | h)
        · exact .inr (.inl h)
        · exact .inl h
        · exact .inr (.inr h)
      · rintro (h | h | h)
        · exact .inr (.inl h)
        · exact .inl h
        · exact .inr (.inr h)

theorem mem_sortLocs {l : Location} : ∀ {ls : List Location}, l ∈ sortLocs ls ↔ l ∈ ls
  | [] => Iff.rfl
  | x :: xs => by rw [sortLocs, mem_insertLoc, mem_sortLocs, List.mem_cons]

theorem insertLoc_sorted {x : Location} : ∀ {ls : List Location},
    ls.Pairwise (fun a b => a.le b = true) → (insertLoc x ls).Pairwise fun a b => a.le b = true
  | [], _ => by simp [insertLoc]
  | y :: ys, h => by
    unfold insertLoc
    rw [List.pairwise_cons] at h
    split
    · rename_i hxy
      refine List.pairwise_cons.2 ⟨?_, List.pairwise_cons.2 h⟩
      intro z hz
      rcases List.mem_cons.1 hz with rfl | hz
      · exact hxy
      · have := h.1 z hz
        rw [Location.le_iff] at *
        omega
    · rename_i hxy
      refine List.pairwise_cons.2 ⟨?_, insertLoc_sorted h.2⟩
      intro z hz
      rcases mem_insertLoc.1 hz with rfl | hz
      · rw [Location.le_iff] at *
        omega
      · exact h.1 z hz

theorem sortLocs_sorted : ∀ (ls : List Location),
    (sortLocs ls).Pairwise fun a b => a.le b = true
  | [] => List.Pairwise.nil
  | _ :: xs => insertLoc_sorted (sortLocs_sorted xs)

theorem mem_dedupLocs {l : Location} : ∀ {ls : List Location}, l ∈ dedupLocs ls ↔ l ∈ ls
  | [] => Iff.rfl
  | [x] => Iff.rfl
  | x :: y :: ys => by
    unfold dedupLocs
    split
    · rename_i h
      subst h
      rw [mem_dedupLocs]
      simp
    · rw [List.mem_cons, mem_dedupLocs, List.mem_cons (b := x)]

theorem dedupLocs_nodup : ∀ {ls : List Location}, ls.Pairwise (fun a b => a.le b = true) →
    (dedupLocs ls).Nodup
  | [], _ => List.Pairwise.nil
  | [x], _ => by simp [dedupLocs]
  | x :: y :: ys, h => by
    have h' := List.pairwise_cons.1 h
    unfold dedupLocs
    split
    · exact dedupLocs_nodup h'.2
    · rename_i hne
      refine List.nodup_cons.2 ⟨?_, dedupLocs_nodup h'.2⟩
      intro hx
      rw [mem_dedupLocs] at hx
      rcases List.mem_cons.1 hx with hxy | hx
      · exact hne hxy
      · have h1 := (List.pairwise_cons.1 h'.2).1 x hx
        have h2 := h'.1 y (by simp)
        exact hne (Location.le_antisymm h2 h1)

theorem mem_sorted {l : Location} {ls : List Location} :
    l ∈ dedupLocs (sortLocs ls) ↔ l ∈ ls := by rw [mem_dedupLocs, mem_sortLocs]

theorem sorted_nodup (ls : List Location) : (dedupLocs (sortLocs ls)).Nodup :=
  dedupLocs_nodup (sortLocs_sorted ls)

end Cbm
