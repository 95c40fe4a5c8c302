import Verif.Lemmas.Chain
import Verif.Model.Writer
/-!
# Advancing to the last block of a chain
-/

namespace Cbm
open Spec

variable {d : Device} {s : Shape}

theorem link_next {b : List Byte} (hb : b.length = 256) (h : byteAt b 0 ≠ 0) :
    ChainLink.new b = .ok (.next (linkBytes b)) := by
  rw [chainLink_new b (by omega), if_neg h]

/-- Along a path the loop arrives at its end, or at a sector that does not exist. -/
theorem tailLoop_path (hw : Wf d s) {e : Location} : ∀ (ls : List Location) {start : Location} (fuel : Nat),
    (∀ l ∈ ls, s.Valid l) → (∀ l ∈ ls, byteAt (d.blk s l) 0 ≠ 0) → Linked d s (ls ++ [e]) →
    (ls ++ [e]).head? = some start →
    (s.Valid e → tailLoop d (fuel + ls.length) start (d.blk s start) = tailLoop d fuel e (d.blk s e)) ∧
    (¬ s.Valid e → ls ≠ [] → tailLoop d (fuel + ls.length) start (d.blk s start) = fail .invalidLocation)
  | [], start, fuel, _, _, _, hs => by
    simp only [List.nil_append, List.head?_cons, Option.some.injEq] at hs
    subst hs
    exact ⟨fun _ => rfl, fun _ h => absurd rfl h⟩
  | l :: ls, start, fuel, hv, ho, hl, hs => by
    simp only [List.cons_append, List.head?_cons, Option.some.injEq] at hs
    subst hs
    have hlen := hw.blk_length (hv l (by simp))
    have hnext := link_next hlen (ho l (by simp))
    have hstep : ∀ m, linkBytes (d.blk s l) = m → tailLoop d (fuel + (l :: ls).length) l (d.blk s l) =
        (do
          let block ← d.sector m
          tailLoop d (fuel + ls.length) m block) := by
      intro m hm
      rw [show fuel + (l :: ls).length = (fuel + ls.length) + 1 from rfl]
      conv => lhs; unfold tailLoop
      rw [hnext, res_bind_ok, hm]
    cases ls with
    | nil =>
      have hm : linkBytes (d.blk s l) = e := hl.1
      rw [hstep e hm]
      constructor
      · intro he
        rw [hw.sector he, res_bind_ok]
        rfl
      · intro he _
        rw [hw.sector_invalid he]
        rfl
    | cons m ms =>
      have hm : linkBytes (d.blk s l) = m := hl.1
      have hlr : Linked d s ((m :: ms) ++ [e]) := hl.2
      obtain ⟨h1, h2⟩ := tailLoop_path hw (m :: ms) (start := m) fuel
        (fun k hk => hv k (List.mem_cons_of_mem _ hk)) (fun k hk => ho k (List.mem_cons_of_mem _ hk))
        hlr rfl
      rw [hstep m hm, hw.sector (hv m (by simp)), res_bind_ok]
      exact ⟨h1, fun he _ => h2 he (by simp)⟩

/-- On a cycle the loop never ends. -/
theorem tailLoop_cycle (hw : Wf d s) {ls : List Location} (hv : ∀ l ∈ ls, s.Valid l)
    (ho : ∀ l ∈ ls, byteAt (d.blk s l) 0 ≠ 0) (hc : ∀ l ∈ ls, linkBytes (d.blk s l) ∈ ls) :
    ∀ (fuel : Nat) (l : Location), l ∈ ls → tailLoop d fuel l (d.blk s l) = .error .diverge
  | 0, _, _ => rfl
  | fuel + 1, l, hl => by
    unfold tailLoop
    rw [link_next (hw.blk_length (hv l hl)) (ho l hl), res_bind_ok]
    dsimp only
    rw [hw.sector (hv _ (hc l hl)), res_bind_ok]
    exact tailLoop_cycle hw hv ho hc fuel _ (hc l hl)

/-- Every sector of a path links to one of the path or to its end. -/
theorem linked_mem {e : Location} : ∀ {ls : List Location}, Linked d s (ls ++ [e]) →
    ∀ l ∈ ls, linkBytes (d.blk s l) ∈ ls ++ [e]
  | [], _, _, hl => by cases hl
  | [m], h, l, hl => by
    simp only [List.mem_singleton] at hl
    subst hl
    rw [show linkBytes (d.blk s l) = e from h.1]
    simp
  | m :: k :: rest, h, l, hl => by
    rcases List.mem_cons.1 hl with rfl | hl
    · rw [show linkBytes (d.blk s l) = k from h.1]
      simp
    · exact List.mem_cons_of_mem _ (linked_mem (ls := k :: rest) h.2 l hl)

end Cbm
