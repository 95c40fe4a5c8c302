import Verif.Lemmas.Device
import Verif.Lemmas.List
import Verif.Spec.Chain
import Verif.Model.Chain
/-!
# Lemmas about chains
-/

namespace Cbm
open Spec
variable {d : Device} {s : Shape}

theorem chainLink_new (b : List Byte) (h : 2 ≤ b.length) :
    ChainLink.new b =
      if byteAt b 0 = 0 then
        if byteAt b 1 = 0 then fail .invalidChainLink else .ok (.tail ((byteAt b 1).toNat + 1))
      else .ok (.next (linkBytes b)) := by
  rcases b with _ | ⟨b0, _ | ⟨b1, rest⟩⟩
  · simp at h
  · simp at h
  · simp only [ChainLink.new, linkBytes, byteAt, List.getD_cons_zero, List.getD_cons_succ]
    congr 2
    have : b1 < 1 ↔ b1 = 0 := by
      rw [UInt8.lt_iff_toNat_lt, ← UInt8.toNat_inj]
      simp
    simp only [this]

/-- Distinct existing sectors are at most as many as the disk has. -/
theorem nodup_valid_length (ls : List Location) (hn : ls.Nodup) (hv : ∀ l ∈ ls, s.Valid l) :
    ls.length ≤ s.sectors := by
  have h1 : (ls.map (sectorNumber s.type)).Nodup :=
    nodup_map_of_injOn ls hn fun a ha b hb => sectorNumber_inj (hv a ha) (hv b hb)
  have := nodup_length_le_of_lt _ s.sectors h1 (by
    intro x hx
    obtain ⟨l, hl, rfl⟩ := List.mem_map.1 hx
    exact sectorNumber_lt (hv l hl))
  simpa using this

theorem sectors_le : ∀ {s : Shape}, s ∈ shapes → s.sectors ≤ 3200 := by decide +kernel

/-- What the iterator yields at a location where the walk ends. -/
def stopItem (d : Device) (s : Shape) (seen : List Location) (e : Location) : Res ChainSector :=
  if e ∈ seen then fail .chainLoop
  else if ¬ s.Valid e then fail .invalidLocation
  else if byteAt (d.blk s e) 1 = 0 then fail .invalidChainLink
  else .ok ⟨(d.blk s e).take ((byteAt (d.blk s e) 1).toNat + 1), e⟩

/-- The walk ends at `e`. -/
def Stops (d : Device) (s : Shape) (seen : List Location) (e : Location) : Prop :=
  e ∈ seen ∨ ¬ s.Valid e ∨ byteAt (d.blk s e) 0 = 0

theorem Linked.cons {l m : Location} {rest : List Location} (h : linkBytes (d.blk s l) = m)
    (hr : Linked d s (m :: rest)) : Linked d s (l :: m :: rest) := ⟨h, hr⟩

theorem items_none (fuel : Nat) (v : List Location) : ChainIter.items d (fuel + 1) ⟨none, v⟩ = [] := rfl

theorem items_walk (hw : Wf d s) : ∀ (fuel : Nat) (visited : List Location) (start : Location),
    visited.Nodup → (∀ l ∈ visited, s.Valid l) → s.sectors + 3 ≤ fuel + visited.length →
    ∃ ls e, ChainIter.items d fuel ⟨some start, visited⟩ =
        ls.map (fun l => .ok ⟨d.blk s l, l⟩) ++ [stopItem d s (visited ++ ls) e] ∧
      Path d s start ls e ∧ (∀ l ∈ ls, l ∉ visited) ∧ Stops d s (visited ++ ls) e
  | 0, visited, start, hn, hv, hf => by
    have := nodup_valid_length visited hn hv
    omega
  | fuel + 1, visited, start, hn, hv, hf => by
    have hlen := nodup_valid_length visited hn hv
    obtain ⟨k, rfl⟩ : ∃ k, fuel = k + 1 := ⟨fuel - 1, by omega⟩
    have stop : ∀ r, (ChainIter.step d ⟨some start, visited⟩).1 = some r →
        (ChainIter.step d ⟨some start, visited⟩).2.next = none →
        r = stopItem d s visited start → Stops d s visited start →
        ∃ ls e, ChainIter.items d (k + 1 + 1) ⟨some start, visited⟩ =
          ls.map (fun l => .ok ⟨d.blk s l, l⟩) ++ [stopItem d s (visited ++ ls) e] ∧
        Path d s start ls e ∧ (∀ l ∈ ls, l ∉ visited) ∧ Stops d s (visited ++ ls) e := by
      intro r hr hnext heq hstop
      refine ⟨[], start, ?_, ⟨by simp, by simp, by simp, trivial, rfl⟩, by simp, by simpa using hstop⟩
      unfold ChainIter.items
      rcases hst : ChainIter.step d ⟨some start, visited⟩ with ⟨o, it'⟩
      rw [hst] at hr hnext
      simp only at hr hnext
      subst hr
      obtain ⟨nx, vs⟩ := it'
      simp only at hnext
      subst hnext
      simp only [items_none, List.map_nil, List.nil_append, List.append_nil, heq]
    by_cases hmem : start ∈ visited
    · refine stop (fail .chainLoop) ?_ ?_ ?_ (.inl hmem)
      · simp [ChainIter.step, hmem]
      · simp [ChainIter.step, hmem]
      · simp [stopItem, hmem]
    by_cases hval : s.Valid start
    · have hb := hw.blk_length hval
      by_cases h0 : byteAt (d.blk s start) 0 = 0
      · by_cases h1 : byteAt (d.blk s start) 1 = 0
        · refine stop (fail .invalidChainLink) ?_ ?_ ?_ (.inr (.inr h0)) <;>
            simp only [ChainIter.step, hmem, if_false, hw.sector hval, chainLink_new _
              (show 2 ≤ (d.blk s start).length by omega), h0, h1, if_true, stopItem, hval,
              not_true_eq_false]
        · refine stop (.ok ⟨(d.blk s start).take ((byteAt (d.blk s start) 1).toNat + 1), start⟩)
            ?_ ?_ ?_ (.inr (.inr h0)) <;>
            simp only [ChainIter.step, hmem, if_false, hw.sector hval, chainLink_new _
              (show 2 ≤ (d.blk s start).length by omega), h0, h1, if_true, stopItem, hval,
              not_true_eq_false]
      · have hstep : ChainIter.step d ⟨some start, visited⟩ =
            (some (.ok ⟨d.blk s start, start⟩), ⟨some (linkBytes (d.blk s start)), start :: visited⟩) := by
          simp only [ChainIter.step, hmem, if_false, hw.sector hval, chainLink_new _
              (show 2 ≤ (d.blk s start).length by omega), h0, BLOCK_SIZE]
          rw [List.take_of_length_le (by omega)]
        obtain ⟨ls, e, hit, hp, hdis, hstp⟩ := items_walk hw (k + 1) (start :: visited)
          (linkBytes (d.blk s start)) (List.nodup_cons.2 ⟨hmem, hn⟩)
          (by intro l hl; rcases List.mem_cons.1 hl with rfl | hl; exacts [hval, hv l hl])
          (by simp only [List.length_cons]; omega)
        have hsl : start ∉ ls := fun hc => hdis _ hc (by simp)
        have hseen : ∀ x, x ∈ visited ++ start :: ls ↔ x ∈ start :: visited ++ ls := by
          intro x; simp only [List.mem_append, List.mem_cons]
          constructor
          · rintro (h | h | h)
            exacts [.inl (.inr h), .inl (.inl h), .inr h]
          · rintro ((h | h) | h)
            exacts [.inr (.inl h), .inl h, .inr (.inr h)]
        refine ⟨start :: ls, e, ?_, ⟨?_, ?_, ?_, ?_, rfl⟩, ?_, ?_⟩
        · rw [ChainIter.items, hstep]
          simp only [hit, List.map_cons, List.cons_append]
          congr 3
          simp only [stopItem, hseen, List.cons_append]
        · intro l hl; rcases List.mem_cons.1 hl with rfl | hl; exacts [hval, hp.valid l hl]
        · exact List.nodup_cons.2 ⟨hsl, hp.nodup⟩
        · intro l hl; rcases List.mem_cons.1 hl with rfl | hl; exacts [h0, hp.onward l hl]
        · have hst := hp.start
          have hlk := hp.linked
          rcases hls : ls ++ [e] with _ | ⟨m, rest⟩
          · simp at hls
          · rw [hls] at hst hlk
            simp only [List.head?_cons, Option.some.injEq] at hst
            rw [List.cons_append, hls]
            exact ⟨hst.symm, hlk⟩
        · intro l hl
          rcases List.mem_cons.1 hl with rfl | hl
          · exact hmem
          · exact fun hc => hdis l hl (by simp [hc])
        · unfold Stops at hstp ⊢
          rw [hseen]; exact hstp
    · refine stop (fail .invalidLocation) ?_ ?_ ?_ (.inr (.inl hval)) <;>
        simp only [ChainIter.step, hmem, if_false, hw.sector_invalid hval, stopItem, hval,
              not_false_eq_true, if_true]

theorem chainItems_walk (hw : Wf d s) (start : Location) :
    ∃ ls e, chainItems d start =
        ls.map (fun l => .ok ⟨d.blk s l, l⟩) ++ [stopItem d s ls e] ∧
      Path d s start ls e ∧ Stops d s ls e := by
  obtain ⟨ls, e, h1, h2, _, h3⟩ := items_walk hw chainFuel [] start (by simp) (by simp)
    (by have := sectors_le hw.shape; simp [chainFuel]; omega)
  exact ⟨ls, e, by rw [chainItems, ChainIter.new]; simpa using h1, h2, by simpa using h3⟩

theorem linked_append_cons {a : List Location} {x : Location} {b : List Location} :
    Linked d s (a ++ x :: b) ↔ Linked d s (a ++ [x]) ∧ Linked d s (x :: b) := by
  induction a with
  | nil => simp [Linked]
  | cons y a ih =>
    cases a with
    | nil => simp [Linked]
    | cons z a =>
      simp only [List.cons_append, Linked] at ih ⊢
      rw [ih, and_assoc]

/-- Two walks that both end, end alike. -/
theorem path_unique : ∀ {ls ls' : List Location} {start e e' : Location},
    Path d s start ls e → Stops d s ls e → Path d s start ls' e' → Stops d s ls' e' →
    ls = ls' ∧ e = e' := by
  intro ls ls' start e e' h hs h' hs'
  -- compare the sequences `ls ++ [e]` and `ls' ++ [e']` element by element
  have key : ∀ (ls ls' : List Location) (start : Location),
      (ls ++ [e]).head? = some start → (ls' ++ [e']).head? = some start →
      Linked d s (ls ++ [e]) → Linked d s (ls' ++ [e']) →
      (∃ t, ls' ++ [e'] = ls ++ e :: t) ∨ (∃ t, ls ++ [e] = ls' ++ e' :: t) := by
    intro ls
    induction ls with
    | nil =>
      intro ls' start h1 h2 _ _
      simp only [List.nil_append, List.head?_cons, Option.some.injEq] at h1
      subst h1
      cases ls' with
      | nil => simp at h2; subst h2; exact .inl ⟨[], rfl⟩
      | cons a t => simp at h2; subst h2; exact .inl ⟨t ++ [e'], rfl⟩
    | cons a t ih =>
      intro ls' start h1 h2 l1 l2
      simp only [List.cons_append, List.head?_cons, Option.some.injEq] at h1
      subst h1
      cases ls' with
      | nil =>
        simp only [List.nil_append, List.head?_cons, Option.some.injEq] at h2
        subst h2; exact .inr ⟨t ++ [e], rfl⟩
      | cons b u =>
        simp only [List.cons_append, List.head?_cons, Option.some.injEq] at h2
        subst h2
        obtain ⟨m, r, hm⟩ : ∃ m r, t ++ [e] = m :: r := by
          rcases ht : t ++ [e] with _ | ⟨m, r⟩
          · simp at ht
          · exact ⟨m, r, rfl⟩
        obtain ⟨m', r', hm'⟩ : ∃ m r, u ++ [e'] = m :: r := by
          rcases ht : u ++ [e'] with _ | ⟨m, r⟩
          · simp at ht
          · exact ⟨m, r, rfl⟩
        simp only [List.cons_append, hm, hm', Linked] at l1 l2
        rcases ih u m (by simp [hm]) (by rw [hm', List.head?_cons, ← l2.1, l1.1])
          (by rw [hm]; exact l1.2) (by rw [hm']; exact l2.2) with ⟨x, hx⟩ | ⟨x, hx⟩
        · exact .inl ⟨x, by simp [hx]⟩
        · exact .inr ⟨x, by simp [hx]⟩
  have stopAux : ∀ {ls ls' : List Location} {e e' : Location} {t : List Location},
      Path d s start ls' e' → Stops d s ls e → ls' ++ [e'] = ls ++ e :: t → ls = ls' ∧ e = e' := by
    intro ls ls' e e' t hp hst heq
    rcases List.eq_nil_or_concat t with rfl | ⟨t', x, rfl⟩
    · have := List.append_inj' heq rfl
      simp only [List.cons.injEq, and_true] at this
      exact ⟨this.1.symm, this.2.symm⟩
    · exfalso
      rw [show ls ++ e :: t'.concat x = (ls ++ e :: t') ++ [x] by simp] at heq
      have h3 := List.append_inj' heq rfl
      have hls' : ls' = ls ++ e :: t' := h3.1
      rcases hst with hst | hst | hst
      · have := hp.nodup
        rw [hls', List.nodup_append] at this
        exact this.2.2 e hst e (by simp) rfl
      · exact hst (hp.valid e (by rw [hls']; simp))
      · exact hp.onward e (by rw [hls']; simp) hst
  rcases key ls ls' start h.start h'.start h.linked h'.linked with ⟨t, ht⟩ | ⟨t, ht⟩
  · exact stopAux h' hs ht
  · have := stopAux h hs' ht
    exact ⟨this.1.symm, this.2.symm⟩

theorem collectRes_ok {α : Type} (xs : List α) : collectRes (xs.map .ok) = .ok xs := by
  induction xs with
  | nil => rfl
  | cons a t ih => simp only [List.map_cons, collectRes, ih, res_bind_ok, res_pure]

theorem collectRes_error {α : Type} (xs : List α) (e : Fail) (rest : List (Res α)) :
    collectRes (xs.map .ok ++ .error e :: rest) = .error e := by
  induction xs with
  | nil => rfl
  | cons a t ih => simp only [List.map_cons, List.cons_append, collectRes, ih, res_bind_error]

/-- The result of collecting a chain, by where the walk ends. -/
theorem chainSectors_walk (hw : Wf d s) (start : Location) :
    ∃ ls e, Path d s start ls e ∧ Stops d s ls e ∧
      chainSectors d start = (stopItem d s ls e).map
        fun t => ls.map (fun l => ⟨d.blk s l, l⟩) ++ [t] := by
  obtain ⟨ls, e, hit, hp, hst⟩ := chainItems_walk hw start
  refine ⟨ls, e, hp, hst, ?_⟩
  unfold chainSectors
  rw [hit]
  have hm : ls.map (fun l => (Except.ok ⟨d.blk s l, l⟩ : Res ChainSector))
      = (ls.map fun l => (⟨d.blk s l, l⟩ : ChainSector)).map .ok := by simp
  rw [hm]
  cases h : stopItem d s ls e with
  | error er => rw [collectRes_error]; rfl
  | ok t =>
    rw [show [(Except.ok t : Res ChainSector)] = [t].map .ok from rfl, ← List.map_append,
      collectRes_ok]
    rfl

theorem payload_append (a b : List Location) : payload d s (a ++ b) = payload d s a ++ payload d s b := by
  simp [payload]

theorem payload_cons (l : Location) (b : List Location) :
    payload d s (l :: b) = (d.blk s l).drop 2 ++ payload d s b := by
  simp [payload]

theorem drop_take_slice (b : List Byte) (n : Nat) : (b.take (n + 1)).drop 2 = slice b 2 (n - 1) := by
  unfold slice
  rw [List.drop_take]
  congr 1; 

theorem isChain_iff_path {start : Location} {content : List Byte} {locs : List Location} :
    locs.head? = some start ∧ IsChain d s locs content ↔
    ∃ ls e, locs = ls ++ [e] ∧ Path d s start ls e ∧ e ∉ ls ∧ s.Valid e ∧
      byteAt (d.blk s e) 0 = 0 ∧ byteAt (d.blk s e) 1 ≠ 0 ∧
      content = payload d s ls ++ slice (d.blk s e) 2 ((byteAt (d.blk s e) 1).toNat - 1) := by
  constructor
  · rintro ⟨hh, ⟨hv, hn, hl, init, t, rfl, h0, h1, hc⟩⟩
    rw [List.nodup_append] at hn
    refine ⟨init, t, rfl, ⟨fun l hl => hv l (by simp [hl]), hn.1, ?_, hl, hh⟩,
      fun hc => hn.2.2 t hc t (by simp) rfl, hv t (by simp), h0, h1, hc⟩
    intro l hli h0'
    -- the next element is an existing sector, so its track is not 0
    obtain ⟨a, b, rfl⟩ := List.append_of_mem hli
    rw [List.append_assoc, List.cons_append] at hl
    have := (linked_append_cons.1 hl).2
    rcases hb : b ++ [t] with _ | ⟨m, r⟩
    · simp at hb
    · rw [hb] at this
      have hm : m ∈ (a ++ l :: b) ++ [t] := by
        rw [List.append_assoc, List.cons_append, hb]; simp
      have hvm := hv m hm
      rw [← this.1] at hvm
      have := hvm.1
      simp only [linkBytes, h0'] at this
      simp at this
  · rintro ⟨ls, e, rfl, hp, he, hv, h0, h1, hc⟩
    refine ⟨hp.start, ⟨?_, ?_, hp.linked, ls, e, rfl, h0, h1, hc⟩⟩
    · intro l hl
      rcases List.mem_append.1 hl with hl | hl
      · exact hp.valid l hl
      · simp at hl; exact hl ▸ hv
    · rw [List.nodup_append]
      refine ⟨hp.nodup, by simp, ?_⟩
      intro a ha b hb hab
      simp at hb; subst hb; subst hab; exact he ha

end Cbm
