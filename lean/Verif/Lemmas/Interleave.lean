import Verif.Lemmas.StoreFacts
import Verif.Spec.Interleave
/-!
# Interleaved writers on the store
-/

namespace Cbm
open Spec

variable {k i : Nat} {a : Store} {g : StoredFile} {sched rest : List (Nat × Act)} {calls : List Call}

/-- Whether writer `k` has unflushed data after a schedule. -/
def pend (k : Nat) : List (Nat × Act) → Bool → Bool
  | [], p => p
  | (j, act) :: rest, p =>
    pend k rest (if j = k then (match act with | .write _ => true | _ => false) else p)

theorem pend_none : ∀ {sched : List (Nat × Act)} {p : Bool}, sched.filter (·.1 == k) = [] →
    pend k sched p = p
  | [], _, _ => rfl
  | (j, act) :: rest, p, h => by
    have hj : ¬ j = k := by
      intro e
      simp [e] at h
    simp only [List.filter_cons, beq_iff_eq, hj, if_false] at h
    simp only [pend, hj, if_false]
    exact pend_none h

theorem pend_finished : ∀ {sched : List (Nat × Act)} {p : Bool}, Finished k sched →
    pend k sched p = false
  | [], _, h => by simp [Finished] at h
  | (j, act) :: rest, p, h => by
    unfold Finished at h
    by_cases hj : j = k
    · simp only [List.filter_cons, beq_iff_eq, hj, if_true] at h
      by_cases he : rest.filter (·.1 == k) = []
      · rw [he] at h
        simp only [pend, hj, if_true]
        rw [pend_none he]
        rcases h with h | h <;> simp at h <;> rw [h]
      · have : ∀ z, (List.getLast? (z :: rest.filter (·.1 == k))) =
            (rest.filter (·.1 == k)).getLast? := by
          intro z
          rw [List.getLast?_cons]
          cases hl : (rest.filter (·.1 == k)).getLast? with
          | none => exact absurd (List.getLast?_eq_none_iff.1 hl) he
          | some y => rfl
        rw [this] at h
        exact pend_finished (sched := rest) h
    · simp only [List.filter_cons, beq_iff_eq, hj, if_false] at h
      exact pend_finished (sched := rest) h

def Spec.Act.call (w : Nat) : Act → Call
  | .write buf => .write w buf
  | .flush => .flush w
  | .drop => .drop w

theorem callsOf_cons {live : List Nat} {act : Act} (h : callsOf live ((k, act) :: rest) = some calls) :
    ∃ w cs, live[w]? = some k ∧ (act = .drop → callsOf (live.eraseIdx w) rest = some cs) ∧
      (act ≠ .drop → callsOf live rest = some cs) ∧
      calls = act.call w :: cs := by
  simp only [callsOf] at h
  split at h
  · cases h
  · rename_i w hw
    have hk : live[w]? = some k := by
      obtain ⟨hlt, he, -⟩ := List.findIdx?_eq_some_iff_getElem.1 hw
      rw [List.getElem?_eq_getElem hlt]
      simpa using he
    cases act with
    | write buf =>
      simp only [Option.map_eq_some_iff] at h
      obtain ⟨cs, h1, h2⟩ := h
      exact ⟨w, cs, hk, by simp, fun _ => h1, h2.symm⟩
    | flush =>
      simp only [Option.map_eq_some_iff] at h
      obtain ⟨cs, h1, h2⟩ := h
      exact ⟨w, cs, hk, by simp, fun _ => h1, h2.symm⟩
    | drop =>
      simp only [Option.map_eq_some_iff] at h
      obtain ⟨cs, h1, h2⟩ := h
      exact ⟨w, cs, hk, fun _ => h1, by simp, h2.symm⟩

theorem written_dead : ∀ {sched : List (Nat × Act)} {live : List Nat} {calls : List Call},
    callsOf live sched = some calls → k ∉ live → writtenBy k sched = []
  | [], _, _, _, _ => rfl
  | (j, act) :: rest, live, calls, h, hk => by
    obtain ⟨w, cs, hw, h1, h2, -⟩ := callsOf_cons h
    have hj : j ≠ k := fun e => hk (e ▸ List.mem_of_getElem? hw)
    cases act with
    | write buf =>
      simp only [writtenBy, hj, if_false, List.nil_append]
      exact written_dead (h2 (by simp)) hk
    | flush => exact written_dead (sched := rest) (h2 (by simp)) hk
    | drop => exact written_dead (sched := rest) (h1 rfl) fun hm => hk (List.mem_of_mem_eraseIdx hm)

theorem eraseIdx_map' {α β : Type} (f : α → β) : ∀ (l : List α) (w : Nat),
    (l.map f).eraseIdx w = (l.eraseIdx w).map f
  | [], _ => rfl
  | _ :: _, 0 => rfl
  | _ :: l, w + 1 => by simp [List.eraseIdx_cons_succ, eraseIdx_map' f l w]

theorem map_getElem?_inj {σ : Nat → Nat} {live : List Nat} (hn : (live.map σ).Nodup) {w w' : Nat}
    {k k' : Nat} (h : live[w]? = some k) (h' : live[w']? = some k') (he : σ k = σ k') : w = w' := by
  have h1 := (List.getElem?_eq_some_iff.1 h).1
  refine (List.getElem?_inj (by simpa using h1) hn).1 ?_
  rw [List.getElem?_map, List.getElem?_map, h, h', Option.map_some, Option.map_some, he]

/-- The schedule on the store. -/
theorem store_schedule (σ : Nat → Nat) : ∀ (sched : List (Nat × Act)) {live : List Nat} {a : Store}
    {calls : List Call}, callsOf live sched = some calls →
    a.writers.map StoreWriter.slot = live.map σ → (live.map σ).Nodup →
    (∀ k ∈ live, ∃ g, a.slots[σ k]? = some (some g)) →
    ∃ rs a', Store.run calls a = some (rs, a') ∧ (∀ r ∈ rs, r = .ok () ∨ r = fail .diskFull) ∧
      a'.handles = a.handles ∧
      ((∀ r ∈ rs, r = .ok ()) → ∀ k ∈ live, ∀ g, a.slots[σ k]? = some (some g) →
        a'.slots[σ k]? = some (some { g with data := g.data ++ writtenBy k sched })) ∧
      (∀ i, i ∉ live.map σ → a'.slots[i]? = a.slots[i]?) ∧
      (∀ y ∈ a'.writers, y.slot ∈ live.map σ) ∧
      (∀ (w k : Nat) (y : StoreWriter), live[w]? = some k → a.writers[w]? = some y →
        ∀ y' ∈ a'.writers, y'.slot = σ k → y'.pending = pend k sched y.pending)
  | [], live, a, calls, h, hw, hn, hg => by
    cases h
    refine ⟨[], a, rfl, by simp, rfl, ?_, fun _ _ => rfl, ?_, ?_⟩
    · intro _ k hk g hg'
      rw [hg']
      simp [writtenBy]
    · intro y hy
      rw [← hw]
      exact List.mem_map_of_mem hy
    · intro w k y hk hy y' hy' hs
      obtain ⟨w', hw'⟩ := List.getElem?_of_mem hy'
      have hwl : a.writers.length = live.length := by simpa using congrArg List.length hw
      have hlt : w' < live.length := by
        have := (List.getElem?_eq_some_iff.1 hw').1
        omega
      have e := congrArg (fun l : List Nat => l[w']?) hw
      simp only [List.getElem?_map, hw', Option.map_some] at e
      rw [List.getElem?_eq_getElem hlt] at e
      simp only [Option.map_some, Option.some.injEq] at e
      have := map_getElem?_inj hn hk (List.getElem?_eq_getElem hlt) (by rw [← e, hs])
      subst this
      rw [hy] at hw'
      cases hw'
      rfl
  | (j, act) :: rest, live, a, calls, h, hw, hn, hg => by
    obtain ⟨w, cs, hjw, h1, h2, rfl⟩ := callsOf_cons h
    have hjm := List.mem_of_getElem? hjw
    obtain ⟨g, hgj⟩ := hg j hjm
    have hwl : a.writers.length = live.length := by simpa using congrArg List.length hw
    have hwlt : w < a.writers.length := by
      have := (List.getElem?_eq_some_iff.1 hjw).1
      omega
    obtain ⟨y, hy⟩ : ∃ y, a.writers[w]? = some y := ⟨_, List.getElem?_eq_getElem hwlt⟩
    have hys : y.slot = σ j := by
      have e := congrArg (fun l : List Nat => l[w]?) hw
      simp only [List.getElem?_map, hy, hjw, Option.map_some, Option.some.injEq] at e
      exact e
    have inj : ∀ k ∈ live, k ≠ j → σ k ≠ σ j := by
      intro k hk hkj e
      obtain ⟨w', hw'⟩ := List.getElem?_of_mem hk
      have := map_getElem?_inj hn hw' hjw e
      subst this
      rw [hw'] at hjw
      exact hkj (Option.some.inj hjw)
    cases act with
    | write buf =>
      have hcs := h2 (by simp)
      let cap := 254 * (blocksFor g.data.length + a.room)
      let a₁ : Store := { a.put y.slot (some { g with data := (g.data ++ buf).take cap }) with
            writers := a.writers.set w ⟨y.slot, true⟩, saved := false }
      have hstep : Store.step (.write w buf) a =
          some (if g.data.length + buf.length ≤ cap then .ok () else fail .diskFull, a₁) := by
        simp only [Store.step, hy, Store.file?, hys, hgj, Option.join_some]
        rw [show a₁ = { a.put (σ j) (some { g with data := (g.data ++ buf).take cap }) with
            writers := a.writers.set w ⟨σ j, true⟩, saved := false } by rw [← hys]]
      have hslots : ∀ i, i ≠ σ j → a₁.slots[i]? = a.slots[i]? := by
        intro i hi
        show (a.slots.set y.slot _)[i]? = _
        rw [hys, List.getElem?_set_ne (Ne.symm hi)]
      have hslotj : a₁.slots[σ j]? = some (some { g with data := (g.data ++ buf).take cap }) := by
        show (a.slots.set y.slot _)[σ j]? = _
        rw [hys, List.getElem?_set_self (List.getElem?_eq_some_iff.1 hgj).1]
      have hw₁ : a₁.writers.map StoreWriter.slot = live.map σ := by
        show (a.writers.set w ⟨y.slot, true⟩).map StoreWriter.slot = _
        rw [List.map_set, hw]
        apply set_getElem?
        rw [List.getElem?_map, hjw, hys]
        rfl
      obtain ⟨rs, a', hrun, hrs, hha, hd, ho, hws, hp⟩ := store_schedule σ rest hcs hw₁ hn (by
        intro k hk
        by_cases hkj : k = j
        · subst hkj; exact ⟨_, hslotj⟩
        · rw [hslots _ (inj k hk hkj)]; exact hg k hk)
      refine ⟨_, a', run_cons hstep hrun, ?_, hha, ?_, ?_, hws, ?_⟩
      · intro r hr
        rcases List.mem_cons.1 hr with rfl | hr
        · split
          · exact .inl rfl
          · exact .inr rfl
        · exact hrs r hr
      · intro hall k hk g' hg'
        have hall' : ∀ r ∈ rs, r = .ok () := fun r hr => hall r (by simp [hr])
        by_cases hkj : k = j
        · subst hkj
          rw [hgj] at hg'
          cases hg'
          rw [hd hall' k hk _ hslotj]
          have hfit : g.data.length + buf.length ≤ cap := by
            have := hall _ (List.mem_cons_self ..)
            split at this
            · assumption
            · cases this
          rw [List.take_of_length_le (by simpa using hfit)]
          simp [writtenBy]
        · rw [hd hall' k hk g' (by rw [hslots _ (inj k hk hkj)]; exact hg')]
          simp [writtenBy, Ne.symm hkj]
      · intro i hi
        rw [ho i hi]
        apply hslots
        intro e
        exact hi (e ▸ List.mem_map_of_mem hjm)
      · intro w' k y₀ hk hy₀ y' hy' hs'
        by_cases hww : w' = w
        · subst hww
          rw [hjw] at hk
          cases hk
          rw [hp w' j ⟨y.slot, true⟩ hjw (by
            show (a.writers.set w' _)[w']? = _
            rw [List.getElem?_set_self hwlt]) y' hy' hs']
          simp [pend]
        · have hkj : j ≠ k := by
            intro e
            subst e
            exact hww (map_getElem?_inj hn hk hjw rfl)
          rw [hp w' k y₀ hk (by
            show (a.writers.set w _)[w']? = _
            rw [List.getElem?_set_ne (Ne.symm hww)]
            exact hy₀) y' hy' hs']
          simp [pend, hkj]
    | flush =>
      have hcs := h2 (by simp)
      let a₁ : Store := { a with
        writers := a.writers.set w ⟨y.slot, false⟩, saved := a.saved || y.pending }
      have hstep : Store.step (.flush w) a = some (.ok (), a₁) := by
        simp only [Store.step, hy]
        rfl
      have hw₁ : a₁.writers.map StoreWriter.slot = live.map σ := by
        show (a.writers.set w ⟨y.slot, false⟩).map StoreWriter.slot = _
        rw [List.map_set, hw]
        apply set_getElem?
        rw [List.getElem?_map, hjw, hys]
        rfl
      obtain ⟨rs, a', hrun, hrs, hha, hd, ho, hws, hp⟩ := store_schedule σ rest hcs hw₁ hn hg
      refine ⟨_, a', run_cons hstep hrun, ?_, hha, ?_, ho, hws, ?_⟩
      · intro r hr
        rcases List.mem_cons.1 hr with rfl | hr
        · exact .inl rfl
        · exact hrs r hr
      · intro hall k hk g' hg'
        exact hd (fun r hr => hall r (by simp [hr])) k hk g' hg'
      · intro w' k y₀ hk hy₀ y' hy' hs'
        by_cases hww : w' = w
        · subst hww
          rw [hjw] at hk
          cases hk
          rw [hp w' j ⟨y.slot, false⟩ hjw (by
            show (a.writers.set w' _)[w']? = _
            rw [List.getElem?_set_self hwlt]) y' hy' hs']
          simp [pend]
        · have hkj : j ≠ k := by
            intro e
            subst e
            exact hww (map_getElem?_inj hn hk hjw rfl)
          rw [hp w' k y₀ hk (by
            show (a.writers.set w _)[w']? = _
            rw [List.getElem?_set_ne (Ne.symm hww)]
            exact hy₀) y' hy' hs']
          simp [pend, hkj]
    | drop =>
      have hcs := h1 rfl
      let a₁ : Store := { a with
        writers := a.writers.eraseIdx w, saved := a.saved || y.pending }
      have hstep : Store.step (.drop w) a = some (.ok (), a₁) := by
        simp only [Store.step, hy]
        rfl
      have herase : (live.eraseIdx w).map σ = (live.map σ).eraseIdx w := by
        rw [eraseIdx_map']
      have hw₁ : a₁.writers.map StoreWriter.slot = (live.eraseIdx w).map σ := by
        show (a.writers.eraseIdx w).map StoreWriter.slot = _
        rw [herase, ← hw, eraseIdx_map']
      have hn₁ : ((live.eraseIdx w).map σ).Nodup := by
        rw [herase]; exact hn.sublist (List.eraseIdx_sublist ..)
      have hsub : ∀ i, i ∈ (live.eraseIdx w).map σ → i ∈ live.map σ := by
        intro i hi
        rw [herase] at hi
        exact List.mem_of_mem_eraseIdx hi
      have hjn : σ j ∉ (live.eraseIdx w).map σ := by
        intro hm
        rw [herase] at hm
        obtain ⟨q, hq, e⟩ := List.mem_eraseIdx_iff_getElem?.1 hm
        rw [List.getElem?_map, Option.map_eq_some_iff] at e
        obtain ⟨k', hk', e⟩ := e
        exact hq (map_getElem?_inj hn hk' hjw e)
      have hjn' : j ∉ live.eraseIdx w := fun hm => hjn (List.mem_map_of_mem hm)
      have hkeep : ∀ k ∈ live, k ≠ j → k ∈ live.eraseIdx w := by
        intro k hk hkj
        obtain ⟨q, hq⟩ := List.getElem?_of_mem hk
        refine List.mem_eraseIdx_iff_getElem?.2 ⟨q, ?_, hq⟩
        intro e
        subst e
        rw [hq] at hjw
        exact hkj (Option.some.inj hjw)
      obtain ⟨rs, a', hrun, hrs, hha, hd, ho, hws, hp⟩ := store_schedule σ rest hcs hw₁ hn₁
        (fun k hk => hg k (List.mem_of_mem_eraseIdx hk))
      refine ⟨_, a', run_cons hstep hrun, ?_, hha, ?_, ?_, fun y hy => hsub _ (hws y hy), ?_⟩
      · intro r hr
        rcases List.mem_cons.1 hr with rfl | hr
        · exact .inl rfl
        · exact hrs r hr
      · intro hall k hk g' hg'
        by_cases hkj : k = j
        · subst hkj
          rw [ho _ hjn]
          show a.slots[σ k]? = _
          rw [hg']
          simp only [writtenBy]
          rw [written_dead hcs hjn', List.append_nil]
        · exact hd (fun r hr => hall r (by simp [hr])) k (hkeep k hk hkj) g' hg'
      · intro i hi
        exact ho i fun hm => hi (hsub i hm)
      · intro w' k y₀ hk hy₀ y' hy' hs'
        by_cases hkj : j = k
        · subst hkj
          exact absurd (hs' ▸ hws y' hy') hjn
        · have hww : w' ≠ w := by
            intro e
            subst e
            rw [hk] at hjw
            exact hkj (Option.some.inj hjw).symm
          have hidx : ∃ q : Nat, (live.eraseIdx w)[q]? = some k ∧ (a.writers.eraseIdx w)[q]? = some y₀ := by
            by_cases hlt : w' < w
            · exact ⟨w', by rw [List.getElem?_eraseIdx_of_lt hlt]; exact hk,
                by rw [List.getElem?_eraseIdx_of_lt hlt]; exact hy₀⟩
            · refine ⟨w' - 1, ?_, ?_⟩
              · rw [List.getElem?_eraseIdx_of_ge (by omega)]
                rw [show w' - 1 + 1 = w' by omega]; exact hk
              · rw [List.getElem?_eraseIdx_of_ge (by omega)]
                rw [show w' - 1 + 1 = w' by omega]; exact hy₀
          obtain ⟨q, hq1, hq2⟩ := hidx
          rw [hp q k y₀ hq1 hq2 y' hy' hs']
          simp [pend, hkj]

/-- Opening a writer for each of several files. -/
theorem store_openAll : ∀ (hs slots : List Nat) {a : Store},
    hs.map (fun h => a.handles[h]?) = slots.map (fun i => some (some i)) →
    slots.Nodup → (∀ i ∈ slots, a.writing i = false) →
    Store.run (hs.map Call.openWriter) a = some (hs.map fun _ => .ok (),
      { a with writers := a.writers ++ slots.map fun i => ⟨i, true⟩ })
  | [], [], a, _, _, _ => by simp [Store.run]
  | [], _ :: _, a, h, _, _ => by simp at h
  | _ :: _, [], a, h, _, _ => by simp at h
  | h :: hs, i :: slots, a, he, hn, hw => by
    simp only [List.map_cons, List.cons.injEq] at he
    have hn' := List.nodup_cons.1 hn
    have hstep : Store.step (.openWriter h) a =
        some (.ok (), { a with writers := a.writers ++ [⟨i, true⟩] }) := by
      simp only [Store.step]
      rw [he.1]
      simp only
      rw [hw i (by simp)]
      rfl
    have := run_cons hstep (store_openAll hs slots (a := { a with writers := a.writers ++ [⟨i, true⟩] })
      he.2 hn'.2 (by
        intro k hk
        have h1 := hw k (by simp [hk])
        unfold Store.writing at h1 ⊢
        simp only [List.any_append, h1, Bool.false_or, List.any_cons, List.any_nil, Bool.or_false,
          beq_eq_false_iff_ne]
        intro e
        exact hn'.1 (e ▸ hk)))
    simpa using this

end Cbm
