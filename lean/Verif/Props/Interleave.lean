import Verif.Lemmas.Interleave
import Verif.Lemmas.Start
/-!
# Writers on different files do not interfere (C35)

Schedules, `writtenBy`, `Finished`: Spec/Interleave.
-/

namespace Cbm
open Spec

variable {a : Store} {x x' : Session} {calls : List Call} {rs : List (Res Unit)}

theorem map_slots {a : Store} : ∀ {hs : List Nat}, (∀ h ∈ hs, ∃ i, a.handles[h]? = some (some i)) →
    ∃ slots : List Nat, hs.map (fun h => a.handles[h]?) = slots.map (fun i => some (some i))
  | [], _ => ⟨[], rfl⟩
  | h :: hs, hh => by
    obtain ⟨i, hi⟩ := hh h (by simp)
    obtain ⟨slots, hs'⟩ := map_slots (hs := hs) fun h' hm => hh h' (by simp [hm])
    exact ⟨i :: slots, by simp [hi, hs']⟩

/-- **C35** Open a writer for each of the handles `hs`, which belong to pairwise
different files, and let the writers write, be flushed and be dropped in any order.
No call fails other than with DiskFull.  If no call fails, every file whose writer was
last flushed or dropped reads as its old content followed by what its own writer wrote,
and the files without a writer read as before. -/
theorem C35_interleaved_writers (h : Reaches x a) (hw : a.writers = []) {hs : List Nat}
    (hopen : ∀ h ∈ hs, ∃ i, a.handles[h]? = some (some i))
    (hdiff : (hs.map fun h => a.handles[h]?).Nodup) {sched : List (Nat × Act)}
    (hcalls : callsOf (List.range hs.length) sched = some calls)
    (hrun : runs (hs.map Call.openWriter ++ calls) x = (rs, x')) :
    (∀ r ∈ rs, r = .ok () ∨ r = fail .diskFull) ∧
    ((∀ r ∈ rs, r = .ok ()) →
      (∀ (k h : Nat) (content : List Byte), hs[k]? = some h → Finished k sched →
        ReadsHandle x h content → ReadsHandle x' h (content ++ writtenBy k sched)) ∧
      (∀ (h : Nat) (content : List Byte), (∃ i, a.handles[h]? = some (some i)) →
        a.handles[h]? ∉ hs.map (fun h => a.handles[h]?) →
        ReadsHandle x h content → ReadsHandle x' h content)) := by
  obtain ⟨slots, hslots⟩ := map_slots hopen
  have hlen : slots.length = hs.length := by
    have := congrArg List.length hslots
    simpa using this.symm
  have hnd : slots.Nodup := by
    rw [hslots] at hdiff
    have := List.pairwise_map.1 hdiff
    exact this.imp (fun hne e => hne (by rw [e]))
  have h1 := store_openAll hs slots hslots hnd (by intro i _; simp [Store.writing, hw])
  let σ : Nat → Nat := fun k => slots.getD k 0
  have hσ : (List.range hs.length).map σ = slots := by
    apply List.ext_getElem?
    intro k
    rw [List.getElem?_map]
    by_cases hk : k < hs.length
    · rw [List.getElem?_range hk, Option.map_some]
      show some (slots.getD k 0) = _
      rw [List.getD_eq_getElem?_getD, List.getElem?_eq_getElem (hlen ▸ hk)]
      rfl
    · rw [List.getElem?_eq_none (by simpa using hk), List.getElem?_eq_none (by omega)]
      rfl
  have hfile : ∀ (k i : Nat), a.handles[k]? = some (some i) → ∃ g, a.slots[i]? = some (some g) :=
    fun k i hk => h.handle hk
  have hslot : ∀ (k h' : Nat), hs[k]? = some h' →
      k ∈ List.range hs.length ∧ a.handles[h']? = some (some (σ k)) := by
    intro k h' hk
    have hlt := (List.getElem?_eq_some_iff.1 hk).1
    refine ⟨List.mem_range.2 hlt, ?_⟩
    have e := congrArg (fun l : List (Option (Option Nat)) => l[k]?) hslots
    simp only [List.getElem?_map, hk, Option.map_some] at e
    rw [List.getElem?_eq_getElem (l := slots) (hlen ▸ hlt)] at e
    simp only [Option.map_some, Option.some.injEq] at e
    rw [e]
    show _ = some (some (slots.getD k 0))
    rw [List.getD_eq_getElem?_getD, List.getElem?_eq_getElem (hlen ▸ hlt)]
    rfl
  obtain ⟨rs₂, a', h2, hrs, hha, hd, ho, hws, hp⟩ := store_schedule σ sched
    (a := { a with writers := a.writers ++ slots.map fun i => ⟨i, true⟩ }) hcalls
    (by simp [hw, hσ, Function.comp_def]) (by rw [hσ]; exact hnd) (by
      intro k hk
      have hlt := List.mem_range.1 hk
      exact hfile _ _ (hslot k _ (List.getElem?_eq_getElem hlt)).2)
  have hall := Store.run_append h1 h2
  obtain ⟨x'', hx'', hr''⟩ := h.run hall
  rw [hrun] at hx''
  cases hx''
  refine ⟨?_, ?_⟩
  · intro r hr
    rcases List.mem_append.1 hr with hr | hr
    · obtain ⟨_, -, rfl⟩ := List.mem_map.1 hr
      exact .inl rfl
    · exact hrs r hr
  · intro hok
    have hok₂ : ∀ r ∈ rs₂, r = .ok () := fun r hr => hok r (by simp [hr])
    have old : ∀ (h' i : Nat) (content : List Byte), a.handles[h']? = some (some i) →
        ReadsHandle x h' content → ∃ g, a.slots[i]? = some (some g) ∧ g.data = content := by
      intro h' i content hh' hrd
      obtain ⟨g, hg⟩ := hfile _ _ hh'
      refine ⟨g, hg, ?_⟩
      exact readsHandle_unique (h.shows.readsHandle h' i g.data hh'
        (read_eq hg (by simp [hw]))) hrd
    refine ⟨?_, ?_⟩
    · intro k h' content hk hfin hrd
      obtain ⟨hkm, hh'⟩ := hslot k h' hk
      obtain ⟨g, hg, rfl⟩ := old h' _ content hh' hrd
      refine hr''.shows.readsHandle h' (σ k) _ (by rw [hha]; exact hh') ?_
      refine read_eq (hd hok₂ k hkm g hg) ?_
      intro y hy hys
      have hkr : (List.range hs.length)[k]? = some k :=
        List.getElem?_range (List.mem_range.1 hkm)
      rw [hp k k ⟨σ k, true⟩ hkr (by
        simp only [hw, List.nil_append, List.getElem?_map]
        rw [List.getElem?_eq_getElem (hlen ▸ List.mem_range.1 hkm)]
        show some _ = some (StoreWriter.mk (slots.getD k 0) true)
        rw [List.getD_eq_getElem?_getD,
          List.getElem?_eq_getElem (hlen ▸ List.mem_range.1 hkm)]
        rfl) y hy hys]
      exact pend_finished hfin
    · intro h' content hex hno hrd
      obtain ⟨i, hi⟩ := hex
      obtain ⟨g, hg, rfl⟩ := old h' i content hi hrd
      have hin : i ∉ (List.range hs.length).map σ := by
        rw [hσ]
        intro hm
        rw [hslots, hi] at hno
        exact hno (List.mem_map.2 ⟨i, hm, rfl⟩)
      refine hr''.shows.readsHandle h' i _ (by rw [hha]; exact hi) ?_
      refine read_eq (g := g) (by rw [ho i hin]; exact hg) ?_
      intro y hy hys
      exact absurd (hys ▸ hws y hy) hin

/-- Two files on a formatted disk, and a schedule of two writers that is not sequential. -/
example : ∃ x a, Reaches x a ∧ a.writers = [] ∧ (∀ h ∈ [0, 1], ∃ i, a.handles[h]? = some (some i)) ∧
    (([0, 1] : List Nat).map fun h => a.handles[h]?).Nodup := by
  obtain ⟨x, hx⟩ := exists_formatted .d71 [0x41] (by decide) (0x30, 0x31)
  obtain ⟨a, ha⟩ : ∃ a, Store.run [.create [0x41] .PRG .linear, .create [0x42] .SEQ .linear]
      (Store.empty .d71 [0x41] (0x30, 0x31)) = some ([.ok (), .ok ()], a) ∧ a.writers = [] ∧
        a.handles = [some 0, some 1] := ⟨_, rfl, rfl, by decide +kernel⟩
  obtain ⟨x', -, hx'⟩ := hx.run ha.1
  refine ⟨x', a, hx', ha.2.1, ?_, ?_⟩
  · rw [ha.2.2]
    intro h hh
    simp only [List.mem_cons, List.not_mem_nil, or_false] at hh
    rcases hh with rfl | rfl
    · exact ⟨0, rfl⟩
    · exact ⟨1, rfl⟩
  · rw [ha.2.2]; decide

example : callsOf (List.range 2) [(0, .write [1]), (1, .write [2]), (0, .write [3]), (0, .drop),
      (1, .write [4]), (1, .drop)] =
    some [.write 0 [1], .write 1 [2], .write 0 [3], .drop 0, .write 0 [4], .drop 0] := by decide

end Cbm
