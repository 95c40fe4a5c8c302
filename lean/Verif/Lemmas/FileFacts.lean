import Verif.Lemmas.StoreFacts
/-!
# Creating and appending on the store, as seen by a program
-/

namespace Cbm
open Spec

variable {res : Res Unit} {i j k r : Nat} {a a' a₁ : Store} {x x' : Session}
  {g g' : StoredFile} {disk : Disk} {calls : List Call} {rs : List (Res Unit)} {name : Petscii}
  {type : FileType}

/-- Without relative files, creation is always within the contract. -/
theorem create_total (ht : type.toByte &&& 0x0F ≠ 4) (name : Petscii) (a : Store) :
    ∃ res a', Store.step (.create name type .linear) a = some (res, a') := by
  simp only [Store.step]
  rw [if_neg (by simp [ht])]
  split
  · exact ⟨_, _, rfl⟩
  · split
    · exact ⟨_, _, rfl⟩
    · split
      · exact ⟨_, _, rfl⟩
      · split
        · exact ⟨_, _, rfl⟩
        · exact ⟨_, _, rfl⟩

theorem runs_cons (c : Call) (cs : List Call) (h : Session.step c x = (res, x')) :
    runs (c :: cs) x = (res :: (runs cs x').1, (runs cs x').2) := by
  simp only [runs, h]

theorem lists_unique {l l' : List (List Byte × Byte × Nat)} (h : Lists disk l)
    (h' : Lists disk l') : l = l' := by
  obtain ⟨es, h1, h2⟩ := h
  obtain ⟨es', h1', h2'⟩ := h'
  rw [h1] at h1'
  cases h1'
  rw [← h2, ← h2']

theorem storedName_plain (h : name.getLast? ≠ some 0xA0) : storedName name = name := by
  unfold storedName
  have : name.reverse.dropWhile (· == 0xA0) = name.reverse := by
    rw [List.getLast?_eq_head?_reverse] at h
    cases hr : name.reverse with
    | nil => rfl
    | cons b t =>
      rw [hr] at h
      rw [List.dropWhile_cons_of_neg]
      simpa using h
  rw [this, List.reverse_reverse]

/-- Files seen by an index that reads a slot nobody is writing. -/
theorem find_of (hg : a.slots[i]? = some (some g)) (hn : g.name = name)
    (hno : ∀ (j : Nat) (g' : StoredFile), j ≠ i → a.slots[j]? = some (some g') → g'.name ≠ name) :
    a.find name = some i := by
  unfold Store.find
  rw [find_some_iff]
  exact ⟨⟨g, hg, hn⟩, fun j g' hj hg' => hno j g' (by omega) hg'⟩

/-- The store after a successful creation. -/
structure Created (a : Store) (name : Petscii) (type : FileType) (a' : Store) (i : Nat) : Prop where
  slot : a'.slots[i]? = some (some ⟨storedName name, type.toByte ||| 0x80, []⟩)
  was : ∀ g, a.slots[i]? ≠ some (some g)
  others : ∀ (j : Nat) (g : StoredFile), j ≠ i →
    (a'.slots[j]? = some (some g) ↔ a.slots[j]? = some (some g))
  handles : a'.handles = a.handles ++ [some i]
  writers : a'.writers = a.writers
  type : a'.type = a.type
  free : a'.room + 1 = a.room
  absent : ∀ (j : Nat) (g : StoredFile), a.slots[j]? = some (some g) → g.name ≠ name

theorem created (hq : a.used ≤ dataBlocks a.type)
    (h : Store.step (.create name type .linear) a = some (.ok (), a')) :
    ∃ i, Created a name type a' i := by
  obtain ⟨-, -, hl, hf, a₁, i, hres, hroom, rfl⟩ := create_ok h
  obtain ⟨-, hnone, hold, hback, hfiles, hh, hw, hty, -⟩ := reserve_cases hres
  have hlt := (List.getElem?_eq_some_iff.1 hnone).1
  refine ⟨i, ?_, ?_, ?_, rfl, hw, hty, ?_, fun j g hg => find_none_iff.1 hf j g hg⟩
  · show (a₁.slots.set i _)[i]? = _
    rw [List.getElem?_set_self hlt]
  · intro g hg
    rw [hold i _ hg] at hnone
    cases hnone
  · intro j g hj
    show (a₁.slots.set i _)[j]? = _ ↔ _
    rw [List.getElem?_set_ne (Ne.symm hj)]
    exact ⟨hback j g, hold j _⟩
  · have := used_put (a := a₁) (z' := some ⟨storedName name, type.toByte ||| 0x80, []⟩) hnone
    have hu : a₁.used = a.used := by unfold Store.used; rw [hfiles]
    have hb : blocksFor 0 = 1 := rfl
    simp only [Option.toList_none, Option.toList_some, List.map_nil, List.map_cons, List.sum_nil,
      List.sum_cons, List.length_nil, hb] at this
    show dataBlocks a₁.type - (a₁.put i _).used + 1 = _
    unfold Store.room at hroom ⊢
    rw [hty]
    omega

theorem Created.writing (hc : Created a name type a' i) (hg : a.Good) : a'.writing i = false := by
  unfold Store.writing
  rw [hc.writers, List.any_eq_false]
  intro w hw
  obtain ⟨g, hgw⟩ := hg.writers w hw
  simp only [beq_iff_eq]
  rintro rfl
  exact hc.was g hgw

theorem append_runs (h : Reaches x a) (hk : a.handles[k]? = some (some i))
    (hg : a.slots[i]? = some (some g)) (hw : a.writing i = false) (chunks : List (List Byte))
    {fin : Call} (hfin : Closes fin x.writers.length) :
    ∃ rs x' ws, runs (.openWriter k :: (chunks.map (Call.write x.writers.length) ++ [fin])) x =
        (.ok () :: (rs ++ [.ok ()]), x') ∧
      Reaches x' { a with
        slots := a.slots.set i (some { g with data := (g.data ++ chunks.flatten).take (capOf a g) })
        writers := ws, saved := true } ∧
      (∀ (j : Nat), j ≠ i → (∀ w ∈ a.writers, w.slot = j → w.pending = false) →
        ∀ w ∈ ws, w.slot = j → w.pending = false) ∧
      (∀ w ∈ ws, w.slot = i → w.pending = false) ∧
      (g.data.length + chunks.flatten.length ≤ capOf a g ↔ ∀ r ∈ rs, r = .ok ()) ∧
      ∀ r ∈ rs, r = .ok () ∨ r = fail .diskFull := by
  have hno : ∀ w ∈ a.writers, w.slot = i → w.pending = false := by
    intro w hm e
    have := List.any_eq_false.1 hw w hm
    simp [e] at this
  have key : ∃ ws, ((fin = .flush a.writers.length ∧ ws = a.writers ++ [⟨i, false⟩]) ∨
      (fin = .drop a.writers.length ∧ ws = a.writers)) := by
    rw [← h.writers]
    rcases hfin with hf | hf
    · exact ⟨_, .inl ⟨hf, rfl⟩⟩
    · exact ⟨_, .inr ⟨hf, rfl⟩⟩
  obtain ⟨ws, hws⟩ := key
  obtain ⟨rs, hrun, hfit, hok⟩ := store_append h.good.quota hk hg hw chunks hws
  obtain ⟨x', hx', hr'⟩ := h.run hrun
  rw [← h.writers] at hx'
  refine ⟨rs, x', ws, hx', hr', ?_, ?_, hfit, hok⟩
  · intro j hj hp w hm e
    rcases hws with ⟨-, rfl⟩ | ⟨-, rfl⟩
    · rcases List.mem_append.1 hm with hm | hm
      · exact hp w hm e
      · simp only [List.mem_cons, List.not_mem_nil, or_false] at hm
        subst hm
        rfl
    · exact hp w hm e
  · intro w hm e
    rcases hws with ⟨-, rfl⟩ | ⟨-, rfl⟩
    · rcases List.mem_append.1 hm with hm | hm
      · exact hno w hm e
      · simp only [List.mem_cons, List.not_mem_nil, or_false] at hm
        subst hm
        rfl
    · exact hno w hm e

/-- Creating a file works if the name is new, the directory is not full and a block is
left. -/
theorem create_fits (ht : type.toByte &&& 0x0F ≠ 4) (hname : name.length ≤ 16)
    (hnew : ∀ g ∈ a.files, g.name ≠ name) (hdir : a.files.length < maxSlots a.type)
    (hroom : 0 < a.room) :
    ∃ a', Store.step (.create name type .linear) a = some (.ok (), a') := by
  have hfind : a.find name = none := by
    refine find_none_iff.2 ?_
    intro j g hg
    exact hnew g (List.mem_filterMap.2 ⟨_, List.mem_of_getElem? hg, rfl⟩)
  have hres : a.reserve ≠ none := by
    unfold Store.reserve
    split
    · simp
    · rename_i hnone
      rw [if_pos]
      · simp
      · have hall := empty_none_iff.1 hnone
        have : a.files.length = a.slots.length := by
          unfold Store.files
          have hsome : ∀ z ∈ a.slots, z.isSome := by
            intro z hz
            obtain ⟨q, hq⟩ := List.getElem?_of_mem hz
            cases z with
            | none => exact absurd hq (hall q)
            | some g => rfl
          clear hall hnone hdir hfind hroom hnew
          generalize a.slots = zs at hsome
          induction zs with
          | nil => rfl
          | cons z zs ih =>
            obtain ⟨g, rfl⟩ := Option.isSome_iff_exists.1 (hsome z (by simp))
            simp [ih fun z hz => hsome z (by simp [hz])]
        omega
  simp only [Store.step]
  rw [if_neg (by simp [ht]), if_neg (by omega), hfind]
  simp only [Option.isSome_none, Bool.false_eq_true, if_false]
  cases hr : a.reserve with
  | none => exact absurd hr hres
  | some p =>
    obtain ⟨a₁, i⟩ := p
    have hh := reserve_cases hr
    have : a₁.room = a.room := by
      unfold Store.room Store.used
      rw [hh.2.2.2.2.1, hh.2.2.2.2.2.2.2.1]
    simp only
    rw [if_neg (by omega)]
    exact ⟨_, rfl⟩

theorem Created.files (hc : Created a name type a' i) {g : StoredFile} :
    g ∈ a'.files ↔ g ∈ a.files ∨ g = ⟨storedName name, type.toByte ||| 0x80, []⟩ := by
  unfold Store.files
  constructor
  · intro h
    obtain ⟨y, hy, rfl⟩ := List.mem_filterMap.1 h
    obtain ⟨q, hq⟩ := List.getElem?_of_mem hy
    by_cases hqi : q = i
    · subst hqi
      rw [hc.slot] at hq
      right
      simpa using hq.symm
    · left
      have := (hc.others q _ hqi).1 hq
      exact List.mem_filterMap.2 ⟨_, List.mem_of_getElem? this, rfl⟩
  · rintro (h | rfl)
    · obtain ⟨y, hy, rfl⟩ := List.mem_filterMap.1 h
      obtain ⟨q, hq⟩ := List.getElem?_of_mem hy
      have hqi : q ≠ i := by
        rintro rfl
        exact hc.was _ hq
      exact List.mem_filterMap.2 ⟨_, List.mem_of_getElem? ((hc.others q _ hqi).2 hq), rfl⟩
    · exact List.mem_filterMap.2 ⟨_, List.mem_of_getElem? hc.slot, rfl⟩

theorem filterMap_set_none : ∀ {zs : List (Option StoredFile)} {i : Nat} {g : StoredFile},
    zs[i]? = some none → ((zs.set i (some g)).filterMap id).length = (zs.filterMap id).length + 1
  | [], i, g, h => by cases h
  | z :: zs, 0, g, h => by
    cases h
    simp
  | z :: zs, i + 1, g, h => by
    have ih := filterMap_set_none (zs := zs) (i := i) (g := g) h
    cases z <;> simp [ih]

theorem create_length (h : Store.step (.create name type .linear) a = some (.ok (), a')) :
    a'.files.length = a.files.length + 1 := by
  obtain ⟨-, -, -, -, a₁, i, hr, -, rfl⟩ := create_ok h
  obtain ⟨-, hslot, -, -, hf, -⟩ := reserve_cases hr
  rw [← hf]
  exact filterMap_set_none hslot

end Cbm
