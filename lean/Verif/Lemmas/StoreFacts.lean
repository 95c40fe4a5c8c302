import Verif.Lemmas.Observe
/-!
# The abstract store: writing, counting, names
-/

namespace Cbm
open Spec

variable {s : Shape} {v : Volume} {i j k r : Nat} {b : Bam} {a a' : Store} {x x' : Session}
  {g g' : StoredFile} {disk : Disk} {calls : List Call} {rs : List (Res Unit)}

theorem blocksFor_pos (n : Nat) : 1 ≤ blocksFor n := by unfold blocksFor; omega

theorem le_blocksFor (n : Nat) : n ≤ 254 * blocksFor n := by unfold blocksFor; omega

theorem blocksFor_le {n m : Nat} (h : n ≤ 254 * m) (hm : 1 ≤ m) : blocksFor n ≤ m := by
  unfold blocksFor; omega

/-- The store is within its quota, and every writer has a file. -/
structure Spec.Store.Good (a : Store) : Prop where
  quota : a.used ≤ dataBlocks a.type
  writers : ∀ w ∈ a.writers, ∃ g, a.slots[w.slot]? = some (some g)
  nodup : (a.writers.map StoreWriter.slot).Nodup

theorem Rep.good (h : Rep x s v r b a) : a.Good := by
  refine ⟨?_, ?_, h.nodup⟩
  · have := h.ready.mounted.onDisk.used_le
    have hu := h.slots.used
    rw [h.type]
    unfold Store.used Store.files
    rw [← hu]
    exact this
  · intro w hw
    obtain ⟨k, hk⟩ := List.mem_iff_getElem?.1 hw
    obtain ⟨-, -, g, -, hg, -⟩ := h.writers k w hk
    exact ⟨g, hg⟩

theorem sum_set : ∀ {zs : List (Option StoredFile)} {i : Nat} {z z' : Option StoredFile},
    zs[i]? = some z →
    (((zs.set i z').filterMap id).map fun g => blocksFor g.data.length).sum +
      (z.toList.map fun g => blocksFor g.data.length).sum =
    ((zs.filterMap id).map fun g => blocksFor g.data.length).sum +
      (z'.toList.map fun g => blocksFor g.data.length).sum
  | [], i, z, z', h => by cases h
  | y :: ys, 0, z, z', h => by
    cases h
    cases y <;> cases z' <;> simp <;> omega
  | y :: ys, i + 1, z, z', h => by
    have ih := sum_set (zs := ys) (i := i) (z := z) (z' := z') h
    rw [List.set_cons_succ]
    cases y <;> simp <;> omega

theorem used_put {z z' : Option StoredFile} (h : a.slots[i]? = some z) :
    (a.put i z').used + (z.toList.map fun g => blocksFor g.data.length).sum =
      a.used + (z'.toList.map fun g => blocksFor g.data.length).sum :=
  sum_set h

/-- The most bytes file `g` can grow to. -/
def capOf (a : Store) (g : StoredFile) : Nat := 254 * (blocksFor g.data.length + a.room)

theorem le_cap (a : Store) (g : StoredFile) : g.data.length ≤ capOf a g := by
  have := le_blocksFor g.data.length
  unfold capOf; omega

theorem cap_write (hq : a.used ≤ dataBlocks a.type) (hg : a.slots[i]? = some (some g))
    {data : List Byte} (hd : data.length ≤ capOf a g) :
    (a.put i (some { g with data := data })).used ≤ dataBlocks a.type ∧
    capOf (a.put i (some { g with data := data })) { g with data := data } = capOf a g := by
  have h1 := used_put (z' := some { g with data := data }) hg
  simp only [Option.toList_some, List.map_cons, List.map_nil, List.sum_cons, List.sum_nil,
    Nat.add_zero] at h1
  have h2 := blocksFor_le hd (by have := blocksFor_pos g.data.length; omega)
  unfold Store.room at h2
  have : (a.put i (some { g with data := data })).type = a.type := rfl
  unfold capOf Store.room
  rw [this]
  dsimp only at *
  constructor <;> omega

theorem blocksFor_mono {n m : Nat} (h : n ≤ m) : blocksFor n ≤ blocksFor m := by
  unfold blocksFor; omega

theorem set_getElem? {α : Type} {xs : List α} {i : Nat} {y : α} (h : xs[i]? = some y) :
    xs.set i y = xs := by
  apply List.ext_getElem?
  intro k
  rw [List.getElem?_set]
  split
  · rename_i e
    subst e
    rw [h, if_pos (List.getElem?_eq_some_iff.1 h).1]
  · rfl

theorem take_append_take (xs ys : List Byte) (n : Nat) :
    (xs.take n ++ ys).take n = (xs ++ ys).take n := by
  rw [List.take_append, List.take_append, List.take_take, Nat.min_self, List.length_take]
  congr 2
  omega

/-- Writing a list of chunks through one writer. -/
theorem store_writes : ∀ (chunks : List (List Byte)) {a : Store} {w i : Nat} {p : Bool}
    {g : StoredFile}, a.used ≤ dataBlocks a.type → a.writers[w]? = some ⟨i, p⟩ →
    a.slots[i]? = some (some g) →
    ∃ rs sv, Store.run (chunks.map (Call.write w)) a = some (rs,
        { a with
          slots := a.slots.set i
            (some { g with data := (g.data ++ chunks.flatten).take (capOf a g) })
          writers := a.writers.set w ⟨i, p || !chunks.isEmpty⟩
          saved := sv }) ∧
      (g.data.length + chunks.flatten.length ≤ capOf a g ↔ ∀ r ∈ rs, r = .ok ()) ∧
      ∀ r ∈ rs, r = .ok () ∨ r = fail .diskFull
  | [], a, w, i, p, g, hq, hw, hg => by
    refine ⟨[], a.saved, ?_, ?_, by simp⟩
    · rw [List.flatten_nil, List.append_nil, List.take_of_length_le (le_cap a g),
        set_getElem? hg]
      rw [show (p || !([] : List (List Byte)).isEmpty) = p by simp, set_getElem? hw]
      rfl
    · have := le_cap a g
      simp only [List.flatten_nil, List.length_nil, Nat.add_zero, List.not_mem_nil,
        false_implies, implies_true, iff_true]
      exact this
  | c :: cs, a, w, i, p, g, hq, hw, hg => by
    have hwl := (List.getElem?_eq_some_iff.1 hw).1
    have hil := (List.getElem?_eq_some_iff.1 hg).1
    have hd : ((g.data ++ c).take (capOf a g)).length ≤ capOf a g := by
      rw [List.length_take]; omega
    obtain ⟨hq', hcap⟩ := cap_write hq hg hd
    obtain ⟨rs, sv, hrun, hiff, hres⟩ := store_writes cs
      (a := { a.put i (some { g with data := (g.data ++ c).take (capOf a g) }) with
            writers := a.writers.set w ⟨i, true⟩, saved := false })
      (w := w) (i := i) (p := true)
      (g := { g with data := (g.data ++ c).take (capOf a g) })
      hq' (List.getElem?_set_self hwl) (List.getElem?_set_self hil)
    have hcap' : capOf { a.put i (some { g with data := (g.data ++ c).take (capOf a g) }) with
        writers := a.writers.set w ⟨i, true⟩, saved := false }
        { g with data := (g.data ++ c).take (capOf a g) } = capOf a g := hcap
    rw [hcap'] at hrun hiff
    refine ⟨(if g.data.length + c.length ≤ capOf a g then .ok () else fail .diskFull) :: rs, sv,
      ?_, ?_, ?_⟩
    · have hstep : Store.step (.write w c) a = some
          (if g.data.length + c.length ≤ capOf a g then .ok () else fail .diskFull,
            { a.put i (some { g with data := (g.data ++ c).take (capOf a g) }) with
              writers := a.writers.set w ⟨i, true⟩, saved := false }) := by
        simp only [Store.step]
        rw [hw]
        simp only [file?_eq.2 hg]
        rfl
      rw [List.map_cons]
      unfold Store.run
      rw [hstep]
      simp only [Option.bind_eq_bind, Option.bind_some]
      rw [hrun]
      simp only [Option.bind_some, pure, Store.put, List.set_set, Bool.true_or, List.isEmpty_cons,
        Bool.not_false, Bool.or_true, List.flatten_cons]
      rw [take_append_take, List.append_assoc]
    · simp only [List.mem_cons, forall_eq_or_imp]
      rw [← hiff]
      simp only [List.flatten_cons, List.length_append, List.length_take]
      constructor
      · intro h
        rw [if_pos (by omega)]
        exact ⟨rfl, by omega⟩
      · rintro ⟨h1, h2⟩
        split at h1
        · omega
        · cases h1
    · intro r hr
      rcases List.mem_cons.1 hr with rfl | hr
      · split
        · exact .inl rfl
        · exact .inr rfl
      · exact hres r hr

theorem run_cons {c : Call} {res : Res Unit} {a₁ a₂ : Store} (h1 : Store.step c a = some (res, a₁))
    (h2 : Store.run calls a₁ = some (rs, a₂)) : Store.run (c :: calls) a = some (res :: rs, a₂) := by
  unfold Store.run
  rw [h1]
  simp only [Option.bind_eq_bind, Option.bind_some]
  rw [h2]
  rfl

theorem run_one {c : Call} {res : Res Unit} {a₁ : Store} (h1 : Store.step c a = some (res, a₁)) :
    Store.run [c] a = some ([res], a₁) := run_cons h1 rfl

/-- Open a writer, write chunks, flush or drop it. -/
theorem store_append (hq : a.used ≤ dataBlocks a.type) (hk : a.handles[k]? = some (some i))
    (hg : a.slots[i]? = some (some g)) (hw : a.writing i = false) (chunks : List (List Byte))
    {fin : Call} {ws : List StoreWriter}
    (hfin : (fin = .flush a.writers.length ∧ ws = a.writers ++ [⟨i, false⟩]) ∨
      (fin = .drop a.writers.length ∧ ws = a.writers)) :
    ∃ rs, Store.run (.openWriter k :: (chunks.map (Call.write a.writers.length) ++ [fin])) a =
        some (.ok () :: (rs ++ [.ok ()]), { a with
          slots := a.slots.set i
            (some { g with data := (g.data ++ chunks.flatten).take (capOf a g) })
          writers := ws, saved := true }) ∧
      (g.data.length + chunks.flatten.length ≤ capOf a g ↔ ∀ r ∈ rs, r = .ok ()) ∧
      ∀ r ∈ rs, r = .ok () ∨ r = fail .diskFull := by
  have h1 : Store.step (.openWriter k) a =
      some (.ok (), { a with writers := a.writers ++ [⟨i, true⟩] }) := by
    simp only [Store.step]
    rw [hk]
    simp [hw]
  have hwl : (a.writers ++ [(⟨i, true⟩ : StoreWriter)])[a.writers.length]? = some ⟨i, true⟩ := by
    simp
  obtain ⟨rs, sv, hrun, hiff, hres⟩ := store_writes chunks
    (a := { a with writers := a.writers ++ [⟨i, true⟩] }) (w := a.writers.length) (i := i)
    (p := true) (g := g) hq hwl hg
  refine ⟨rs, ?_, hiff, hres⟩
  refine run_cons h1 (Store.run_append hrun ?_)
  have hset : (a.writers ++ [(⟨i, true⟩ : StoreWriter)]).set a.writers.length
      ⟨i, true || !chunks.isEmpty⟩ = a.writers ++ [⟨i, true⟩] := by simp
  rw [hset]
  rcases hfin with ⟨rfl, rfl⟩ | ⟨rfl, rfl⟩
  · apply run_one
    simp only [Store.step]
    rw [hwl]
    simp [capOf, Store.room, Store.used, Store.files]
  · apply run_one
    simp only [Store.step]
    rw [hwl]
    simp only [Bool.or_true, Option.some.injEq, Prod.mk.injEq, true_and]
    rw [List.eraseIdx_append_of_length_le (Nat.le_refl _)]
    simp [capOf, Store.room, Store.used, Store.files]

theorem reads_unique {d : Device} {f : File} {c c' : List Byte} (h : Reads d f c)
    (h' : Reads d f c') : c = c' := by
  have h1 := h.1
  rw [h'.1] at h1
  exact (Except.ok.inj h1).symm

theorem readsHandle_unique {c c' : List Byte} (h : ReadsHandle x k c)
    (h' : ReadsHandle x k c') : c = c' := by
  obtain ⟨f, r, hf, hr⟩ := h
  obtain ⟨f', r', hf', hr'⟩ := h'
  rw [hf] at hf'
  cases hf'
  exact reads_unique hr hr'

theorem readsName_unique {name c c' : List Byte} (h : ReadsName disk name c)
    (h' : ReadsName disk name c') : c = c' := by
  obtain ⟨f, r, hf, hr⟩ := h
  obtain ⟨f', r', hf', hr'⟩ := h'
  rw [hf] at hf'
  cases hf'
  exact reads_unique hr hr'

theorem Spec.Reaches.shows (h : Reaches x a) : Shows x a := by
  obtain ⟨s, v, r, b, hrep⟩ := h.rep
  exact hrep.shows

theorem Spec.Reaches.good (h : Reaches x a) : a.Good := by
  obtain ⟨s, v, r, b, hrep⟩ := h.rep
  exact hrep.good

theorem Spec.Reaches.writers (h : Reaches x a) : x.writers.length = a.writers.length := by
  obtain ⟨s, v, r, b, hrep⟩ := h.rep
  exact hrep.writersLen

theorem Spec.Reaches.files (h : Reaches x a) : x.files.length = a.handles.length := by
  obtain ⟨s, v, r, b, hrep⟩ := h.rep
  exact hrep.filesLen

/-- A live handle belongs to a file. -/
theorem Spec.Reaches.handle (h : Reaches x a) (hk : a.handles[k]? = some (some i)) :
    ∃ g, a.slots[i]? = some (some g) := by
  obtain ⟨s, v, r, b, hrep⟩ := h.rep
  obtain ⟨file, f, -, hh⟩ := hrep.handles k i hk
  obtain ⟨g, hg, -⟩ := hrep.slots.some_left hh.slot
  exact ⟨g, hg⟩

theorem Spec.Reaches.one (h : Reaches x a) {c : Call} {res : Res Unit}
    (hs : Store.step c a = some (res, a')) :
    ∃ x', Session.step c x = (res, x') ∧ Reaches x' a' := by
  obtain ⟨x', hr, hx⟩ := h.run (run_one hs)
  refine ⟨x', ?_, hx⟩
  simp only [runs, Prod.mk.injEq, List.cons.injEq, and_true] at hr
  exact Prod.ext hr.1 hr.2

theorem read_eq (hg : a.slots[i]? = some (some g))
    (hw : ∀ w ∈ a.writers, w.slot = i → w.pending = false) : a.read i = some g.data := by
  unfold Store.read
  rw [file?_eq.2 hg]
  simp only
  rw [if_neg]
  intro h
  obtain ⟨w, hw', hp⟩ := List.any_eq_true.1 h
  simp only [Bool.and_eq_true, beq_iff_eq] at hp
  rw [hw w hw' hp.1] at hp
  cases hp.2

/-- A slot was found for a new file. -/
theorem reserve_cases {a₁ : Store} (h : a.reserve = some (a₁, i)) :
    (a₁ = a ∨ a₁ = a.grow) ∧ a₁.slots[i]? = some none ∧
      (∀ (j : Nat) (y : Option StoredFile), a.slots[j]? = some y → a₁.slots[j]? = some y) ∧
      (∀ (j : Nat) (g : StoredFile), a₁.slots[j]? = some (some g) → a.slots[j]? = some (some g)) ∧
      a₁.files = a.files ∧ a₁.handles = a.handles ∧ a₁.writers = a.writers ∧ a₁.type = a.type ∧
      a₁.label = a.label := by
  unfold Store.reserve at h
  split at h
  · rename_i j hj
    obtain ⟨rfl, rfl⟩ := Prod.mk.inj (Option.some.inj h)
    exact ⟨.inl rfl, (empty_some_iff.1 hj).1, fun _ _ h => h, fun _ _ h => h, rfl, rfl, rfl, rfl, rfl⟩
  · split at h
    · obtain ⟨rfl, rfl⟩ := Prod.mk.inj (Option.some.inj h)
      refine ⟨.inr rfl, ?_, ?_, ?_, ?_, rfl, rfl, rfl, rfl⟩
      · simp
      · intro j y hj
        simp only
        rw [List.getElem?_append_left (List.getElem?_eq_some_iff.1 hj).1]
        exact hj
      · intro j g hj
        simp only at hj
        by_cases hlt : j < a.slots.length
        · rwa [List.getElem?_append_left hlt] at hj
        · rw [List.getElem?_append_right (by omega)] at hj
          have := List.mem_of_getElem? hj
          cases (List.mem_replicate.1 this).2
      · simp [Store.files]
    · cases h

/-- A successful creation. -/
theorem create_ok {name : Petscii} {type : FileType} {scheme : Scheme}
    (h : Store.step (.create name type scheme) a = some (.ok (), a')) :
    scheme = .linear ∧ type.toByte &&& 0x0F ≠ 4 ∧ name.length ≤ 16 ∧ a.find name = none ∧
    ∃ a₁ i, a.reserve = some (a₁, i) ∧ 0 < a.room ∧
      a' = { a₁.put i (some ⟨storedName name, type.toByte ||| 0x80, []⟩) with
        handles := a.handles ++ [some i], saved := false } := by
  simp only [Store.step] at h
  split at h
  · cases h
  · rename_i hc
    split at h
    · simp [fail] at h
    · rename_i hn
      split at h
      · simp [fail] at h
      · rename_i hf
        split at h
        · simp [fail] at h
        · rename_i a₁ i hr
          split at h
          · simp [fail] at h
          · rename_i hroom
            have hh := reserve_cases hr
            simp only [Option.some.injEq, Prod.mk.injEq, true_and] at h
            refine ⟨Decidable.byContradiction fun e => hc (.inl e), fun e => hc (.inr e), by omega,
              by simpa using hf, a₁, i, hr, ?_, ?_⟩
            · have : a₁.room = a.room := by
                unfold Store.room Store.used
                rw [hh.2.2.2.2.1, hh.2.2.2.2.2.2.2.1]
              omega
            · rw [← h, hh.2.2.2.2.2.1]

end Cbm
