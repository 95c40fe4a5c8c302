import Verif.Lemmas.DiskOps
import Verif.Spec.Store
/-!
# Sessions and the abstract store: the relation
-/

namespace Cbm
open Spec

variable {s : Shape} {v v' v₁ : Volume} {i j r : Nat} {f f' : FileRec} {g g' : StoredFile}
  {b b' : Bam} {a a' : Store} {x x' : Session} {w : ChainWriter} {content : List Byte}

/-- A file and what the store knows about it. -/
structure FileRep (f : FileRec) (g : StoredFile) : Prop where
  name : f.name = g.name
  attr : f.attr = g.attr
  blocks : f.locs.length = blocksFor g.data.length
  shown : f.data <+: g.data

inductive SlotRep : Option FileRec → Option StoredFile → Prop
  | none : SlotRep none none
  | some {f : FileRec} {g : StoredFile} : FileRep f g → SlotRep (some f) (some g)

/-- The slots agree. -/
def SlotsRep (ys : List (Option FileRec)) (zs : List (Option StoredFile)) : Prop :=
  ys.length = zs.length ∧ ∀ (i : Nat) y z, ys[i]? = some y → zs[i]? = some z → SlotRep y z

theorem SlotsRep.none_iff {ys : List (Option FileRec)} {zs : List (Option StoredFile)}
    (h : SlotsRep ys zs) : ys[i]? = some none ↔ zs[i]? = some none := by
  constructor
  · intro hy
    have hlt : i < zs.length := h.1 ▸ (List.getElem?_eq_some_iff.1 hy).1
    have hz : zs[i]? = some zs[i] := List.getElem?_eq_getElem hlt
    have := h.2 i _ _ hy hz
    rw [hz]
    cases hzz : zs[i] with
    | none => rfl
    | some g => rw [hzz] at this; cases this
  · intro hz
    have hlt : i < ys.length := h.1 ▸ (List.getElem?_eq_some_iff.1 hz).1
    have hy : ys[i]? = some ys[i] := List.getElem?_eq_getElem hlt
    have := h.2 i _ _ hy hz
    rw [hy]
    cases hyy : ys[i] with
    | none => rfl
    | some g => rw [hyy] at this; cases this

theorem SlotsRep.some_left {ys : List (Option FileRec)} {zs : List (Option StoredFile)}
    (h : SlotsRep ys zs) (hy : ys[i]? = some (some f)) :
    ∃ g, zs[i]? = some (some g) ∧ FileRep f g := by
  have hlt : i < zs.length := h.1 ▸ (List.getElem?_eq_some_iff.1 hy).1
  have hz : zs[i]? = some zs[i] := List.getElem?_eq_getElem hlt
  have := h.2 i _ _ hy hz
  cases hzz : zs[i] with
  | none => rw [hzz] at this; cases this
  | some g =>
    rw [hzz] at this hz
    cases this with
    | some hfg => exact ⟨g, hz, hfg⟩

theorem SlotsRep.some_right {ys : List (Option FileRec)} {zs : List (Option StoredFile)}
    (h : SlotsRep ys zs) (hz : zs[i]? = some (some g)) :
    ∃ f, ys[i]? = some (some f) ∧ FileRep f g := by
  have hlt : i < ys.length := h.1 ▸ (List.getElem?_eq_some_iff.1 hz).1
  have hy : ys[i]? = some ys[i] := List.getElem?_eq_getElem hlt
  have := h.2 i _ _ hy hz
  cases hyy : ys[i] with
  | none => rw [hyy] at this; cases this
  | some f =>
    rw [hyy] at this hy
    cases this with
    | some hfg => exact ⟨f, hy, hfg⟩

theorem SlotsRep.set {ys : List (Option FileRec)} {zs : List (Option StoredFile)}
    (h : SlotsRep ys zs) {y : Option FileRec} {z : Option StoredFile} (hyz : SlotRep y z) (i : Nat) :
    SlotsRep (ys.set i y) (zs.set i z) := by
  refine ⟨by have := h.1; simpa using this, ?_⟩
  intro j y' z' hy hz
  rw [List.getElem?_set] at hy hz
  by_cases hij : i = j
  · rw [if_pos hij] at hy hz
    split at hy <;> split at hz <;> simp_all
  · rw [if_neg hij] at hy hz
    exact h.2 j _ _ hy hz

theorem SlotsRep.append {ys : List (Option FileRec)} {zs : List (Option StoredFile)}
    (h : SlotsRep ys zs) (n : Nat) :
    SlotsRep (ys ++ List.replicate n none) (zs ++ List.replicate n none) := by
  refine ⟨by have := h.1; simpa using this, ?_⟩
  intro j y z hy hz
  by_cases hj : j < ys.length
  · rw [List.getElem?_append_left hj] at hy
    rw [List.getElem?_append_left (h.1 ▸ hj)] at hz
    exact h.2 j _ _ hy hz
  · rw [List.getElem?_append_right (by omega)] at hy
    rw [List.getElem?_append_right (by have := h.1; omega)] at hz
    have hy' := List.mem_of_getElem? hy
    have hz' := List.mem_of_getElem? hz
    rw [List.mem_replicate] at hy' hz'
    rw [hy'.2, hz'.2]
    exact .none

theorem SlotsRep.used : ∀ {ys : List (Option FileRec)} {zs : List (Option StoredFile)},
    SlotsRep ys zs → ((ys.filterMap id).flatMap FileRec.locs).length =
      ((zs.filterMap id).map fun g => blocksFor g.data.length).sum
  | [], [], _ => rfl
  | [], z :: zs, h => by simp [SlotsRep] at h
  | y :: ys, [], h => by simp [SlotsRep] at h
  | y :: ys, z :: zs, h => by
    have h0 := h.2 0 y z rfl rfl
    have ht : SlotsRep ys zs := ⟨by simpa using h.1, fun i y z hy hz => h.2 (i + 1) y z hy hz⟩
    have ih := SlotsRep.used ht
    cases h0 with
    | none => simpa using ih
    | some hf =>
      simp only [List.filterMap_cons, id_eq, List.flatMap_cons, List.length_append, List.map_cons,
        List.sum_cons, ih, hf.blocks]

/-- The session shows the store: every slot, handle and writer is as the store says. -/
structure Rep (x : Session) (s : Shape) (v : Volume) (r : Nat) (b : Bam) (a : Store) : Prop where
  ready : ReadyAt x.disk s v r b
  type : a.type = s.type
  label : a.label = (v.header.diskName, v.header.diskId)
  slots : SlotsRep v.slots a.slots
  settled : ∀ (i : Nat) (f : FileRec) (g : StoredFile), v.slots[i]? = some (some f) →
    a.slots[i]? = some (some g) →
    (∀ w ∈ a.writers, w.slot = i → w.pending = false) → f.data = g.data
  filesLen : x.files.length = a.handles.length
  handles : ∀ (h i : Nat), a.handles[h]? = some (some i) →
    ∃ file f, x.files[h]? = some (file, r) ∧ Handle file v i f
  writersLen : x.writers.length = a.writers.length
  writers : ∀ (k : Nat) (y : StoreWriter), a.writers[k]? = some y →
    ∃ w f g, x.writers[k]? = some (w, r) ∧ a.slots[y.slot]? = some (some g) ∧
      WRel w v y.slot f g.data ∧ w.dirty = y.pending
  nodup : (a.writers.map StoreWriter.slot).Nodup
  saved : a.saved = true → Synced x.disk.dev s b

theorem Rep.room (h : Rep x s v r b a) : a.room = v.room s.type := by
  unfold Store.room Volume.room
  rw [h.type]
  have := h.slots.used
  unfold Store.used Volume.used Volume.files Store.files
  rw [this]

theorem file?_eq : a.file? i = some g ↔ a.slots[i]? = some (some g) := by
  unfold Store.file?
  cases a.slots[i]? with
  | none => simp
  | some z => cases z <;> simp

theorem find_some_iff {zs : List (Option StoredFile)} {name : List Byte} :
    (zs.findIdx? fun x => x.any fun g => g.name == name) = some i ↔
    (∃ g, zs[i]? = some (some g) ∧ g.name = name) ∧
      ∀ (j : Nat) (g : StoredFile), j < i → zs[j]? = some (some g) → g.name ≠ name := by
  rw [List.findIdx?_eq_some_iff_getElem]
  constructor
  · rintro ⟨hi, hp, hno⟩
    constructor
    · cases hz : zs[i] with
      | none => rw [hz] at hp; simp at hp
      | some g =>
        rw [hz] at hp
        exact ⟨g, by rw [List.getElem?_eq_getElem hi, hz], by simpa using hp⟩
    · intro j g hj hz hn
      have := hno j hj
      have hjl : j < zs.length := by omega
      rw [List.getElem?_eq_getElem hjl] at hz
      rw [Option.some.inj hz] at this
      simp [hn] at this
  · rintro ⟨⟨g, hg, hn⟩, hno⟩
    obtain ⟨hi, hgi⟩ := List.getElem?_eq_some_iff.1 hg
    refine ⟨hi, by rw [hgi]; simp [hn], ?_⟩
    intro j hj
    have hjl : j < zs.length := by omega
    cases hz : zs[j] with
    | none => simp
    | some g' =>
      have := hno j g' hj (by rw [List.getElem?_eq_getElem hjl, hz])
      simpa using this

theorem find_none_iff {zs : List (Option StoredFile)} {name : List Byte} :
    (zs.findIdx? fun x => x.any fun g => g.name == name) = none ↔
    ∀ (j : Nat) (g : StoredFile), zs[j]? = some (some g) → g.name ≠ name := by
  rw [List.findIdx?_eq_none_iff]
  constructor
  · intro h j g hz hn
    have := h _ (List.mem_of_getElem? hz)
    simp [hn] at this
  · intro h z hz
    obtain ⟨j, hj⟩ := List.mem_iff_getElem?.1 hz
    cases z with
    | none => simp
    | some g =>
      have := h j g hj
      simpa using this

theorem Rep.find (h : Rep x s v r b a) (name : Petscii) :
    (∃ (i : Nat) (f : FileRec) (g : StoredFile), v.slots[i]? = some (some f) ∧
      a.slots[i]? = some (some g) ∧ FileRep f g ∧ a.find name = some i ∧ f.name = name ∧
      x.disk.findDirectoryEntry name = .ok (f.entry (slotPos v.dir i))) ∨
    (a.find name = none ∧ (∀ g ∈ v.files, g.name ≠ name) ∧
      x.disk.findDirectoryEntry name = fail .notFound) := by
  rcases find_ready h.ready name with ⟨i, f, hi, hn, hno, hf⟩ | ⟨hno, hf⟩
  · left
    obtain ⟨g, hg, hfg⟩ := h.slots.some_left hi
    refine ⟨i, f, g, hi, hg, hfg, ?_, hn, hf⟩
    unfold Store.find
    rw [find_some_iff]
    refine ⟨⟨g, hg, hfg.name.symm.trans hn⟩, ?_⟩
    intro j g' hj hg' hn'
    obtain ⟨f', hf', hfg'⟩ := h.slots.some_right hg'
    exact hno j f' hj hf' (hfg'.name.trans hn')
  · right
    refine ⟨?_, hno, hf⟩
    unfold Store.find
    rw [find_none_iff]
    intro j g hg hn
    obtain ⟨f', hf', hfg'⟩ := h.slots.some_right hg
    exact hno f' (mem_files.2 ⟨j, hf'⟩) (hfg'.name.trans hn)

theorem Rep.available (h : Rep x s v r b a) (name : Petscii) :
    (a.find name).isSome = true ↔ ∃ g ∈ v.files, g.name = name := by
  rcases h.find name with ⟨i, f, g, hi, _, _, hf, hn, _⟩ | ⟨hf, hno, _⟩
  · rw [hf]
    exact ⟨fun _ => ⟨f, mem_files.2 ⟨i, hi⟩, hn⟩, fun _ => rfl⟩
  · rw [hf]
    constructor
    · intro h; cases h
    · rintro ⟨g, hg, hn⟩
      exact absurd hn (hno g hg)

theorem empty_some_iff {zs : List (Option StoredFile)} :
    zs.findIdx? (· == none) = some i ↔
      zs[i]? = some none ∧ ∀ k : Nat, k < i → zs[k]? ≠ some none := by
  rw [List.findIdx?_eq_some_iff_getElem]
  constructor
  · rintro ⟨hi, hp, hno⟩
    refine ⟨by rw [List.getElem?_eq_getElem hi, eq_of_beq hp], ?_⟩
    intro k hk hz
    have := hno k hk
    have hkl : k < zs.length := by omega
    rw [List.getElem?_eq_getElem hkl] at hz
    rw [Option.some.inj hz] at this
    exact this rfl
  · rintro ⟨hz, hno⟩
    obtain ⟨hi, hg⟩ := List.getElem?_eq_some_iff.1 hz
    refine ⟨hi, by rw [hg]; rfl, ?_⟩
    intro k hk hz'
    have hkl : k < zs.length := by omega
    exact hno k hk (by rw [List.getElem?_eq_getElem hkl, eq_of_beq hz'])

theorem empty_none_iff {zs : List (Option StoredFile)} :
    zs.findIdx? (· == none) = none ↔ ∀ k : Nat, zs[k]? ≠ some none := by
  rw [List.findIdx?_eq_none_iff]
  constructor
  · intro h k hz
    have := h _ (List.mem_of_getElem? hz)
    cases this
  · intro h z hz
    obtain ⟨j, hj⟩ := List.mem_iff_getElem?.1 hz
    cases z with
    | none => exact absurd hj (h j)
    | some g => rfl

theorem Rep.reserve_none (h : Rep x s v r b a) (hno : ∀ k : Nat, v.slots[k]? ≠ some none)
    (hmax : maxSlots s.type = v.slots.length) : a.reserve = none := by
  have he : a.slots.findIdx? (· == none) = none :=
    empty_none_iff.2 fun k hk => hno k (h.slots.none_iff.2 hk)
  unfold Store.reserve
  rw [he]
  simp only []
  rw [if_neg (by rw [h.type, hmax, ← h.slots.1]; exact Nat.lt_irrefl _)]

/-- The store after a slot was reserved. -/
def Spec.Store.grow (a : Store) : Store :=
  { a with slots := a.slots ++ List.replicate 8 none, saved := false }

theorem Rep.reserve_some (h : Rep x s v r b a) (hr : Reserve s v v₁ i) :
    (v₁ = v ∧ a.reserve = some (a, i)) ∨
    ((∃ new, v₁ = v.extend new) ∧ a.reserve = some (a.grow, i)) := by
  cases hr with
  | free hi hfirst =>
    left
    have he : a.slots.findIdx? (· == none) = some i :=
      empty_some_iff.2 ⟨h.slots.none_iff.1 hi, fun k hk hz => hfirst k hk (h.slots.none_iff.2 hz)⟩
    refine ⟨rfl, ?_⟩
    unfold Store.reserve
    rw [he]
  | @fresh new hno hlt _ =>
    right
    have he : a.slots.findIdx? (· == none) = none :=
      empty_none_iff.2 fun k hk => hno k (h.slots.none_iff.2 hk)
    refine ⟨⟨new, rfl⟩, ?_⟩
    unfold Store.reserve
    rw [he]
    simp only []
    rw [if_pos (by rw [h.type, ← h.slots.1]; exact hlt), h.slots.1]
    rfl

/-! ## Handles and writers when the volume changes -/

theorem Handle.other {file : File} (h : Handle file v i f) (hij : j ≠ i) {y : Option FileRec} :
    Handle file (v.set j y) i f :=
  ⟨by rw [set_slot_ne (Ne.symm hij)]; exact h.slot, h.entry⟩

theorem Handle.same {file : File} (h : Handle file v i f) (hf : f'.first = f.first) :
    Handle file (v.set i (some f')) i f' := by
  refine ⟨set_slot (slot_lt h.slot), ?_⟩
  obtain ⟨e, y, h1, h2, h3, h4, h5, h6⟩ := h.entry
  exact ⟨e, y, h1, h2, by rw [hf]; exact h3, h4, h5, h6⟩

theorem Handle.extend {file : File} {new : Location} (h : Handle file v i f)
    (hc : v.slots.length = 8 * v.dir.length) : Handle file (v.extend new) i f := by
  refine ⟨extend_slot_some h.slot, ?_⟩
  obtain ⟨e, y, h1, h2, h3⟩ := h.entry
  exact ⟨e, y, h1, by rw [extend_pos hc (slot_lt h.slot)]; exact h2, h3⟩

theorem Handle.file_unique {file : File} (h : Handle file v i f) (hi : v.slots[i]? = some (some f')) :
    f' = f := by
  have := h.slot
  rw [hi] at this
  exact Option.some.inj (Option.some.inj this)

theorem WRel.extend {new : Location} (h : WRel w v i f content)
    (hc : v.slots.length = 8 * v.dir.length) : WRel w (v.extend new) i f content :=
  { h with
    slot := extend_slot_some h.slot
    pos := by rw [extend_pos hc (slot_lt h.slot)]; exact h.pos }

theorem WRel.renamed {n : List Byte} (h : WRel w v i f content) :
    WRel w (v.set i (some { f with name := n })) i { f with name := n } content :=
  { h with slot := set_slot (slot_lt h.slot), pos := h.pos }

theorem tight_blocks (h : WRel w v i f content) (ht : Tight f content) :
    f.locs.length = blocksFor content.length := by
  have h1 := h.le_cap 0
  have h2 := h.locs_pos
  unfold blocksFor
  rcases ht with ht | ht <;> omega

theorem blocks_tight (h : f.locs.length = blocksFor content.length) : Tight f content := by
  unfold blocksFor at h
  unfold Tight
  by_cases hl : f.locs.length = 1
  · exact .inl hl
  · right
    omega

/-! ## Updating the relation -/

theorem Rep.onDisk (h : Rep x s v r b a) : OnDisk x.disk.dev s v := h.ready.onDisk

theorem Rep.touch (h : Rep x s v r b a) (hi : v.slots[i]? = some (some f))
    (hfirst : f'.first = f.first) (hfg : FileRep f' g')
    (ht : a'.type = a.type) (hlb : a'.label = a.label) (hsl : a'.slots = a.slots.set i (some g'))
    (hh : a'.handles = a.handles) (hx : x'.files = x.files)
    (hd : ReadyAt x'.disk s (v.set i (some f')) r b')
    (hwl : x'.writers.length = a'.writers.length)
    (hws : ∀ (k : Nat) (y : StoreWriter), a'.writers[k]? = some y → y.slot ≠ i →
      ∃ k' : Nat, a.writers[k']? = some y ∧ x'.writers[k]? = x.writers[k']?)
    (hwi : ∀ (k : Nat) (y : StoreWriter), a'.writers[k]? = some y → y.slot = i →
      ∃ w, x'.writers[k]? = some (w, r) ∧ WRel w (v.set i (some f')) i f' g'.data ∧
        w.dirty = y.pending)
    (hwb : ∀ y ∈ a.writers, y.slot ≠ i → y ∈ a'.writers)
    (hnd : (a'.writers.map StoreWriter.slot).Nodup)
    (hset : (∀ w ∈ a'.writers, w.slot = i → w.pending = false) → f'.data = g'.data)
    (hsv : a'.saved = true → Synced x'.disk.dev s b') :
    Rep x' s (v.set i (some f')) r b' a' where
  ready := hd
  type := ht.trans h.type
  label := hlb.trans h.label
  slots := by
    rw [hsl]
    exact h.slots.set (.some hfg) i
  settled := by
    intro j fj gj hfj hgj hw
    by_cases hij : j = i
    · subst hij
      rw [set_slot (slot_lt hi)] at hfj
      rw [hsl, List.getElem?_set_self (by have := slot_lt hi; have := h.slots.1; omega)] at hgj
      have h1 := Option.some.inj (Option.some.inj hfj)
      have h2 := Option.some.inj (Option.some.inj hgj)
      rw [← h1, ← h2]
      exact hset hw
    · rw [set_slot_ne hij] at hfj
      rw [hsl, List.getElem?_set_ne (Ne.symm hij)] at hgj
      refine h.settled j fj gj hfj hgj fun w hw' hs => hw w (hwb w hw' ?_) hs
      rw [hs]
      exact hij
  filesLen := by rw [hx, hh]; exact h.filesLen
  handles := by
    intro k j hk
    rw [hh] at hk
    obtain ⟨file, fj, hfile, hhan⟩ := h.handles k j hk
    rw [hx]
    by_cases hij : j = i
    · subst hij
      have hff := hhan.file_unique hi
      subst hff
      exact ⟨file, f', hfile, hhan.same hfirst⟩
    · exact ⟨file, fj, hfile, hhan.other (Ne.symm hij)⟩
  writersLen := hwl
  writers := by
    intro k y hk
    by_cases hij : y.slot = i
    · obtain ⟨w, hw, hr, hdy⟩ := hwi k y hk hij
      refine ⟨w, f', g', hw, ?_, ?_, hdy⟩
      · rw [hsl, hij, List.getElem?_set_self (by have := slot_lt hi; have := h.slots.1; omega)]
      · rw [hij]; exact hr
    · obtain ⟨k', hk', hxw⟩ := hws k y hk hij
      obtain ⟨w, fj, gj, hw, hgj, hr, hdy⟩ := h.writers k' y hk'
      refine ⟨w, fj, gj, hxw.trans hw, ?_, hr.other (Ne.symm hij), hdy⟩
      rw [hsl, List.getElem?_set_ne (Ne.symm hij)]
      exact hgj
  nodup := hnd
  saved := hsv

theorem Rep.writer_unique (h : Rep x s v r b a) {k k' : Nat} {y y' : StoreWriter}
    (hk : a.writers[k]? = some y) (hk' : a.writers[k']? = some y') (hs : y.slot = y'.slot) :
    k = k' := by
  obtain ⟨hl, he⟩ := List.getElem?_eq_some_iff.1 hk
  obtain ⟨hl', he'⟩ := List.getElem?_eq_some_iff.1 hk'
  have hn := h.nodup
  rw [List.nodup_iff_pairwise_ne, List.pairwise_iff_getElem] at hn
  rcases Nat.lt_trichotomy k k' with hlt | heq | hlt
  · have := hn k k' (by simpa using hl) (by simpa using hl') hlt
    simp [he, he', hs] at this
  · exact heq
  · have := hn k' k (by simpa using hl') (by simpa using hl) hlt
    simp [he, he', hs] at this

theorem writing_iff : a.writing i = true ↔ ∃ y ∈ a.writers, y.slot = i := by
  unfold Store.writing
  rw [List.any_eq_true]
  simp

end Cbm
