import Verif.Props.Directory
/-!
# Names (C25)
-/

namespace Cbm
open Spec

variable {i j k r : Nat} {a a' a₁ : Store} {x x' : Session} {res : Res Unit}
  {g g' : StoredFile} {disk : Disk} {calls : List Call} {rs : List (Res Unit)} {name : Petscii}
  {type : FileType} {c : Call}

/-- **C25** After a successful create, looking the name up gives the entry the new handle
is for: an entry of that name, and an empty file. -/
theorem C25_created_is_found (h : Reaches x a) (ht : type.toByte &&& 0x0F ≠ 4)
    (hname : name.getLast? ≠ some 0xA0)
    (hrun : Session.step (.create name type .linear) x = (.ok (), x')) :
    ∃ e opened r, x'.disk.openFile name = .ok (.linear e, r) ∧ e.filename = name ∧
      e.attributes.toByte = type.toByte ||| 0x80 ∧
      x'.files = x.files ++ [(.linear opened, r)] ∧ opened.position = e.position ∧
      opened.firstSector = e.firstSector ∧ ReadsName x'.disk name [] := by
  obtain ⟨res, a', hs⟩ := create_total (type := type) ht name a
  obtain ⟨x₁, hx₁, hr₁⟩ := h.one hs
  rw [hrun] at hx₁
  cases hx₁
  obtain ⟨i, hc⟩ := created h.good.quota hs
  have hst := storedName_plain hname
  have hfind : a'.find name = some i := by
    refine find_of hc.slot hst ?_
    intro j g' hj hg'
    exact hc.absent j g' ((hc.others j g' hj).1 hg')
  obtain ⟨s, v, r, b, hrep⟩ := hr₁.rep
  have hk : a'.handles[a.handles.length]? = some (some i) := by rw [hc.handles]; simp
  obtain ⟨file, f, hfile, hh⟩ := hrep.handles _ i hk
  obtain ⟨opened, ex, rfl, hpos, hfs, -⟩ := hh.entry
  have hfiles : x'.files = x.files ++ [(.linear opened, r)] := by
    have hx : ∃ e q, x'.files = x.files ++ [(.linear e, q)] := by
      generalize hcr : Disk.createFile name type .linear x.disk = out at *
      obtain ⟨res, disk'⟩ := out
      cases res with
      | error e =>
        simp only [Session.step] at hrun
        rw [M.bind_of_error (onDisk_run hcr)] at hrun
        cases hrun
      | ok p =>
        simp only [Session.step] at hrun
        rw [M.bind_of_ok (onDisk_run hcr)] at hrun
        cases hrun
        exact ⟨_, _, rfl⟩
    obtain ⟨e, q, hx⟩ := hx
    rw [hx, ← h.files] at hfile
    simp only [List.getElem?_concat_length, Option.some.injEq] at hfile
    rw [hx, hfile]
  rcases hrep.find name with ⟨j, fj, gj, hfj, hgj, hfg, hfd, hn, hent⟩ | ⟨hno, -⟩
  · rw [hfind] at hfd
    cases hfd
    have hff := hh.file_unique hfj
    subst hff
    have hop := openFile_ready hrep.ready hent
    rw [hc.slot] at hgj
    cases hgj
    refine ⟨_, opened, r, hop, hn, (attr_toByte_fromByte _).trans hfg.attr, hfiles, hpos, hfs, ?_⟩
    · refine hr₁.shows.reads name _ _ hfind (read_eq hc.slot ?_)
      intro w hw he
      have := hc.writing h.good
      exact absurd (writing_iff.2 ⟨w, hw, he⟩) (by rw [this]; simp)
  · rw [hfind] at hno
    cases hno

/-- **C25** After a successful rename, looking the new name up gives what looking the old
name up gave before: the same file, under the new name. -/
theorem C25_renamed_is_found (h : Reaches x a) {original new : Petscii}
    (hname : new.getLast? ≠ some 0xA0)
    (hrun : Session.step (.rename original new) x = (.ok (), x')) :
    ∃ e r, x.disk.openFile original = .ok (.linear e, r) ∧
      x'.disk.openFile new = .ok (.linear { e with filename := new }, r) := by
  obtain ⟨s, v, r, b, hrep⟩ := h.rep
  have run : ∀ (res : Res Unit) (disk' : Disk), Disk.rename original new x.disk = (res, disk') →
      Session.step (.rename original new) x = (res, { x with disk := disk' }) :=
    fun _ _ hr => onDisk_run hr
  rcases rename_ready hrep.ready original new with ⟨hno, hr⟩ | ⟨i, f, hi, hn, hfirst, hcase⟩
  · rw [run _ _ hr] at hrun
    cases hrun
  rcases hcase with ⟨hlen, hr⟩ | ⟨hlen, hnew, hr⟩ | ⟨hlen, hno, d', hr, hready, -, hd'⟩
  · rw [run _ _ hr] at hrun
    cases hrun
  · rw [run _ _ hr] at hrun
    cases hrun
  rw [run _ _ hr] at hrun
  cases hrun
  have hst := storedName_plain hname
  rw [hst] at hready
  refine ⟨f.entry (slotPos v.dir i), r, ?_, ?_⟩
  · rcases find_ready hrep.ready original with ⟨j, fj, hj, hnj, hbefore, hent⟩ | ⟨hall, -⟩
    · have hij : j = i := by
        rcases Nat.lt_trichotomy j i with hlt | heq | hgt
        · exact absurd hnj (hfirst j fj hlt hj)
        · exact heq
        · exact absurd hn (hbefore i f hgt hi)
      subst hij
      rw [hi] at hj
      cases hj
      exact openFile_ready hrep.ready hent
    · exact absurd hn (hall f (mem_files.2 ⟨_, hi⟩))
  · rcases find_ready hready new with ⟨j, fj, hj, hnj, hbefore, hent⟩ | ⟨hall, -⟩
    · have hij : j = i := by
        apply Decidable.byContradiction
        intro hne
        rw [set_slot_ne hne] at hj
        exact hno fj (mem_files.2 ⟨_, hj⟩) hnj
      subst hij
      rw [set_slot (slot_lt hi)] at hj
      cases hj
      exact openFile_ready hready hent
    · exact absurd rfl (hall { f with name := new } (mem_files.2 ⟨i, set_slot (slot_lt hi)⟩))

/-- No two files of the store have the same name. -/
def Spec.Store.Distinct (a : Store) : Prop :=
  ∀ (i j : Nat) (g g' : StoredFile), a.slots[i]? = some (some g) → a.slots[j]? = some (some g') →
    g.name = g'.name → i = j

/-- The name a call gives to a file. -/
def givenName : Call → Option Petscii
  | .create name _ _ => some name
  | .rename _ new => some new
  | _ => none

theorem distinct_of (hd : a.Distinct) (h : ∀ (i : Nat) (g : StoredFile),
    a'.slots[i]? = some (some g) → ∃ g', a.slots[i]? = some (some g') ∧ g'.name = g.name) :
    a'.Distinct := by
  intro i j g g' hi hj hn
  obtain ⟨p, hp, hpn⟩ := h i g hi
  obtain ⟨q, hq, hqn⟩ := h j g' hj
  exact hd i j p q hp hq (by rw [hpn, hqn, hn])

theorem distinct_reserve (hd : a.Distinct) (hr : a.reserve = some (a₁, i)) : a₁.Distinct :=
  distinct_of hd fun j g hj => ⟨g, (reserve_cases hr).2.2.2.1 j g hj, rfl⟩

theorem distinct_step (hq : a.used ≤ dataBlocks a.type) (hd : a.Distinct)
    (hs : Store.step c a = some (res, a'))
    (hn : ∀ n, givenName c = some n → n.getLast? ≠ some 0xA0) : a'.Distinct := by
  cases c with
  | create name type scheme =>
    have hst := storedName_plain (hn name rfl)
    cases res with
    | ok u =>
      have hlin := (create_ok hs).1
      subst hlin
      obtain ⟨i, hc⟩ := created hq hs
      have key : ∀ (j j' : Nat) (g g' : StoredFile), a'.slots[j]? = some (some g) →
          a'.slots[j']? = some (some g') → g.name = g'.name → j = i → j' = i := by
        rintro j j' g g' hg hg' hnn rfl
        apply Decidable.byContradiction
        intro hne
        rw [hc.slot] at hg
        cases hg
        exact hc.absent j' g' ((hc.others j' g' hne).1 hg') (hnn.symm.trans hst)
      intro j j' g g' hg hg' hnn
      by_cases hj : j = i
      · exact hj.trans (key j j' g g' hg hg' hnn hj).symm
      · by_cases hj' : j' = i
        · exact absurd (key j' j g' g hg' hg hnn.symm hj') hj
        · exact hd j j' g g' ((hc.others j g hj).1 hg) ((hc.others j' g' hj').1 hg') hnn
    | error e =>
      simp only [Store.step] at hs
      split at hs
      · cases hs
      · split at hs
        · cases hs; exact hd
        · split at hs
          · cases hs; exact hd
          · split at hs
            · cases hs; exact hd
            · rename_i hr
              split at hs
              · cases hs
                exact distinct_reserve hd hr
              · cases hs
  | rename original new =>
    have hst := storedName_plain (hn new rfl)
    simp only [Store.step] at hs
    split at hs
    · cases hs; exact hd
    · rename_i i hi
      split at hs
      · cases hs; exact hd
      · split at hs
        · cases hs; exact hd
        · rename_i hnew
          have hnone : a.find new = none := by
            cases hf : a.find new with
            | none => rfl
            | some q => rw [hf] at hnew; exact absurd rfl hnew
          split at hs
          · cases hs
          · rename_i g₀ hg₀
            cases hs
            have hlt := (List.getElem?_eq_some_iff.1 (file?_eq.1 hg₀)).1
            have hself : ∀ g : StoredFile,
                (a.put i (some { g₀ with name := storedName new })).slots[i]? = some (some g) →
                g.name = new := by
              intro g hg
              have : (a.slots.set i (some { g₀ with name := storedName new }))[i]? =
                some (some g) := hg
              rw [List.getElem?_set_self hlt] at this
              cases this
              exact hst
            have hother : ∀ (j : Nat) (g : StoredFile), j ≠ i →
                (a.put i (some { g₀ with name := storedName new })).slots[j]? = some (some g) →
                a.slots[j]? = some (some g) := by
              intro j g hj hg
              have : (a.slots.set i (some { g₀ with name := storedName new }))[j]? =
                some (some g) := hg
              rwa [List.getElem?_set_ne (Ne.symm hj)] at this
            have hab := find_none_iff.1 hnone
            intro j j' g g' hg hg' hnn
            by_cases hj : j = i
            · subst hj
              apply Decidable.byContradiction
              intro hne
              exact hab j' g' (hother j' g' (Ne.symm hne) hg') (hnn.symm.trans (hself g hg))
            · by_cases hj' : j' = i
              · subst hj'
                exact absurd (hnn.trans (hself g' hg')) (hab j g (hother j g hj hg))
              · exact hd j j' g g' (hother j g hj hg) (hother j' g' hj' hg') hnn
  | format name id =>
    simp only [Store.step] at hs
    split at hs
    · cases hs
    · cases hs
      intro j j' g g' hg
      simp only [List.getElem?_replicate] at hg
      split at hg <;> cases hg
  | init =>
    simp only [Store.step] at hs
    split at hs
    · cases hs; exact hd
    · cases hs
  | flushHeader =>
    cases hs; exact hd
  | openFile name =>
    simp only [Store.step] at hs
    split at hs
    · cases hs; exact hd
    · cases hs; exact hd
  | openWriter k =>
    simp only [Store.step] at hs
    split at hs
    · split at hs
      · cases hs
      · cases hs; exact hd
    · cases hs
  | write w buf =>
    simp only [Store.step] at hs
    split at hs
    · cases hs
    · rename_i y hy
      split at hs
      · cases hs
      · rename_i g₀ hg₀
        cases hs
        have hlt := (List.getElem?_eq_some_iff.1 (file?_eq.1 hg₀)).1
        refine distinct_of hd ?_
        intro j g hg
        have hg : (a.slots.set y.slot (some { g₀ with data := _ }))[j]? = some (some g) := hg
        by_cases hj : j = y.slot
        · subst hj
          rw [List.getElem?_set_self hlt] at hg
          cases hg
          exact ⟨g₀, file?_eq.1 hg₀, rfl⟩
        · rw [List.getElem?_set_ne (Ne.symm hj)] at hg
          exact ⟨g, hg, rfl⟩
  | flush w =>
    simp only [Store.step] at hs
    split at hs
    · cases hs
    · cases hs; exact hd
  | drop w =>
    simp only [Store.step] at hs
    split at hs
    · cases hs
    · cases hs; exact hd
  | delete k =>
    simp only [Store.step] at hs
    split at hs
    · rename_i i hk
      split at hs
      · cases hs
      · cases hs
        refine distinct_of hd ?_
        intro j g hg
        have hg : (a.slots.set i none)[j]? = some (some g) := hg
        by_cases hj : j = i
        · subst hj
          rw [List.getElem?_set_self'] at hg
          cases hv : a.slots[j]? with
          | none => rw [hv] at hg; cases hg
          | some y => rw [hv] at hg; cases hg
        · rw [List.getElem?_set_ne (Ne.symm hj)] at hg
          exact ⟨g, hg, rfl⟩
    · cases hs
  | nextFreeDirectoryEntry =>
    simp only [Store.step] at hs
    split at hs
    · cases hs; exact hd
    · rename_i hr
      cases hs
      exact distinct_reserve hd hr
  | _ => simp [Store.step] at hs

theorem distinct_list : ∀ (zs : List (Option StoredFile)),
    (∀ (i j : Nat) (g g' : StoredFile), zs[i]? = some (some g) → zs[j]? = some (some g') →
      g.name = g'.name → i = j) ↔ ((zs.filterMap id).map StoredFile.name).Nodup
  | [] => by simp
  | z :: zs => by
    have ih := distinct_list zs
    have hmem : ∀ n, n ∈ (zs.filterMap id).map StoredFile.name ↔
        ∃ (j : Nat) (g : StoredFile), zs[j]? = some (some g) ∧ g.name = n := by
      intro n
      rw [List.mem_map]
      constructor
      · rintro ⟨g, hg, rfl⟩
        obtain ⟨y, hy, rfl⟩ := List.mem_filterMap.1 hg
        obtain ⟨q, hq⟩ := List.getElem?_of_mem hy
        exact ⟨q, g, hq, rfl⟩
      · rintro ⟨j, g, hg, rfl⟩
        exact ⟨g, List.mem_filterMap.2 ⟨_, List.mem_of_getElem? hg, rfl⟩, rfl⟩
    cases z with
    | none =>
      simp only [List.filterMap_cons, id_eq]
      rw [← ih]
      constructor
      · intro h i j g g' hi hj hn
        have := h (i + 1) (j + 1) g g' (by simpa using hi) (by simpa using hj) hn
        omega
      · intro h i j g g' hi hj hn
        cases i with
        | zero => cases hi
        | succ i =>
          cases j with
          | zero => cases hj
          | succ j =>
            have := h i j g g' (by simpa using hi) (by simpa using hj) hn
            omega
    | some g₀ =>
      simp only [List.filterMap_cons, id_eq, List.map_cons, List.nodup_cons]
      rw [← ih, hmem]
      constructor
      · intro h
        refine ⟨?_, ?_⟩
        · rintro ⟨j, g, hg, hn⟩
          have := h 0 (j + 1) g₀ g rfl (by simpa using hg) hn.symm
          omega
        · intro i j g g' hi hj hn
          have := h (i + 1) (j + 1) g g' (by simpa using hi) (by simpa using hj) hn
          omega
      · rintro ⟨h0, h⟩ i j g g' hi hj hn
        cases i with
        | zero =>
          cases hi
          cases j with
          | zero => rfl
          | succ j => exact absurd ⟨j, g', by simpa using hj, hn.symm⟩ h0
        | succ i =>
          cases j with
          | zero =>
            cases hj
            exact absurd ⟨i, g, by simpa using hi, hn⟩ h0
          | succ j =>
            have := h i j g g' (by simpa using hi) (by simpa using hj) hn
            omega

theorem distinct_iff : a.Distinct ↔ (a.listing.map Prod.fst).Nodup := by
  unfold Store.Distinct Store.listing
  rw [distinct_list, List.map_map]
  rfl

theorem distinct_run : ∀ (calls : List Call) {x : Session} {a a' : Store} {rs : List (Res Unit)},
    Reaches x a → a.Distinct →
    (∀ c ∈ calls, ∀ n, givenName c = some n → n.getLast? ≠ some 0xA0) →
    Store.run calls a = some (rs, a') → a'.Distinct
  | [], x, a, a', rs, _, hd, _, hs => by
    cases hs
    exact hd
  | c :: cs, x, a, a', rs, h, hd, hc, hs => by
    unfold Store.run at hs
    cases h1 : Store.step c a with
    | none => rw [h1] at hs; cases hs
    | some p =>
      obtain ⟨res, a₁⟩ := p
      obtain ⟨x₁, -, hr₁⟩ := h.one h1
      rw [h1] at hs
      cases h2 : Store.run cs a₁ with
      | none => simp [h2] at hs
      | some q =>
        obtain ⟨rs₂, a₂⟩ := q
        simp [h2] at hs
        obtain ⟨-, rfl⟩ := hs
        exact distinct_run cs hr₁ (distinct_step h.good.quota hd h1 (hc c (by simp)))
          (fun c' hc' => hc c' (by simp [hc'])) h2

theorem entries_names {entries : List DirectoryEntry} (h : Reaches x a)
    (hdir : x.disk.directory = .ok entries) :
    entries.map (·.filename) = a.listing.map Prod.fst := by
  have := lists_unique h.shows.lists ⟨_, hdir, rfl⟩
  rw [this, List.map_map]
  rfl

/-- **C25** If the names in the directory are distinct, they stay so through every history
of calls within the contract that gives no file a name ending in a padding byte. -/
theorem C25_names_stay_distinct (h : Reaches x a) {entries : List DirectoryEntry}
    (hdir : x.disk.directory = .ok entries) (hnd : (entries.map (·.filename)).Nodup)
    (hcalls : ∀ c ∈ calls, ∀ n, givenName c = some n → n.getLast? ≠ some 0xA0)
    (hrun : Store.run calls a = some (rs, a')) :
    ∃ x' entries', runs calls x = (rs, x') ∧ x'.disk.directory = .ok entries' ∧
      (entries'.map (·.filename)).Nodup := by
  obtain ⟨x', hx', hr'⟩ := h.run hrun
  obtain ⟨entries', hdir', -⟩ := hr'.shows.lists
  refine ⟨x', entries', hx', hdir', ?_⟩
  rw [entries_names hr' hdir']
  rw [entries_names h hdir] at hnd
  exact distinct_iff.1 (distinct_run calls h (distinct_iff.2 hnd) hcalls hrun)

/-- **C25** The restriction is needed: padding bytes at the end of a name are lost, so such
a name can be created twice. -/
theorem C25_padding_breaks_uniqueness {ty : DiskType} {label : Petscii} {id : Byte × Byte}
    (h : Reaches x (Store.empty ty label id)) :
    ∃ x' entries, runs [.create [0x41, 0xA0] .PRG .linear, .create [0x41, 0xA0] .PRG .linear] x =
        ([.ok (), .ok ()], x') ∧ x'.disk.directory = .ok entries ∧
      entries.map (·.filename) = [[0x41], [0x41]] := by
  obtain ⟨a', ha', hl⟩ : ∃ a', Store.run
      [.create [0x41, 0xA0] .PRG .linear, .create [0x41, 0xA0] .PRG .linear]
      (Store.empty ty label id) = some ([.ok (), .ok ()], a') ∧
      a'.listing.map Prod.fst = [[0x41], [0x41]] := by
    cases ty <;> exact ⟨_, rfl, rfl⟩
  obtain ⟨x', hx', hr'⟩ := h.run ha'
  obtain ⟨entries, hdir, -⟩ := hr'.shows.lists
  exact ⟨x', entries, hx', hdir, (entries_names hr' hdir).trans hl⟩

/-- A disk with distinct names, and calls that go on from there. -/
example (ty : DiskType) : ∃ x a entries rs a', Reaches x a ∧ x.disk.directory = .ok entries ∧
    entries.map (·.filename) = [[0x41], [0x42]] ∧
    Store.run [.create [0x43] .PRG .linear, .rename [0x41] [0x44], .delete 1] a = some (rs, a') ∧
    rs = [.ok (), .ok (), .ok ()] := by
  obtain ⟨x, a, h, hty, hh, hw, hsv, hs⟩ := two_files ty
  obtain ⟨entries, hdir, -⟩ := h.shows.lists
  have hl : a.listing.map Prod.fst = [[0x41], [0x42]] := by
    unfold Store.listing Store.files
    rw [hs]
    rfl
  obtain ⟨rs, a', hrun, hrs⟩ : ∃ rs a',
      Store.run [.create [0x43] .PRG .linear, .rename [0x41] [0x44], .delete 1] a =
        some (rs, a') ∧ rs = [.ok (), .ok (), .ok ()] := by
    obtain ⟨type, label, slots, handles, writers, saved⟩ := a
    cases hty
    cases hh
    cases hw
    cases hs
    cases type <;> exact ⟨_, _, rfl, rfl⟩
  exact ⟨x, a, entries, rs, a', h, hdir, (entries_names h hdir).trans hl, hrun, hrs⟩

end Cbm
