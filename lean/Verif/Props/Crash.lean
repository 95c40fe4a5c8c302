import Verif.Lemmas.Crash
/-!
# Crash points (C21, C61)
-/

namespace Cbm
open Spec

variable {s : Shape} {v v' v₁ : Volume} {i j k r r' w : Nat} {b b' : Bam} {a a' : Store} {x x' : Session}
  {disk disk' : Disk} {f f' : FileRec} {g : StoredFile} {name original new : Petscii}
  {content : List Byte} {type : FileType} {d d' : Device} {image : Image} {P : Device → Prop}
  {fin : Call} {rs : List (Res Unit)}

/-! ## C21: appending -/

/-- What is on the disk while a writer is used and closed. -/
theorem writes_steps : ∀ (chunks : List (List Byte)) {x : Session} {v : Volume} {b : Bam} {a : Store}
    {f : FileRec} {g : StoredFile} {y : StoreWriter}, Rep x s v r b a → a.writers[w]? = some y →
    v.slots[y.slot]? = some (some f) → a.slots[y.slot]? = some (some g) → Closes fin w →
    Steps s (Growing s v y.slot f ((g.data ++ chunks.flatten).take (capOf a g))) x.disk.dev
      (runs (chunks.map (Call.write w) ++ [fin]) x).2.disk.dev
  | [], x, v, b, a, f, g, y, h, hw, hi, hg, hfin => by
    rw [List.flatten_nil, List.append_nil, List.take_of_length_le (le_cap a g)]
    rcases hfin with rfl | rfl
    · obtain ⟨z, hrun, -, -, hst⟩ := flush_rep h hw hi hg
      have : Session.step (.flush w) x = _ := hrun
      rw [List.map_nil, List.nil_append, runs_cons _ _ this]
      exact hst
    · obtain ⟨x', hrun, -, -, hst⟩ := drop_rep h hw hi hg
      rw [List.map_nil, List.nil_append, runs_cons _ _ hrun]
      exact hst
  | c :: cs, x, v, b, a, f, g, y, h, hw, hi, hg, hfin => by
    obtain ⟨x₁, f₁, b₁, hrun, hrep, hgr, hst, -⟩ := write_rep c h hw hi hg
    have hcap := cap_write h.good.quota hg (data := (g.data ++ c).take (capOf a g))
      (by rw [List.length_take]; omega)
    have hlt := (List.getElem?_eq_some_iff.1 hw).1
    have hla := (List.getElem?_eq_some_iff.1 hg).1
    have ih := writes_steps cs (f := f₁) (y := ⟨y.slot, true⟩) hrep
      (g := { g with data := (g.data ++ c).take (capOf a g) }) (List.getElem?_set_self hlt)
      (set_slot (slot_lt hi)) (List.getElem?_set_self hla) hfin
    rw [List.map_cons, List.cons_append, runs_cons _ _ hrun, List.flatten_cons]
    have hc2 : capOf { a with
        slots := a.slots.set y.slot (some { g with
          data := (g.data ++ c).take (capOf a g) })
        writers := a.writers.set w ⟨y.slot, true⟩
        saved := false } { g with data := (g.data ++ c).take (capOf a g) } = capOf a g := by
      exact hcap.2
    refine (hst.mono ?_).trans (ih.mono ?_)
    · intro d hd
      refine hd.mono ?_
      show (g.data ++ c).take (capOf a g) <+: _
      rw [← List.append_assoc, List.take_append (l₁ := g.data ++ c)]
      exact List.prefix_append _ _
    · intro d hd
      have hd := hd.base hgr
      refine hd.mono ?_
      show List.take (capOf { a with
          slots := a.slots.set y.slot (some { g with data := (g.data ++ c).take (capOf a g) })
          writers := a.writers.set w ⟨y.slot, true⟩
          saved := false } { g with data := (g.data ++ c).take (capOf a g) })
        ((g.data ++ c).take (capOf a g) ++ cs.flatten) <+: _
      rw [hc2, take_append_take, List.append_assoc]
      exact List.prefix_refl _

/-- What a program sees after a crash while a file was growing. -/
theorem growing_view (h : Opened disk s v) (hi : v.slots[i]? = some (some f))
    (hb : ∀ (j : Nat) (g : FileRec), j < i → v.slots[j]? = some (some g) → g.name ≠ f.name)
    (hd : Growing s v i f content d) :
    ∃ disk' data, Disk.new s.type d.image = .ok disk' ∧ f.data <+: data ∧ data <+: content ∧
      ReadsName disk' f.name data ∧
      (∀ other, other ≠ f.name →
        (∀ data, ReadsName disk' other data ↔ ReadsName disk other data) ∧
        (disk'.openFile other = fail .notFound ↔ disk.openFile other = fail .notFound)) ∧
      disk'.header = disk.header ∧
      ∃ es es', disk.directory = .ok es ∧ disk'.directory = .ok es' ∧ entriesOf es' = entriesOf es := by
  obtain ⟨f', hod, ha, hn, he, hf, h1, h2⟩ := hd
  obtain ⟨disk', hnew, hop⟩ := opens hod h.noGeos
  have hlt := slot_lt hi
  have hset : ∀ (j : Nat) (q : FileRec), (v.set i (some f')).slots[j]? = some (some q) →
      ∃ q', v.slots[j]? = some (some q') ∧ q'.name = q.name ∧ (j ≠ i → q' = q) := by
    intro j q hj
    by_cases hji : j = i
    · subst hji
      rw [set_slot hlt] at hj
      cases hj
      exact ⟨f, hi, hn.symm, fun hne => absurd rfl hne⟩
    · rw [set_slot_ne hji] at hj
      exact ⟨q, hj, rfl, fun _ => rfl⟩
  have hget : ∀ (j : Nat) (q : FileRec), v.slots[j]? = some (some q) →
      ∃ q', (v.set i (some f')).slots[j]? = some (some q') ∧ q'.name = q.name ∧ (j ≠ i → q' = q) := by
    intro j q hj
    by_cases hji : j = i
    · subst hji
      rw [hi] at hj
      cases hj
      exact ⟨f', set_slot hlt, hn, fun hne => absurd rfl hne⟩
    · exact ⟨q, by rw [set_slot_ne hji]; exact hj, rfl, fun _ => rfl⟩
  refine ⟨disk', f'.data, hnew, h1, h2, ?_, ?_, by rw [hop.header, h.header]; rfl,
    v.listing, (v.set i (some f')).listing, h.directory, hop.directory, ?_⟩
  · rw [hop.readsName]
    refine ⟨i, f', set_slot hlt, hn, ?_, rfl⟩
    intro j q hj hq
    obtain ⟨q', hq', hqn, -⟩ := hset j q hq
    rw [← hqn]
    exact hb j q' hj hq'
  · intro other hne
    constructor
    · intro data
      rw [hop.readsName, h.readsName]
      constructor
      · rintro ⟨j, q, hj, hq, hbefore, hdata⟩
        have hji : j ≠ i := by
          rintro rfl
          rw [set_slot hlt] at hj
          cases hj
          exact hne (hq.symm.trans hn)
        rw [set_slot_ne hji] at hj
        refine ⟨j, q, hj, hq, ?_, hdata⟩
        intro j' q' hj' hq'
        obtain ⟨q'', hq'', hqn, -⟩ := hget j' q' hq'
        rw [← hqn]
        exact hbefore j' q'' hj' hq''
      · rintro ⟨j, q, hj, hq, hbefore, hdata⟩
        have hji : j ≠ i := by
          rintro rfl
          rw [hi] at hj
          cases hj
          exact hne hq.symm
        refine ⟨j, q, by rw [set_slot_ne hji]; exact hj, hq, ?_, hdata⟩
        intro j' q' hj' hq'
        obtain ⟨q'', hq'', hqn, -⟩ := hset j' q' hq'
        rw [← hqn]
        exact hbefore j' q'' hj' hq''
    · rw [hop.missing, h.missing]
      constructor
      · intro hno q hq
        obtain ⟨j, hj⟩ := mem_files.1 hq
        obtain ⟨q', hq', hqn, -⟩ := hget j q hj
        rw [← hqn]
        exact hno q' (mem_files.2 ⟨j, hq'⟩)
      · intro hno q hq
        obtain ⟨j, hj⟩ := mem_files.1 hq
        obtain ⟨q', hq', hqn, -⟩ := hset j q hj
        rw [← hqn]
        exact hno q' (mem_files.2 ⟨j, hq'⟩)
  · unfold entriesOf Volume.listing
    rw [List.map_filterMap, List.map_filterMap]
    have hl : (v.set i (some f')).slots.length = v.slots.length := by simp [Volume.set]
    rw [hl]
    refine filterMap_congr_left fun j _ => ?_
    by_cases hji : j = i
    · subst hji
      rw [set_slot hlt, hi]
      simp only [Option.map_some, FileRec.entry, ha, hn, he, hf]
      rfl
    · rw [set_slot_ne hji]
      rfl

/-- The sector writes of an append. -/
theorem append_steps (hrep : Rep x s v r b a) (hw : ∀ i, a.find name = some i → a.writing i = false)
    (hc : ReadsName x.disk name content) (chunks : List (List Byte))
    (hfin : Closes fin x.writers.length)
    (hrun : runs (appendNameCalls x name chunks fin) x = (rs, x')) :
    ∃ (i : Nat) (f : FileRec) (n : Nat), v.slots[i]? = some (some f) ∧
      (∀ (j : Nat) (q : FileRec), j < i → v.slots[j]? = some (some q) → q.name ≠ f.name) ∧
      f.name = name ∧ f.data = content ∧
      Steps s (Growing s v i f ((content ++ chunks.flatten).take n)) x.disk.dev x'.disk.dev := by
  rcases hrep.find name with ⟨i, f, g, hi, hg, hfg, hfind, hn, hf⟩ | ⟨-, -, hf⟩
  · have hnw := hw i hfind
    have hb : ∀ (j : Nat) (q : FileRec), j < i → v.slots[j]? = some (some q) → q.name ≠ f.name := by
      intro j q hj hq
      obtain ⟨q', hq', hqq⟩ := hrep.slots.some_left hq
      rw [hqq.name, hn]
      exact (find_some_iff.1 hfind).2 j q' hj hq'
    have hdata : f.data = content := by
      refine readsName_unique ?_ hc
      exact hrep.ready.opened.readsName.2 ⟨i, f, hi, hn, fun j q hj hq => hn ▸ hb j q hj hq, rfl⟩
    have hgd : g.data = f.data := by
      refine (hrep.settled i f g hi hg ?_).symm
      intro y hy he
      rw [writing_iff.2 ⟨y, hy, he⟩] at hnw
      cases hnw
    obtain ⟨x₁, hx₁, hd₁, hw₁, hrep₁⟩ := openFile_rep hrep hfind
    obtain ⟨x₂, hx₂, hd₂, hrep₂⟩ := openWriter_rep hrep₁ (k := x.files.length) (i := i)
      (by rw [hrep.filesLen]; simp) hnw
    have hst := writes_steps (fin := fin) (w := x.writers.length) chunks hrep₂ (y := ⟨i, true⟩)
      (by rw [hrep.writersLen]; simp) hi hg hfin
    rw [appendNameCalls, runs_cons _ _ hx₁, runs_cons _ _ hx₂] at hrun
    have hx' : (runs (chunks.map (Call.write x.writers.length) ++ [fin]) x₂).2 = x' :=
      congrArg Prod.snd hrun
    rw [hx', hd₂, hd₁, hgd, hdata] at hst
    exact ⟨i, f, _, hi, hb, hn, hdata, hst⟩
  · obtain ⟨q, r', ho, -⟩ := hc
    unfold Disk.openFile at ho
    rw [hf] at ho
    cases ho

/-- **C21** A program opens a file nobody is writing to, appends data to it in any number of
calls of any sizes, and flushes or drops the writer; some calls may fail because the disk
gets full.  Take the image before, between or after any of the sector writes this makes.
It can be opened; the file reads as its old content followed by a prefix of the new data;
every other file reads as before, no file appears or disappears, and the directory is the
same but for block counts. -/
theorem C21_append (h : Reaches x a) (hw : ∀ i, a.find name = some i → a.writing i = false)
    (hc : ReadsName x.disk name content) (chunks : List (List Byte))
    (hfin : Closes fin x.writers.length)
    (hrun : runs (appendNameCalls x name chunks fin) x = (rs, x'))
    (himg : image ∈ crashPoints x.disk.dev x'.disk.dev) :
    ∃ disk' p, Disk.new a.type image = .ok disk' ∧ p <+: chunks.flatten ∧
      ReadsName disk' name (content ++ p) ∧
      (∀ other, other ≠ name →
        (∀ data, ReadsName disk' other data ↔ ReadsName x.disk other data) ∧
        (disk'.openFile other = fail .notFound ↔ x.disk.openFile other = fail .notFound)) ∧
      disk'.header = x.disk.header ∧
      ∃ es es', x.disk.directory = .ok es ∧ disk'.directory = .ok es' ∧
        entriesOf es' = entriesOf es := by
  obtain ⟨s, v, r, b, hrep⟩ := h.rep
  obtain ⟨i, f, n, hi, hb, hn, hdata, hst⟩ := append_steps hrep hw hc chunks hfin hrun
  obtain ⟨d, hd, rfl⟩ := crash_steps hst himg
  obtain ⟨disk', data, hnew, h1, h2, h3, h4, h5, h6⟩ := growing_view hrep.ready.opened hi hb hd
  obtain ⟨p, rfl⟩ := h1
  rw [hdata] at h2 h3
  refine ⟨disk', p, by rw [hrep.type]; exact hnew, ?_, hn ▸ h3, by rw [← hn]; exact h4, h5, h6⟩
  exact (List.prefix_append_right_inj content).1 (h2.trans (List.take_prefix _ _))

/-- **C21** The image before and the image after are among the crash points. -/
theorem C21_crash_points (h : Reaches x a) (hw : ∀ i, a.find name = some i → a.writing i = false)
    (hc : ReadsName x.disk name content) (chunks : List (List Byte))
    (hfin : Closes fin x.writers.length)
    (hrun : runs (appendNameCalls x name chunks fin) x = (rs, x')) :
    x.disk.dev.image ∈ crashPoints x.disk.dev x'.disk.dev ∧
    x'.disk.dev.image ∈ crashPoints x.disk.dev x'.disk.dev := by
  refine ⟨by simp [crashPoints], ?_⟩
  obtain ⟨s, v, r, b, hrep⟩ := h.rep
  obtain ⟨i, f, n, -, -, -, -, hst⟩ := append_steps hrep hw hc chunks hfin hrun
  exact crash_last hst

/-! ## C61: creating, deleting and renaming are atomic -/

theorem atomic_steps (h : Opened disk s v) (h' : Opened disk' s v')
    (hst : Steps s (fun d => ∃ v₁, OnDisk d s v₁ ∧ (Alike v v₁ ∨ Alike v' v₁)) disk.dev disk'.dev) :
    Atomic s.type disk disk' := by
  intro image himg
  obtain ⟨d, ⟨v₁, hod, hal⟩, rfl⟩ := crash_steps hst himg
  rcases hal with hal | hal
  · obtain ⟨seen, hnew, hop⟩ := opens hod (by rw [hal.header]; exact h.noGeos)
    exact ⟨seen, hnew, .inl (view_alike h hop hal)⟩
  · obtain ⟨seen, hnew, hop⟩ := opens hod (by rw [hal.header]; exact h'.noGeos)
    exact ⟨seen, hnew, .inr (view_alike h' hop hal)⟩

theorem atomic_same (h : Opened disk s v) : Atomic s.type disk disk :=
  atomic_steps h h (Steps.refl ⟨v, h.onDisk, .inl (Alike.refl v)⟩)

/-- **C61** Creating a file: after a crash the disk shows either all that was there before or
all that is there after. -/
theorem C61_create (h : Reaches x a) (ht : type.toByte &&& 0x0F ≠ 4)
    (hrun : (Session.step (.create name type .linear) x).2 = x') : Atomic a.type x.disk x'.disk := by
  obtain ⟨s, v, r, b, hrep⟩ := h.rep
  rw [hrep.type]
  have hr := hrep.ready
  have hc := hrep.onDisk.slotCount
  have hd : x'.disk = (Disk.createFile name type .linear x.disk).2 := by
    rw [← hrun]
    cases hq : Disk.createFile name type .linear x.disk with
    | mk res disk' =>
      cases res with
      | error e => simp only [Session.step]; rw [M.bind_of_error (onDisk_run hq)]
      | ok p => simp only [Session.step]; rw [M.bind_of_ok (onDisk_run hq)]; rfl
  rw [hd]
  have hout := createFile_ready hr name type ht
  generalize Disk.createFile name type .linear x.disk = out at hout
  cases hout with
  | tooLong _ => exact atomic_same hr.opened
  | «exists» _ _ => exact atomic_same hr.opened
  | dirFull _ _ _ _ => exact atomic_same hr.opened
  | @full v₁ i st _ _ hres _ hr1 _ hst _ =>
    refine atomic_steps hr.opened hr1.opened (hst.mono ?_)
    rintro d (hd | hd)
    · exact ⟨v, hd, .inl (Alike.refl v)⟩
    · exact ⟨v₁, hd, .inr (Alike.refl v₁)⟩
  | @created v₁ i st₁ st slot first _ _ hres _ _ _ _ _ _ hr1 hst _ =>
    refine atomic_steps hr.opened hr1.opened (hst.mono ?_)
    rintro d (hd | hd | hd)
    · exact ⟨v, hd, .inl (Alike.refl v)⟩
    · exact ⟨v₁, hd, .inl (hres.alike hc)⟩
    · exact ⟨_, hd, .inr (Alike.refl _)⟩

/-- **C61** Deleting a file through a handle. -/
theorem C61_delete (h : Reaches x a) (hk : a.handles[k]? = some (some i))
    (hrun : (Session.step (.delete k) x).2 = x') : Atomic a.type x.disk x'.disk := by
  obtain ⟨s, v, r, b, hrep⟩ := h.rep
  rw [hrep.type]
  have hr := hrep.ready
  obtain ⟨file, f, hfile, hh⟩ := hrep.handles k i hk
  obtain ⟨z, hdel, hm, hfmt, -, hst, -⟩ := delete_spec hr.mounted hh
  have hx' : x'.disk = x.disk.withSt r z.st := by
    rw [← hrun]
    have := onFile_run hfile hr.cell hdel
    simp only [Session.step]
    rw [this]
  rw [hx']
  have hr1 : ReadyAt (x.disk.withSt r z.st) s (v.set i none) r z.st.bam :=
    hr.update hm hfmt rfl (exact_set hr.exact fun f' hf' => by cases hf')
  refine atomic_steps hr.opened hr1.opened (hst.mono ?_)
  rintro d (hd | hd)
  · exact ⟨v, hd, .inl (Alike.refl v)⟩
  · exact ⟨_, hd, .inr (Alike.refl _)⟩

/-- **C61** Renaming a file. -/
theorem C61_rename (h : Reaches x a)
    (hrun : (Session.step (.rename original new) x).2 = x') : Atomic a.type x.disk x'.disk := by
  obtain ⟨s, v, r, b, hrep⟩ := h.rep
  rw [hrep.type]
  have hr := hrep.ready
  have hx' : x'.disk = (Disk.rename original new x.disk).2 := by
    rw [← hrun]
    cases hq : Disk.rename original new x.disk with
    | mk res disk' => simp only [Session.step]; rw [onDisk_run hq]
  rw [hx']
  rcases rename_ready hr original new with ⟨-, hq⟩ | ⟨i, f, hi, -, -, hcase⟩
  · rw [hq]; exact atomic_same hr.opened
  · rcases hcase with ⟨-, hq⟩ | ⟨-, -, hq⟩ | ⟨-, -, d', hq, hr1, hst, -⟩
    · rw [hq]; exact atomic_same hr.opened
    · rw [hq]; exact atomic_same hr.opened
    · rw [hq]
      exact atomic_steps hr.opened hr1.opened (hst _ ⟨v, hr.onDisk, .inl (Alike.refl v)⟩
        ⟨_, hr1.onDisk, .inr (Alike.refl _)⟩)

/-- A reachable state with a file of several bytes that can be appended to, deleted and
renamed, and another file. -/
example : ∃ x a, Reaches x a ∧ a.handles[0]? = some (some 0) ∧ a.find [0x41] = some 0 ∧
    a.find [0x42] = some 1 ∧ (∀ i, a.find [0x41] = some i → a.writing i = false) ∧
    ReadsName x.disk [0x41] [1, 2, 3] ∧ Closes (.drop x.writers.length) x.writers.length := by
  obtain ⟨x, hx⟩ := exists_formatted .d71 [0x41] (by decide) (0x30, 0x31)
  obtain ⟨a, ha, h1, h2, h3, h4, h5⟩ : ∃ a, Store.run [.create [0x41] .PRG .linear, .openWriter 0,
        .write 0 [1, 2, 3], .drop 0, .create [0x42] .SEQ .linear]
        (Store.empty .d71 [0x41] (0x30, 0x31)) = some ([.ok (), .ok (), .ok (), .ok (), .ok ()], a) ∧
      a.handles[0]? = some (some 0) ∧ a.find [0x41] = some 0 ∧ a.find [0x42] = some 1 ∧
      a.writing 0 = false ∧ a.read 0 = some [1, 2, 3] :=
    ⟨_, rfl, by decide +kernel, by decide +kernel, by decide +kernel, by decide +kernel,
      by decide +kernel⟩
  obtain ⟨x', -, hx'⟩ := hx.run ha
  refine ⟨x', a, hx', h1, h2, h3, ?_, hx'.shows.reads _ 0 _ h2 h5, .inr rfl⟩
  intro i hi
  rw [h2] at hi
  cases hi
  exact h4

end Cbm
