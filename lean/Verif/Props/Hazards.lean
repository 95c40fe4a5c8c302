import Verif.Lemmas.Tail
import Verif.Lemmas.Stale
import Verif.Lemmas.Frozen
import Verif.Lemmas.Listed
import Verif.Props.Open
import Verif.Props.Chain
import Verif.Lemmas.Settled
/-!
# C51-C55: hazards

Claims a user would expect that are false of the code: each is refuted by a theorem
about all states of a kind, and the part that holds is proved beside it.
-/

namespace Cbm
open Spec

/-! ## C51: opening a writer -/

section
variable {d : Device} {s : Shape}

/-- **C51, refuted.** Wherever reading reports a loop, opening a writer never returns: the loop
that looks for the last block goes on for ever. -/
theorem C51_loops_forever (hw : Wf d s) {start : Location}
    (h : chainContent d start = fail .chainLoop) (entry : DirectoryEntry) :
    ChainWriter.new d entry start = .error .diverge ∧
    ∀ steps, tailLoop d steps start (d.blk s start) = .error .diverge := by
  obtain ⟨ls, e, hp, he⟩ := (C16_loop_iff hw start).1 h
  have hst : start ∈ ls := by
    have := hp.start
    cases ls with
    | nil => cases he
    | cons l ls => simp at this; rw [← this]; simp
  have hcyc := tailLoop_cycle hw hp.valid hp.onward (fun l hl => by
    rcases List.mem_append.1 (linked_mem hp.linked l hl) with h1 | h1
    · exact h1
    · rw [List.mem_singleton.1 h1]; exact he)
  refine ⟨?_, fun steps => hcyc steps start hst⟩
  unfold ChainWriter.new
  rw [hw.sector (hp.valid _ hst), res_bind_ok, hcyc _ _ hst]
  rfl

/-- **C51** (partial: chains without a loop) Everywhere else opening a writer returns: a writer
where reading succeeds, and the error that reading reports where it does not. -/
theorem C51_returns_partial (hw : Wf d s) {start : Location}
    (h : chainContent d start ≠ fail .chainLoop) (entry : DirectoryEntry) :
    (∃ content w, chainContent d start = .ok content ∧ ChainWriter.new d entry start = .ok w) ∨
    ∃ y, chainContent d start = fail y ∧ ChainWriter.new d entry start = fail y := by
  obtain ⟨ls, e, hp, hs, hc⟩ := content_of_walk hw start
  by_cases hmem : e ∈ ls
  · rw [if_pos hmem] at hc; exact absurd hc h
  rw [if_neg hmem] at hc
  have hls : ls.length ≤ s.sectors := nodup_valid_length ls hp.nodup hp.valid
  have hfuel : ls.length + 1 ≤ chainFuel := by
    have := sectors_le hw.shape
    simp only [chainFuel]
    omega
  obtain ⟨k, hk⟩ : ∃ k, chainFuel = (k + 1) + ls.length := ⟨chainFuel - 1 - ls.length, by omega⟩
  obtain ⟨h1, h2⟩ := tailLoop_path hw (e := e) ls (start := start) (k + 1) hp.valid hp.onward
    hp.linked hp.start
  by_cases hv : s.Valid e
  · rw [if_neg (by simpa using hv)] at hc
    have hb0 : byteAt (d.blk s e) 0 = 0 := by
      rcases hs with h | h | h
      · exact absurd h hmem
      · exact absurd hv h
      · exact h
    have hsv : s.Valid start := by
      have := hp.start
      cases ls with
      | nil => simp at this; rw [← this]; exact hv
      | cons l ls => simp at this; rw [← this]; exact hp.valid l (by simp)
    have hnew : ChainWriter.new d entry start = (do
        let (location, block) ← tailLoop d (k + 1) e (d.blk s e)
        pure ⟨entry, location, block, true⟩) := by
      unfold ChainWriter.new
      rw [hw.sector hsv, res_bind_ok, hk, h1 hv]
    have hlink := chainLink_new (d.blk s e) (by have := hw.blk_length hv; omega)
    rw [if_pos hb0] at hlink
    rw [hnew]
    unfold tailLoop
    by_cases h1 : byteAt (d.blk s e) 1 = 0
    · rw [if_pos h1] at hlink hc
      right
      refine ⟨_, hc, ?_⟩
      rw [hlink]
      rfl
    · rw [if_neg h1] at hlink hc
      left
      refine ⟨_, ⟨entry, e, d.blk s e, true⟩, hc, ?_⟩
      rw [hlink]
      rfl
  · rw [if_pos hv] at hc
    right
    refine ⟨_, hc, ?_⟩
    unfold ChainWriter.new
    by_cases hnil : ls = []
    · subst hnil
      have := hp.start
      simp only [List.nil_append, List.head?_cons, Option.some.injEq] at this
      rw [← this, hw.sector_invalid hv]
      rfl
    · have hsv : s.Valid start := by
        have := hp.start
        cases ls with
        | nil => exact absurd rfl hnil
        | cons l ls => simp at this; rw [← this]; exact hp.valid l (by simp)
      rw [hw.sector hsv, res_bind_ok, hk, h2 hv hnil]
      rfl

/-- A sector that links to itself. -/
example (entry : DirectoryEntry) : ChainWriter.new sampleChain entry ⟨1, 2⟩ = .error .diverge :=
  (C51_loops_forever sampleChain_wf ((C16_loop_iff sampleChain_wf _).2 ⟨[⟨1, 2⟩], ⟨1, 2⟩,
    ⟨by decide, by decide, by decide +kernel, ⟨by decide +kernel, trivial⟩, rfl⟩, by decide⟩) entry).1

example : chainContent sampleChain ⟨1, 0⟩ ≠ fail .chainLoop := by
  rw [(C16_read_ok_iff sampleChain_wf _ _).2 ⟨_, rfl, sampleChain_isChain⟩]
  nofun

end

/-! ## C52: a handle or a writer kept after its file was deleted -/

section
variable {x : Session} {a : Store} {A B : Petscii} {tA tB : FileType}

/-- A free directory slot, free blocks and two unused names. -/
structure TwoFresh (a : Store) (A B : Petscii) (tA tB : FileType) : Prop where
  slot : none ∈ a.slots
  room : 0 < a.room
  nameA : A.length ≤ 16
  nameB : B.length ≤ 16
  plainB : B.getLast? ≠ some 0xA0
  freshA : a.find A = none
  freshB : a.find B = none
  typeA : tA.toByte &&& 0x0F ≠ 4
  typeB : tB.toByte &&& 0x0F ≠ 4

theorem TwoFresh.first {s v r b} (hf : TwoFresh a A B tA tB) (h : Rep x s v r b a) :
    ∃ i : Nat, v.slots[i]? = some none ∧ ∀ k : Nat, k < i → v.slots[k]? ≠ some none := by
  cases hx : a.slots.findIdx? (· == none) with
  | none =>
    obtain ⟨i, hi⟩ := List.getElem?_of_mem hf.slot
    exact absurd hi (empty_none_iff.1 hx i)
  | some i =>
    obtain ⟨h1, h2⟩ := empty_some_iff.1 hx
    exact ⟨i, h.slots.none_iff.2 h1, fun k hk e => h2 k hk (h.slots.none_iff.1 e)⟩

theorem TwoFresh.unusedA {s v r b} (hf : TwoFresh a A B tA tB) (h : Rep x s v r b a) :
    ∀ g ∈ v.files, g.name ≠ A := fun g hg e => by
  have := (h.available A).2 ⟨g, hg, e⟩
  rw [hf.freshA] at this
  cases this

theorem TwoFresh.unusedB {s v r b} (hf : TwoFresh a A B tA tB) (h : Rep x s v r b a) :
    ∀ g ∈ v.files, g.name ≠ B := fun g hg e => by
  have := (h.available B).2 ⟨g, hg, e⟩
  rw [hf.freshB] at this
  cases this

/-- **C52, refuted.** A file `A` is created and deleted, and a file `B` is created.  Deleting
through the old handle of `A` a second time reports success, and deletes `B`. -/
theorem C52_second_delete_refuted (h : Reaches x a) (hf : TwoFresh a A B tA tB) :
    ∃ x' x'', runs [.create A tA .linear, .delete x.files.length, .create B tB .linear] x =
        ([.ok (), .ok (), .ok ()], x') ∧
      ReadsName x'.disk B [] ∧
      Session.step (.delete x.files.length) x' = (.ok (), x'') ∧
      x''.disk.openFile B = fail .notFound := by
  obtain ⟨s, v, r, b, hrep⟩ := h.rep
  obtain ⟨i, hi, hfirst⟩ := hf.first hrep
  have hnA := hf.unusedA hrep
  have hnB := hf.unusedB hrep
  have hroom : 0 < v.room s.type := hrep.room ▸ hf.room
  obtain ⟨e, st, first, d', c1, c2, c3, c4, c5, c6, -, -, -⟩ :=
    create_delete hrep.ready hf.typeA hf.nameA hnA hi hfirst hroom
  obtain ⟨e', st', first', k1, k2, -, -, k3, k4⟩ :=
    create_free c6 hf.typeB hf.nameB hnB hi hfirst hroom
  have hff : first' = first := by rw [c2] at k2; exact (Except.ok.inj k2).symm
  subst hff
  have hlt := (List.getElem?_eq_some_iff.1 hi).1
  have s1 := create_step c1
  have s2 : Session.step (.delete x.files.length)
      { x with disk := x.disk.withSt r st, files := x.files ++ [(.linear e, r)] } =
      (.ok (), { x with disk := x.disk.withSt r ⟨d', b⟩, files := x.files ++ [(.linear e.scratch, r)] }) := by
    have := onFile_run (x := { x with disk := x.disk.withSt r st, files := x.files ++ [(.linear e, r)] })
      (getElem?_snoc _ _) c3.cell c5
    simp only [set_snoc, withSt_withSt] at this
    exact this
  have s3 := create_step (x := { x with disk := x.disk.withSt r ⟨d', b⟩, files := x.files ++ [(.linear e.scratch, r)] }) k1
  have hst := c4.stale (g := newFile B tB first') hlt rfl
  obtain ⟨z, z1, z2, z3, -, -, -⟩ := delete_spec (st := st') k3.mounted hst
  have s4 := onFile_run (x := { x with
      disk := (x.disk.withSt r ⟨d', b⟩).withSt r st'
      files := x.files ++ [(.linear e.scratch, r)] ++ [(.linear e', r)] })
    (k := x.files.length) (by simp) k3.cell z1
  refine ⟨_, _, ?_, reads_created hnB hf.plainB rfl k4.slot k3 rfl, s4, ?_⟩
  · rw [runs_cons _ _ s1, runs_cons _ _ s2, runs_cons _ _ s3]
    rfl
  · have hr := k3.update (v' := (v.set i (some (newFile B tB first'))).set i none) z2 z3 rfl
      (by rw [Volume.set_none hi]; exact hrep.ready.exact)
    rw [Volume.set_none hi] at hr
    exact (missing_ready hr).2 hnB

/-- **C52, refuted.** Data is written to `A` through a writer that is kept while `A` is deleted
and `B` is created.  When the writer is dropped, `B` holds the data although nobody wrote to it. -/
theorem C52_stale_writer_refuted (h : Reaches x a) (hf : TwoFresh a A B tA tB) {data : List Byte}
    (hd : data.length ≤ 254) :
    ∃ x' x'', runs [.create A tA .linear, .openWriter x.files.length, .write x.writers.length data,
          .delete x.files.length, .create B tB .linear] x =
        ([.ok (), .ok (), .ok (), .ok (), .ok ()], x') ∧
      ReadsName x'.disk B [] ∧
      Session.step (.drop x.writers.length) x' = (.ok (), x'') ∧
      ReadsName x''.disk B data := by
  obtain ⟨s, v, r, b, hrep⟩ := h.rep
  obtain ⟨i, hi, hfirst⟩ := hf.first hrep
  have hnA := hf.unusedA hrep
  have hnB := hf.unusedB hrep
  have hroom : 0 < v.room s.type := hrep.room ▸ hf.room
  obtain ⟨e, st, first, d', c1, c2, c3, c4, c5, c6, -, -, -⟩ :=
    create_delete hrep.ready hf.typeA hf.nameA hnA hi hfirst hroom
  obtain ⟨e', st', first', k1, k2, -, -, k3, k4⟩ :=
    create_free c6 hf.typeB hf.nameB hnB hi hfirst hroom
  have hff : first' = first := by rw [c2] at k2; exact (Except.ok.inj k2).symm
  subst hff
  have hlt := (List.getElem?_eq_some_iff.1 hi).1
  obtain ⟨-, ee, xe, he, hp, hfs, -⟩ := id c4
  cases he
  have hon : OnDisk st.dev s _ := c3.onDisk
  obtain ⟨w, w1, -, w2, w3⟩ := writer_new hon c4.slot hp
  obtain ⟨w', w4, w5, w6⟩ := write_short (st := st) w3 rfl hd
  have s1 := create_step c1
  have s2 : Session.step (.openWriter x.files.length)
      { x with disk := x.disk.withSt r st, files := x.files ++ [(.linear e, r)] } =
      (.ok (), { x with
        disk := x.disk.withSt r st, files := x.files ++ [(.linear e, r)], writers := x.writers ++ [(w, r)] }) := by
    simp only [Session.step]
    rw [M.bind_of_ok (m := M.read _) (a := (File.linear e, r)) (s' := { x with disk := x.disk.withSt r st, files := x.files ++ [(.linear e, r)] })
      (by rw [M.run_read]; simp [indexRes])]
    simp only []
    rw [M.bind_of_ok (m := M.read _) (a := w) (s' := { x with disk := x.disk.withSt r st, files := x.files ++ [(.linear e, r)] })
      (by rw [M.run_read]; exact congrArg (·, _) (by rw [← w1, ← hfs]; rfl))]
    rfl
  have s3 : Session.step (.write x.writers.length data)
      { x with disk := x.disk.withSt r st, files := x.files ++ [(.linear e, r)], writers := x.writers ++ [(w, r)] } =
      (.ok (), { x with
        disk := x.disk.withSt r st, files := x.files ++ [(.linear e, r)], writers := x.writers ++ [(w', r)] }) := by
    have := onWriter_run (x := { x with
      disk := x.disk.withSt r st, files := x.files ++ [(.linear e, r)], writers := x.writers ++ [(w, r)] })
      (getElem?_snoc _ _) c3.cell w4
    simp only [set_snoc, withSt_withSt] at this
    simp only [Session.step]
    rw [M.bind_of_ok this]
    rfl
  have s4 : Session.step (.delete x.files.length)
      { x with disk := x.disk.withSt r st, files := x.files ++ [(.linear e, r)], writers := x.writers ++ [(w', r)] } =
      (.ok (), { x with
        disk := x.disk.withSt r ⟨d', b⟩, files := x.files ++ [(.linear e.scratch, r)]
        writers := x.writers ++ [(w', r)] }) := by
    have := onFile_run (x := { x with
      disk := x.disk.withSt r st, files := x.files ++ [(.linear e, r)], writers := x.writers ++ [(w', r)] })
      (getElem?_snoc _ _) c3.cell c5
    simp only [set_snoc, withSt_withSt] at this
    exact this
  have s5 := create_step (x := { x with
    disk := x.disk.withSt r ⟨d', b⟩, files := x.files ++ [(.linear e.scratch, r)]
    writers := x.writers ++ [(w', r)] }) k1
  have hst := w5.stale (g := newFile B tB first') w6 hlt rfl rfl
  obtain ⟨z, z1, z2, z3, -⟩ := flush_spec (st := st') k3.mounted hst
  have s6 := onWriter_run (x := { x with
      disk := (x.disk.withSt r ⟨d', b⟩).withSt r st'
      files := x.files ++ [(.linear e.scratch, r)] ++ [(.linear e', r)]
      writers := x.writers ++ [(w', r)] })
    (k := x.writers.length) (getElem?_snoc _ _) k3.cell z1
  have s7 := congrArg (fun q : Res Unit × Session =>
    ((.ok (), { q.2 with writers := q.2.writers.eraseIdx x.writers.length }) : Res Unit × Session)) s6
  refine ⟨{ x with
      disk := (x.disk.withSt r ⟨d', b⟩).withSt r st'
      files := x.files ++ [(.linear e.scratch, r)] ++ [(.linear e', r)]
      writers := x.writers ++ [(w', r)] }, _, ?_,
    reads_created hnB hf.plainB rfl k4.slot k3 rfl, s7, ?_⟩
  · rw [runs_cons _ _ s1, runs_cons _ _ s2, runs_cons _ _ s3, runs_cons _ _ s4, runs_cons _ _ s5]
    rfl
  · have hset : (v.set i (some (newFile B tB first'))).set i
        (some (withData (newFile B tB first') data)) =
        v.set i (some (withData (newFile B tB first') data)) := by simp [Volume.set]
    rw [hset] at z2
    have hr := k3.update (v' := v.set i (some (withData (newFile B tB first') data))) z2
      (by rw [z3]) rfl (exact_set hrep.ready.exact fun f' hf' => by cases hf'; rfl)
    exact reads_created hnB hf.plainB rfl (by simp [Volume.set, hlt]) hr rfl

/-- **C52** (partial: nothing happens between the two deletions) A second deletion through the
same handle right after the first succeeds and changes nothing: the disk shows the store with the
file removed once, and validates. -/
theorem C52_again_partial (h : Reaches x a) {k i : Nat} (hk : a.handles[k]? = some (some i))
    (hw : a.writing i = false) :
    ∃ x1 x2 a', Store.step (.delete k) a = some (.ok (), a') ∧
      Session.step (.delete k) x = (.ok (), x1) ∧ Shows x1 a' ∧
      Session.step (.delete k) x1 = (.ok (), x2) ∧ Shows x2 a' := by
  have hs : Store.step (.delete k) a = some (.ok (), { a.put i none with
      handles := a.handles.map fun q => if q = some i then none else q, saved := true }) := by
    simp only [Store.step, hk]
    rw [if_neg (by rw [hw]; nofun)]
  obtain ⟨s, v, r, b, hrep⟩ := h.rep
  obtain ⟨x2, h2, hsh⟩ := delete_twice hrep hk (by rw [hw]; nofun)
  obtain ⟨x1, h1, hr1⟩ := h.one hs
  rw [runs_cons _ _ h1] at h2
  have e1 := congrArg Prod.fst h2
  have e2 := congrArg Prod.snd h2
  simp only [runs, List.cons.injEq, and_true, true_and] at e1 e2
  exact ⟨x1, x2, _, hs, h1, hr1.shows, Prod.ext e1 e2, hsh⟩

end

/-- A newly formatted disk with two names. -/
example : ∃ x a, Reaches x a ∧ TwoFresh a [0x41] [0x42] .PRG .SEQ := by
  obtain ⟨x, h⟩ := exists_formatted .d64 [0x44] (by decide) (0x30, 0x31)
  exact ⟨x, Store.empty .d64 [0x44] (0x30, 0x31), h, ⟨by decide +kernel, by decide +kernel, by decide,
    by decide, by decide, by decide +kernel, by decide +kernel, by decide, by decide⟩⟩

/-- The same disk with a file on it and a handle of that file. -/
example : ∃ x a, Reaches x a ∧ a.handles[0]? = some (some 0) ∧ a.writing 0 = false := by
  obtain ⟨x, h⟩ := exists_formatted .d64 [0x44] (by decide) (0x30, 0x31)
  obtain ⟨a, ha, h1, h2⟩ : ∃ a, Store.step (.create [0x41] .PRG .linear)
      (Store.empty .d64 [0x44] (0x30, 0x31)) = some (.ok (), a) ∧ a.handles[0]? = some (some 0) ∧
      a.writing 0 = false := ⟨_, rfl, by decide +kernel, by decide +kernel⟩
  obtain ⟨x', -, hx⟩ := h.one ha
  exact ⟨x', a, hx, h1, h2⟩

/-! ## C53: refused operations on read-only disks -/

section
variable {x : Session} {a : Store} {name : Petscii} {type : FileType}

/-- **C53, refuted.** The image of a disk in use is opened read-only.  `create_file` fails with
`ReadOnly`, but afterwards one block less is reported free. -/
theorem C53_create_refuted (h : Reaches x a) (hs : a.saved = true) (hslot : none ∈ a.slots)
    (hroom : 0 < a.room) (hn : name.length ≤ 16) (hnew : a.find name = none) (type : FileType) :
    ∃ disk disk', Disk.new a.type ⟨.readOnlyMap, x.disk.dev.image.bytes⟩ = .ok disk ∧
      disk.blocksFree = .ok a.room ∧
      Disk.createFile name type .linear disk = (fail .readOnly, disk') ∧
      disk'.blocksFree = .ok (a.room - 1) := by
  obtain ⟨s, v, r, b, hrep⟩ := h.rep
  obtain ⟨disk, hd, hfz⟩ := open_readOnly hrep.ready (hrep.saved hs)
  obtain ⟨i, hi⟩ := List.getElem?_of_mem hslot
  have hnew' : ∀ g ∈ v.files, g.name ≠ name := fun g hg e => by
    have := (hrep.available name).2 ⟨g, hg, e⟩
    rw [hnew] at this
    cases this
  obtain ⟨disk', h1, h2⟩ := hfz.create (type := type) hn hnew' (hrep.slots.none_iff.2 hi)
    (hrep.room ▸ hroom)
  refine ⟨disk, disk', by rw [hrep.type]; exact hd, by rw [hrep.room]; exact hfz.blocksFree, h1, ?_⟩
  rw [hrep.room]
  exact h2

/-- **C53, refuted.** In the same way deleting a file fails with `ReadOnly`, but afterwards its
blocks are reported free. -/
theorem C53_delete_refuted (h : Reaches x a) (hs : a.saved = true) {i : Nat} {g : StoredFile}
    (hf : a.find name = some i) (hg : a.file? i = some g) :
    ∃ disk x', Disk.new a.type ⟨.readOnlyMap, x.disk.dev.image.bytes⟩ = .ok disk ∧
      disk.blocksFree = .ok a.room ∧
      runs [.openFile name, .delete 0] ⟨disk, [], []⟩ = ([.ok (), fail .readOnly], x') ∧
      x'.disk.blocksFree = .ok (a.room + blocksFor g.data.length) := by
  obtain ⟨s, v, r, b, hrep⟩ := h.rep
  obtain ⟨disk, hd, hfz⟩ := open_readOnly hrep.ready (hrep.saved hs)
  rcases hrep.find name with ⟨i', f, g', hi, hg', hfg, hfi, hn, -⟩ | ⟨hfi, -⟩
  · rw [hf] at hfi
    cases hfi
    rw [file?_eq.1 hg] at hg'
    cases hg'
    rcases hfz.opened.find name with ⟨j, f', hj, hn', hbefore, r', hopen⟩ | ⟨hno, -⟩
    · have hij : j = i := by
        have h1 := find_some_iff.1 hf
        rcases Nat.lt_trichotomy j i with hlt | rfl | hlt
        · obtain ⟨gj, hgj, hr⟩ := hrep.slots.some_left hj
          exact absurd (hr.name ▸ hn') (h1.2 j gj hlt hgj)
        · rfl
        · exact absurd hn (hbefore i f hlt hi)
      subst hij
      rw [hi] at hj
      cases hj
      have hr' : r' = 0 := by
        unfold Disk.openFile Disk.openFileFromEntry Disk.bamRef at hopen
        rw [hfz.bam] at hopen
        simp only [res_bind_ok] at hopen
        cases hq : disk.findDirectoryEntry name with
        | error e => rw [hq] at hopen; cases hopen
        | ok q =>
          rw [hq] at hopen
          simp only [res_bind_ok] at hopen
          cases hz : File.fromEntry disk.dev q with
          | error e => rw [hz] at hopen; cases hopen
          | ok z =>
            rw [hz] at hopen
            exact (Prod.ext_iff.1 (Except.ok.inj hopen)).2.symm
      subst hr'
      obtain ⟨b', k1, k2⟩ := hfz.delete (entry_handle (x := ⟨disk, [], []⟩) hfz.opened.onDisk hi)
      have s1 : Session.step (.openFile name) ⟨disk, [], []⟩ =
          (.ok (), ⟨disk, [(.linear (f.entry (slotPos v.dir j)), 0)], []⟩) := by
        simp only [Session.step]
        rw [M.bind_of_ok (m := M.read _) (s := (⟨disk, [], []⟩ : Session)) (s' := ⟨disk, [], []⟩)
          (a := (File.linear (f.entry (slotPos v.dir j)), 0))
          (by rw [M.run_read]; exact congrArg (·, _) hopen)]
        rfl
      have s2 := onFile_run (x := ⟨disk, [(.linear (f.entry (slotPos v.dir j)), 0)], []⟩) (k := 0) rfl
        hfz.cell k1
      rw [show Session.onFile 0 File.delete = Session.step (.delete 0) from rfl] at s2
      refine ⟨disk, ⟨disk.withSt 0 ⟨disk.dev, b'⟩, [(.linear (f.entry (slotPos v.dir j)), 0)], []⟩,
        by rw [hrep.type]; exact hd, by rw [hrep.room]; exact hfz.blocksFree, ?_, ?_⟩
      · rw [runs_cons _ _ s1, runs_cons _ _ s2]
        rfl
      · rw [hrep.room, ← hfg.blocks]
        exact k2
    · exact absurd hn (hno f (mem_files.2 ⟨i, hi⟩))
  · rw [hf] at hfi
    cases hfi

/-- **C53** (partial: the refusals that come first) On a read-only image, whatever it holds,
renaming changes nothing in the disk or its BAM, and so does creating a file whose name is too long
or exists already. -/
theorem C53_refused_partial (disk : Disk) (hr : disk.dev.image.kind = .readOnlyMap) :
    (∀ original new, (Disk.rename original new disk).2 = disk) ∧
    (∀ name type, 16 < name.length → Disk.createFile name type .linear disk = (fail .filenameTooLong, disk)) ∧
    (∀ name type e, disk.checkFilenameAvailability name = .error e →
      (Disk.createFile name type .linear disk).2 = disk) := by
  refine ⟨fun original new => ?_, fun name type hn => ?_, fun name type e he => ?_⟩
  · unfold Disk.rename
    cases h1 : disk.findDirectoryEntry original with
    | error e => rw [M.bind_of_error (e := e) (s' := disk) (by rw [M.run_read, h1])]
    | ok entry =>
      rw [M.bind_of_ok (a := entry) (s' := disk) (by rw [M.run_read, h1])]
      cases h2 : checkFilenameValidity new with
      | error e => rw [M.bind_of_error (e := e) (s' := disk) (by rw [M.run_lift])]
      | ok u =>
        rw [M.bind_of_ok (a := u) (s' := disk) (by rw [M.run_lift])]
        cases h3 : disk.checkFilenameAvailability new with
        | error e => rw [M.bind_of_error (e := e) (s' := disk) (by rw [M.run_read, h3])]
        | ok u' =>
          rw [M.bind_of_ok (a := u') (s' := disk) (by rw [M.run_read, h3])]
          have h4 : ∀ e, ∃ q, disk.dev.writeEntry e = .error q := fun e => by
            unfold Device.writeEntry Device.positionedWrite
            cases e.pos with
            | error q => exact ⟨q, rfl⟩
            | ok p => exact ⟨_, sectorMut_readOnly hr _⟩
          obtain ⟨q, hq⟩ := h4 { entry with filename := new }
          unfold Disk.writeDirectoryEntry Disk.onDev
          rw [M.run_zoom, M.update_error hq]
  · unfold Disk.createFile
    rw [if_neg (by simp)]
    exact M.bind_of_error (by rw [M.run_lift]; unfold checkFilenameValidity; rw [if_pos hn])
  · unfold Disk.createFile
    rw [if_neg (by simp)]
    cases hv : checkFilenameValidity name with
    | error e' =>
      rw [M.bind_of_error (e := e') (s' := disk) (by rw [M.run_lift])]
    | ok u =>
      rw [M.bind_of_ok (a := u) (s' := disk) (by rw [M.run_lift])]
      rw [M.bind_of_error (e := e) (s' := disk) (by rw [M.run_read, he])]

end


/-- A newly formatted disk: one file can be created. -/
example : ∃ (x : Session) (a : Store), Reaches x a ∧ a.saved = true ∧ none ∈ a.slots ∧ 0 < a.room ∧
    a.find [0x41] = none := by
  obtain ⟨x, h⟩ := exists_formatted .d64 [0x44] (by decide) (0x30, 0x31)
  exact ⟨x, _, h, rfl, by decide +kernel, by decide +kernel, by decide +kernel⟩

/-- A disk with a file whose writer has been flushed. -/
example : ∃ (x : Session) (a : Store) (g : StoredFile), Reaches x a ∧ a.saved = true ∧
    a.find [0x41] = some 0 ∧ a.file? 0 = some g ∧ g.data = [7, 8, 9] := by
  obtain ⟨x, h⟩ := exists_formatted .d64 [0x44] (by decide) (0x30, 0x31)
  obtain ⟨a, ha, h1⟩ : ∃ a, Store.run [.create [0x41] .PRG .linear, .openWriter 0, .write 0 [7, 8, 9], .drop 0]
      (Store.empty .d64 [0x44] (0x30, 0x31)) = some ([.ok (), .ok (), .ok (), .ok ()], a) ∧
      a.saved = true ∧ a.find [0x41] = some 0 ∧ ∃ g, a.file? 0 = some g ∧ g.data = [7, 8, 9] :=
    ⟨_, rfl, by decide +kernel, by decide +kernel, _, rfl, by decide +kernel⟩
  obtain ⟨h2, h3, g, h4, h5⟩ := h1
  obtain ⟨x', -, hx⟩ := h.run ha
  exact ⟨x', a, g, hx, h2, h3, h4, h5⟩


/-! ## C54: a rejected format request -/

section
variable {x : Session} {a : Store} {name : Petscii} {disk : Disk} {s : Shape}

/-- A directory that has just been cleared. -/
theorem directory_blank {f : DiskFormat} {hd : Header} (h : Wf disk.dev s) (hf : disk.format = some f)
    (hfd : f.firstDirectoryLocation = firstDirectory s.type)
    (hh : disk.header = some hd) (hg : hd.geos = none)
    (hb : disk.dev.blk s (firstDirectory s.type) = splice zeros 0 [0x00, 0xFF]) :
    disk.directory = .ok [] := by
  have hv : s.Valid (firstDirectory s.type) :=
    (by decide : ∀ s ∈ shapes, s.Valid (firstDirectory s.type)) s h.shape
  have hbytes : ∀ j, byteAt (splice zeros 0 [0x00, 0xFF]) j = if j = 1 then 0xFF else 0 := by
    intro j
    rw [byteAt_splice _ _ _ _ (Nat.zero_le _), if_neg (by omega)]
    match j with
    | 0 => rfl
    | 1 => rfl
    | j + 2 =>
      rw [if_neg (by simp), if_neg (by omega)]
      simp only [byteAt, zeros, List.getD_eq_getElem?_getD, List.getElem?_replicate]
      split <;> rfl
  have hc : IsChain disk.dev s [firstDirectory s.type]
      (payload disk.dev s [] ++ slice (disk.dev.blk s (firstDirectory s.type)) 2
        ((byteAt (disk.dev.blk s (firstDirectory s.type)) 1).toNat - 1)) := by
    refine ⟨by simpa using hv, by simp, trivial, [], firstDirectory s.type, rfl, ?_, ?_, rfl⟩
    · rw [hb, hbytes]; rfl
    · rw [hb, hbytes]; decide
  rw [C30_listing h hf hh hg (by rw [hfd]; rfl) hc]
  congr 1
  unfold listed
  rw [List.map_eq_nil_iff, List.filter_eq_nil_iff]
  intro p hp
  unfold dirSlots at hp
  simp only [List.flatMap_cons, List.flatMap_nil, List.append_nil, List.mem_map, List.mem_range] at hp
  obtain ⟨k, hk, rfl⟩ := hp
  have hk8 : k < 8 := by
    have := usedBytes_le (disk.dev.blk s (firstDirectory s.type))
    omega
  unfold slotFree
  rw [slotData_at _ s _ hk8, hb, byteAt_slice _ _ _ _ (by omega), hbytes, if_neg (by omega)]
  decide

/-- Formatting with a name that is too long. -/
theorem writeFormat_tooLong (h : Wf disk.dev s) (hw : Writable disk.dev)
    (hn : disk.native = s.type.format) (hname : 16 < name.length) (id : Byte × Byte) :
    ∃ d', Disk.writeFormat name id disk = (fail .filenameTooLong, { disk with dev := d' }) ∧ Wf d' s ∧
      d'.blk s (firstDirectory s.type) = splice zeros 0 [0x00, 0xFF] ∧
      ∀ l, s.Valid l → l ≠ firstDirectory s.type → d'.blk s l = zeros := by
  obtain ⟨locs, hlocs, hlm⟩ := formatLocations_ok h
  have hv : ∀ l ∈ locs, s.Valid l := fun l hl => (hlm l).1 hl
  have hz := zero_loop locs h hw hv
  have hzo := zeros_ok hv
  have hzb : ∀ l, s.Valid l → (disk.dev.puts s (locs.map fun l => (l, zeros))).blk s l = zeros :=
    fun l hl => blk_zeroed h hv ((hlm l).2 hl)
  generalize hd1 : disk.dev.puts s (locs.map fun l => (l, zeros)) = d1 at hz hzb
  have h1 : Wf d1 s := hd1 ▸ h.puts hzo
  have hw1 : Writable d1 := hd1 ▸ hw.puts
  have hfd : s.Valid (firstDirectory s.type) :=
    (by decide : ∀ s ∈ shapes, s.Valid (firstDirectory s.type)) s h.shape
  have hl2 : (splice zeros 0 [0x00, 0xFF]).length = 256 := by
    rw [length_splice _ _ _ (by rw [length_zeros]; decide), length_zeros]
  have hs2 : M.sectorMut (firstDirectory s.type) (fun b => .ok (splice b 0 [0x00, 0xFF])) d1 =
      (.ok (), d1.put s (firstDirectory s.type) (splice zeros 0 [0x00, 0xFF])) := by
    unfold M.sectorMut
    exact M.update_ok (h1.sectorMut_ok hw1 hfd (by rw [hzb _ hfd]))
  have hb2 := fun l hl => h1.blk_put hfd (l' := l) hl hl2
  have h2 := h1.put hfd hl2
  generalize d1.put s (firstDirectory s.type) (splice zeros 0 [0x00, 0xFF]) = d2 at hs2 hb2 h2
  refine ⟨d2, ?_, h2, by rw [hb2 _ hfd, if_pos rfl], fun l hl hne => by
    rw [hb2 l hl, if_neg hne, hzb l hl]⟩
  have hfdl : s.type.format.firstDirectoryLocation = firstDirectory s.type := by
    cases s.type <;> rfl
  have hs3 : (Header.new s.type.format name id).write s.type.format.header d2 =
      (fail .filenameTooLong, d2) := by
    unfold Header.write
    rw [M.bind_of_ok (s' := d2) (a := d2.blk s s.type.format.header.location)
      (by rw [M.run_read, h2.sector (headerLoc_valid h2)])]
    refine M.bind_of_error ?_
    rw [M.run_lift]
    have hp : writeBytesWithPadding (Header.new s.type.format name id).diskName DISK_NAME_SIZE
        PADDING_BYTE = none := by
      unfold writeBytesWithPadding
      exact if_pos hname
    unfold Header.render
    simp only [hp]
  unfold Disk.writeFormat
  rw [M.bind_of_ok (m := M.get) (s := disk) (s' := disk) (a := disk) rfl]
  simp only [hn]
  rw [M.bind_of_ok (s := disk) (s' := disk) (by rw [M.run_lift, hlocs]),
    M.bind_of_ok (onDev_run hz), hfdl, M.bind_of_ok (onDev_run hs2),
    M.bind_of_error (onDev_run hs3)]
  simp only [hn]

/-- **C54, refuted.** On every disk in use, `write_format` with a name of more than 16 bytes fails
with `FilenameTooLong`; afterwards the directory is empty, no file can be opened any more, and
every sector but the first one of the directory has been overwritten with zeros. -/
theorem C54_refuted (h : Reaches x a) (hname : 16 < name.length) (id : Byte × Byte) :
    ∃ x', Session.step (.format name id) x = (fail .filenameTooLong, x') ∧
      x'.disk.directory = .ok [] ∧
      (∀ n, x'.disk.openFile n = fail .notFound) ∧
      ∀ l old, x.disk.dev.sector l = .ok old → l ≠ firstDirectory a.type →
        x'.disk.dev.sector l = .ok (List.replicate 256 0) := by
  obtain ⟨s, v, r, b, hrep⟩ := h.rep
  have hr := hrep.ready
  have hw : Wf x.disk.dev s := hr.onDisk.wf
  obtain ⟨d', h1, h2, h3, h4⟩ := writeFormat_tooLong (name := name) hw hr.mounted.writable hr.native
    hname id
  have hdir : ({ x.disk with dev := d' } : Disk).directory = .ok [] :=
    directory_blank h2 hr.format (firstDirectory_format _) hr.header hr.noGeos h3
  have hitems := collectRes_inv hdir
  refine ⟨{ x with disk := { x.disk with dev := d' } }, ?_, ?_, fun n => ?_, fun l old hl hne => ?_⟩
  · exact onDisk_run h1
  · exact hdir
  · unfold Disk.openFile Disk.findDirectoryEntry
    rw [hitems]
    rfl
  · have hv : s.Valid l := Classical.byContradiction fun hv => by
      rw [hw.sector_invalid hv] at hl
      cases hl
    show d'.sector l = _
    rw [h2.sector hv, h4 l hv (hrep.type ▸ hne)]
    rfl

/-- **C54** (partial: read-only images) On a read-only image, whatever it holds, every format
request fails, and nothing changes in the image, the header or the BAM. -/
theorem C54_read_only_partial (hr : disk.dev.image.kind = .readOnlyMap) (id : Byte × Byte) :
    ∃ e, Disk.writeFormat name id disk = (.error e, disk) := by
  have hsm : ∀ l f, M.sectorMut l f disk.dev = (fail .readOnly, disk.dev) := fun l f => by
    unfold M.sectorMut
    exact M.update_error (sectorMut_readOnly hr _)
  unfold Disk.writeFormat
  rw [M.bind_of_ok (m := M.get) (s := disk) (s' := disk) (a := disk) rfl]
  cases hl : formatLocations disk.native disk.dev.geometry with
  | error e => exact ⟨e, M.bind_of_error (by rw [M.run_lift])⟩
  | ok locs =>
    rw [M.bind_of_ok (s' := disk) (a := locs) (by rw [M.run_lift])]
    refine ⟨.err .readOnly, ?_⟩
    cases locs with
    | nil =>
      rw [M.bind_of_ok (s' := disk) (a := ()) (onDev_run (M.run_forEach_nil _ _))]
      exact M.bind_of_error (onDev_run (hsm _ _))
    | cons l ls =>
      exact M.bind_of_error (onDev_run (by rw [M.run_forEach_cons, hsm]))

/-- A disk with a file on it. -/
example : ∃ x a content, Reaches x a ∧ ReadsName x.disk [0x41] content := by
  obtain ⟨x, h⟩ := exists_formatted .d64 [0x44] (by decide) (0x30, 0x31)
  obtain ⟨a, ha, h1, h2⟩ : ∃ a, Store.step (.create [0x41] .PRG .linear)
      (Store.empty .d64 [0x44] (0x30, 0x31)) = some (.ok (), a) ∧ a.find [0x41] = some 0 ∧
      a.read 0 = some [] := ⟨_, rfl, by decide +kernel, by decide +kernel⟩
  obtain ⟨y, -, hy⟩ := h.one ha
  exact ⟨y, a, [], hy, hy.shows.reads _ _ _ h1 h2⟩

end

/-! ## C55: deleting a file -/

section
variable {disk : Disk} {s : Shape} {b : Bam} {e : DirectoryEntry} {es : List DirectoryEntry}

/-- **C55, refuted, and exactly when.** Deleting an ordinary file found in a listing never loops
for ever; it panics if and only if its chain can be followed and visits a track for which the BAM
has no entry. -/
theorem C55_panics_iff_refuted (hw : Wf disk.dev s) (hb : BamOf b s.type)
    (hd : disk.directory = .ok es) (he : e ∈ es) (hs : e.scheme = .linear) :
    (File.delete ⟨.linear e, ⟨disk.dev, b⟩⟩).1 ≠ .error .diverge ∧
    ((File.delete ⟨.linear e, ⟨disk.dev, b⟩⟩).1 = .error .panic ↔
      ∃ locs content, locs.head? = some e.firstSector ∧ IsChain disk.dev s locs content ∧
        ∃ l ∈ locs, bamTracks s.type < l.track.toNat) := by
  obtain ⟨p, -, hp⟩ := listed_slot hw hd he
  exact delete_listed (st := ⟨disk.dev, b⟩) hw hb hp hs

/-- **C55** (partial: ordinary files, images without tracks beyond the BAM) On a 1571 or 1581
image, and on a 1541 image of 35 tracks, deleting an ordinary file found in a listing returns. -/
theorem C55_returns_partial (hw : Wf disk.dev s) (hb : BamOf b s.type)
    (hd : disk.directory = .ok es) (he : e ∈ es) (hs : e.scheme = .linear)
    (ht : s.type = .d64 → s.tracks = 35) :
    (∃ u, (File.delete ⟨.linear e, ⟨disk.dev, b⟩⟩).1 = .ok u) ∨
      ∃ y, (File.delete ⟨.linear e, ⟨disk.dev, b⟩⟩).1 = fail y := by
  obtain ⟨h1, h2⟩ := C55_panics_iff_refuted hw hb hd he hs
  have htr : s.tracks ≤ bamTracks s.type :=
    (by decide : ∀ s ∈ shapes, (s.type = .d64 → s.tracks = 35) → s.tracks ≤ bamTracks s.type)
      s hw.shape ht
  cases hq : (File.delete ⟨.linear e, ⟨disk.dev, b⟩⟩).1 with
  | ok u => exact .inl ⟨u, rfl⟩
  | error y =>
    cases y with
    | err y => exact .inr ⟨y, rfl⟩
    | diverge => exact absurd hq h1
    | panic =>
      obtain ⟨locs, content, -, hc, l, hl, hlt⟩ := h2.1 hq
      have := (hc.valid l hl).2.1
      omega

/-- **C55** (partial: the image has no tracks beyond the BAM, and the info block of a GEOS file can
be in the BAM) Deleting a file of any kind that was found in a listing and opened never loops for
ever, and panics only if the image has tracks the BAM does not cover, or the entry of a GEOS file
names an info block that cannot be in the BAM.  (Props/Special.lean applies it to a relative
file.) -/
theorem C55_any_kind_partial (hw : Wf disk.dev s) (hb : BamOf b s.type)
    (hd : disk.directory = .ok es) (he : e ∈ es) {f : File} {ref : Nat}
    (hf : disk.openFileFromEntry e = .ok (f, ref)) :
    (File.delete ⟨f, ⟨disk.dev, b⟩⟩).1 ≠ .error .diverge ∧
    ((File.delete ⟨f, ⟨disk.dev, b⟩⟩).1 = .error .panic →
      (s.type = .d64 ∧ s.tracks = 40) ∨
      ∃ g, e.extra = .geos g ∧ g.infoBlock ≠ ⟨0, 0⟩ ∧
        (g.infoBlock.track = 0 ∨ bamTracks s.type < g.infoBlock.track.toNat ∨
          64 ≤ g.infoBlock.sector.toNat)) := by
  obtain ⟨p, hpos, hp⟩ := listed_slot hw hd he
  have hf' : File.fromEntry disk.dev e = .ok f := by
    unfold Disk.openFileFromEntry at hf
    obtain ⟨r, -, hf⟩ := res_bind_eq_ok.1 hf
    obtain ⟨f', hf', hf⟩ := res_bind_eq_ok.1 hf
    cases hf
    exact hf'
  generalize hC : ((s.type = .d64 ∧ s.tracks = 40) ∨
      ∃ g, e.extra = .geos g ∧ g.infoBlock ≠ ⟨0, 0⟩ ∧
        (g.infoBlock.track = 0 ∨ bamTracks s.type < g.infoBlock.track.toNat ∨
          64 ≤ g.infoBlock.sector.toNat)) = C
  have htr : ¬ C → s.tracks ≤ bamTracks s.type := fun h => by
    refine (by decide : ∀ s ∈ shapes, ¬ (s.type = .d64 ∧ s.tracks = 40) → s.tracks ≤ bamTracks s.type)
      s hw.shape fun h' => h ?_
    rw [← hC]
    exact .inl h'
  obtain ⟨hent, hset⟩ := settled_freeBlocks (P := ¬ C) hw hp hf' htr (fun h g hg hn => by
    rw [← hC] at h
    have h1 : g.infoBlock ≠ ⟨0, 0⟩ := fun h => hn (by rw [h]; exact ⟨rfl, rfl⟩)
    have h2 := fun h' => h (.inr ⟨g, hg, h1, h'⟩)
    have h3 : g.infoBlock.track.toNat ≠ 0 := fun h => h2 (.inl (UInt8.toNat.inj h))
    refine ⟨⟨by omega, Nat.le_of_not_lt fun h => h2 (.inr (.inl h))⟩,
      Nat.lt_of_not_le fun h => h2 (.inr (.inr h))⟩)
  obtain ⟨-, hn, hx⟩ := hp.writable hw
  unfold File.delete
  rw [M.bind_of_ok (m := M.get) (s := (⟨f, ⟨disk.dev, b⟩⟩ : FSt)) (s' := ⟨f, ⟨disk.dev, b⟩⟩)
    (a := ⟨f, ⟨disk.dev, b⟩⟩) rfl]
  rcases hm : f.freeBlocks ⟨disk.dev, b⟩ with ⟨r, st'⟩
  have hz : (M.zoom FSt.st (fun s x => { x with st := s }) f.freeBlocks : M FSt Unit)
      ⟨f, ⟨disk.dev, b⟩⟩ = (r, ⟨f, st'⟩) := by
    rw [M.run_zoom]
    show ((f.freeBlocks ⟨disk.dev, b⟩).1, FSt.mk f (f.freeBlocks ⟨disk.dev, b⟩).2) = _
    rw [hm]
  have h := hset ⟨disk.dev, b⟩ hw hb
  rw [hm] at h
  rcases h with ⟨hr, w, o⟩ | ⟨y, hr⟩ | ⟨hn, hr⟩
  · cases hr
    rw [M.bind_of_ok hz]
    rw [M.bind_of_ok (m := M.modify _) (s' := ⟨f.setEntry f.entry.scratch, st'⟩) (a := ()) rfl]
    rw [M.run_zoom]
    show ((St.updDev (fun d => d.writeEntry f.entry.scratch) st').1 ≠ _) ∧ _
    rw [hent]
    rcases writeEntry_any (e := e.scratch) (st := st') w hpos hp.valid hp.fits hp.size hn hx with
      ⟨u, h⟩ | ⟨y, h⟩
    · rw [h]; exact ⟨nofun, nofun⟩
    · rw [h]; exact ⟨nofun, nofun⟩
  · cases hr
    rw [M.bind_of_error hz]
    exact ⟨nofun, nofun⟩
  · cases hr
    rw [M.bind_of_error hz]
    exact ⟨nofun, fun _ => Classical.not_not.1 hn⟩

/-- **C55, refuted.** On images of every type, deleting a GEOS file whose chain is intact panics if
its entry names an info block that cannot be in the BAM: on a track that does not exist, or with
a sector number above 63. -/
theorem C55_info_block_refuted (hw : Wf disk.dev s) (hb : BamOf b s.type) (hwr : Writable disk.dev)
    {f : GEOSFile} {g : GEOSExtra} (hg : f.entry.extra = .geos g) {locs : List Location}
    {content : List Byte} (hh : locs.head? = some f.entry.firstSector)
    (hc : IsChain disk.dev s locs content) (hin : ∀ l ∈ locs, l.track.toNat ≤ bamTracks s.type)
    (hi : g.infoBlock.track = 0 ∧ g.infoBlock.sector ≠ 0 ∨ bamTracks s.type < g.infoBlock.track.toNat ∨
      g.infoBlock.track ≠ 0 ∧ 64 ≤ g.infoBlock.sector.toNat) :
    (File.delete ⟨.geosSequential f, ⟨disk.dev, b⟩⟩).1 = .error .panic := by
  have hlocs := chainLocations_chain hw hc hh
  obtain ⟨b1, r1, -, o1, -, -⟩ := freeAll_ok disk.dev locs hb fun l hl =>
    ⟨(hc.valid l hl).1, hin l hl, (hc.valid l hl).2.2⟩
  obtain ⟨d2, r2, w2⟩ | r2 := flushBam_or (st := ⟨disk.dev, b1⟩) hw o1
  · have hrem : removeChain f.entry.firstSector ⟨disk.dev, b⟩ = (.ok (), ⟨d2, b1⟩) := by
      unfold removeChain
      rw [M.bind_of_ok (s' := (⟨disk.dev, b⟩ : St)) (a := locs) (by rw [readDev_run, hlocs])]
      rw [M.bind_of_ok (s' := ⟨disk.dev, b1⟩) (a := ()) r1]
      exact r2
    have hinfo : f.entry.infoLocation = .ok (some g.infoBlock) := by
      unfold DirectoryEntry.infoLocation
      rw [hg]
      simp only
      rw [if_neg]
      rintro ⟨h1, h2⟩
      rcases hi with h | h | h
      · exact h.2 h2
      · rw [h1] at h; exact absurd h (by simp)
      · exact h.1 h1
    have hoff : b1.free g.infoBlock = .error .panic := free_far o1 (by
      rcases hi with h | h | h
      · have : g.infoBlock.track.toNat = 0 := by rw [h.1]; rfl
        omega
      · omega
      · omega)
    have hfree : (File.geosSequential f).freeBlocks ⟨disk.dev, b⟩ = (.error .panic, ⟨d2, b1⟩) := by
      show (removeChain f.entry.firstSector >>= _) _ = _
      rw [M.bind_of_ok hrem]
      rw [M.bind_of_ok (s' := ⟨d2, b1⟩) (a := some g.infoBlock) (by rw [M.run_lift, hinfo])]
      refine M.bind_of_error ?_
      unfold St.updBam
      refine M.update_error ?_
      simp only [hoff]
      rfl
    unfold File.delete
    rw [M.bind_of_ok (m := M.get) (s := (⟨.geosSequential f, ⟨disk.dev, b⟩⟩ : FSt))
      (s' := ⟨.geosSequential f, ⟨disk.dev, b⟩⟩) (a := ⟨.geosSequential f, ⟨disk.dev, b⟩⟩) rfl]
    rw [M.bind_of_error (e := .panic) (s' := ⟨.geosSequential f, ⟨d2, b1⟩⟩) (by
      rw [M.run_zoom]
      show (((File.geosSequential f).freeBlocks ⟨disk.dev, b⟩).1, FSt.mk _
        ((File.geosSequential f).freeBlocks ⟨disk.dev, b⟩).2) = _
      rw [hfree])]
  · obtain ⟨ws, h1, -⟩ := flush_writes o1 hw hwr
    unfold St.flushBam at r2
    rw [M.bind_of_ok (m := M.get) (s := (⟨disk.dev, b1⟩ : St)) (s' := ⟨disk.dev, b1⟩)
      (a := ⟨disk.dev, b1⟩) rfl] at r2
    unfold St.onDev at r2
    rw [M.run_zoom, h1] at r2
    cases r2

end


/-- The directory of a 40-track image: one program that starts on track 36. -/
def sampleDirectory : List Byte :=
  [0x00, 0xFF, 0x82, 36, 0, 0x41] ++ List.replicate 15 0xA0 ++ List.replicate 235 0

/-- The last sector of a file, holding one byte. -/
def sampleTail : List Byte := [0x00, 0x02, 0x07] ++ List.replicate 253 0

/-- A file on track 36 of a 40-track image. -/
example : ∃ (disk : Disk) (es : List DirectoryEntry) (e : DirectoryEntry),
    Wf disk.dev ⟨.d64, 40, false⟩ ∧ BamOf (freshBam .d64) .d64 ∧ disk.directory = .ok es ∧ e ∈ es ∧
      e.scheme = .linear ∧ IsChain disk.dev ⟨.d64, 40, false⟩ [⟨36, 0⟩] [7] ∧
      e.firstSector = ⟨36, 0⟩ ∧
      (File.delete ⟨.linear e, ⟨disk.dev, freshBam .d64⟩⟩).1 = .error .panic := by
  have hw0 : Wf (blankDevice D64.GEOMETRY_40) ⟨.d64, 40, false⟩ :=
    blankDevice_wf (ty := .d64) (g := D64.GEOMETRY_40) (by simp [DiskType.geometries, D64.ALLOWED_GEOMETRIES])
  have hl1 : sampleDirectory.length = 256 := by decide +kernel
  have hl2 : sampleTail.length = 256 := by decide +kernel
  have hv1 : (⟨.d64, 40, false⟩ : Shape).Valid ⟨18, 1⟩ := by decide
  have hv2 : (⟨.d64, 40, false⟩ : Shape).Valid ⟨36, 0⟩ := by decide
  have hw1 := hw0.put (l := ⟨18, 1⟩) hv1 hl1
  have hw2 := hw1.put (l := ⟨36, 0⟩) hv2 hl2
  have hb2 := hw1.blk_put_same (l := ⟨36, 0⟩) hv2 hl2
  have hb1 := hw1.blk_put (l := ⟨36, 0⟩) hv2 (l' := ⟨18, 1⟩) hv1 hl2
  rw [if_neg (by decide), hw0.blk_put_same hv1 hl1] at hb1
  generalize ((blankDevice D64.GEOMETRY_40).put _ ⟨18, 1⟩ sampleDirectory).put _ ⟨36, 0⟩ sampleTail
    = d at hw2 hb1 hb2
  have hc1 : IsChain d ⟨.d64, 40, false⟩ [⟨18, 1⟩] (slice sampleDirectory 2 254) := by
    refine ⟨by simpa using hv1, by simp, trivial, [], ⟨18, 1⟩, rfl, ?_, ?_, ?_⟩ <;> rw [hb1] <;> first | rfl | decide +kernel
  have hc2 : IsChain d ⟨.d64, 40, false⟩ [⟨36, 0⟩] [7] := by
    refine ⟨by simpa using hv2, by simp, trivial, [], ⟨36, 0⟩, rfl, ?_, ?_, ?_⟩ <;> rw [hb2] <;> first | rfl | decide +kernel
  have hlist := C30_listing (disk := ⟨D64.DISK_FORMAT, d, some (freshHeader .d64 [] (0, 0)),
    some D64.DISK_FORMAT, none, []⟩) (s := ⟨.d64, 40, false⟩) hw2 rfl rfl rfl rfl hc1
  have hmem : entryAt d ⟨.d64, 40, false⟩ ⟨⟨18, 1⟩, 0, 32⟩ ∈
      listed d ⟨.d64, 40, false⟩ (dirSlots d ⟨.d64, 40, false⟩ [⟨18, 1⟩]) := by
    unfold listed
    refine List.mem_map.2 ⟨_, List.mem_filter.2 ⟨?_, ?_⟩, rfl⟩
    · unfold dirSlots
      simp only [List.flatMap_cons, List.flatMap_nil, List.append_nil, hb1]
      decide +kernel
    · unfold slotFree slotData
      simp only [hb1]
      decide +kernel
  have hs : (entryAt d ⟨.d64, 40, false⟩ ⟨⟨18, 1⟩, 0, 32⟩).scheme = .linear := by
    unfold entryAt slotData
    simp only [hb1]
    decide +kernel
  have hf : (entryAt d ⟨.d64, 40, false⟩ ⟨⟨18, 1⟩, 0, 32⟩).firstSector = ⟨36, 0⟩ := by
    unfold entryAt slotData
    simp only [hb1]
    decide +kernel
  have hb := (freshBam_consistent .d64).toBamOf
  exact ⟨⟨D64.DISK_FORMAT, d, some (freshHeader .d64 [] (0, 0)), some D64.DISK_FORMAT, none, []⟩, _, _,
    hw2, hb, hlist, hmem, hs, hc2, hf,
    (C55_panics_iff_refuted (s := ⟨.d64, 40, false⟩) hw2 hb hlist hmem hs).2.2
      ⟨[⟨36, 0⟩], [7], by rw [hf]; rfl, hc2, ⟨36, 0⟩, by simp, by decide⟩⟩

/-- An ordinary file of a 1581 image that is listed. -/
example : ∃ (x : Session) (s : Shape) (b : Bam) (es : List DirectoryEntry) (e : DirectoryEntry),
    Wf x.disk.dev s ∧ BamOf b s.type ∧ x.disk.directory = .ok es ∧ e ∈ es ∧ e.scheme = .linear ∧
      s.type = .d81 := by
  obtain ⟨x, h⟩ := exists_formatted .d81 [0x44] (by decide) (0x30, 0x31)
  obtain ⟨a, ha, h1⟩ : ∃ a, Store.step (.create [0x41] .PRG .linear)
      (Store.empty .d81 [0x44] (0x30, 0x31)) = some (.ok (), a) ∧ a.find [0x41] = some 0 :=
    ⟨_, rfl, by decide +kernel⟩
  obtain ⟨y, -, hy⟩ := h.one ha
  have hty : a.type = .d81 := by cases ha; rfl
  obtain ⟨s, v, r, b, hrep⟩ := hy.rep
  have hr := hrep.ready
  rcases hrep.find [0x41] with ⟨i, f, g, hi, -⟩ | ⟨hno, -⟩
  · exact ⟨y, s, b, _, _, hr.onDisk.wf, hr.mounted.recorded.consistent.toBamOf,
      hr.opened.directory, mem_listing.2 ⟨i, f, hi, rfl⟩, rfl, by rw [← hrep.type, hty]⟩
  · rw [h1] at hno
    cases hno

/-- A GEOS file with an intact chain whose entry names track 99 for the info block. -/
example : ∃ g : GEOSExtra, g.infoBlock = ⟨99, 0⟩ ∧
    (File.delete ⟨.geosSequential ⟨{ DirectoryEntry.parse32 [] none with
      firstSector := ⟨1, 0⟩, extra := .geos g, scheme := .geosSequential }, none⟩,
        ⟨sampleChain, freshBam .d64⟩⟩).1 = .error .panic :=
  ⟨⟨⟨99, 0⟩, .sequential, .fromByte 0, 0, 0, 0, 0, 0⟩, rfl,
    C55_info_block_refuted (disk := ⟨D64.DISK_FORMAT, sampleChain, none, none, none, []⟩)
      sampleChain_wf (freshBam_consistent .d64).toBamOf (by unfold Writable; decide +kernel) rfl rfl
      sampleChain_isChain (by decide) (.inr (.inl (by decide)))⟩

/-! ## Witnesses for C60 (Props/Listing.lean) -/

/-- A directory sector of eight used slots. -/
def fullSector (a b : Byte) : List Byte := [a, b] ++ List.replicate 254 0x82

/-- A full directory of a 40-track image that ends on track 36: creating a file panics. -/
example : ∃ disk : Disk, Wf disk.dev ⟨.d64, 40, false⟩ ∧ disk.bam = some 0 ∧
    disk.cells[0]? = some (freshBam .d64) ∧
    IsChain disk.dev ⟨.d64, 40, false⟩ [⟨18, 1⟩, ⟨36, 0⟩] (List.replicate 508 0x82) ∧
    (Disk.nextFreeDirectoryEntry disk).1 = .error .panic := by
  have hw0 : Wf (blankDevice D64.GEOMETRY_40) ⟨.d64, 40, false⟩ :=
    blankDevice_wf (ty := .d64) (g := D64.GEOMETRY_40) (by simp [DiskType.geometries, D64.ALLOWED_GEOMETRIES])
  have hl1 : (fullSector 36 0).length = 256 := by decide +kernel
  have hl2 : (fullSector 0 0xFF).length = 256 := by decide +kernel
  have hv1 : (⟨.d64, 40, false⟩ : Shape).Valid ⟨18, 1⟩ := by decide
  have hv2 : (⟨.d64, 40, false⟩ : Shape).Valid ⟨36, 0⟩ := by decide
  have hw1 := hw0.put (l := ⟨18, 1⟩) hv1 hl1
  have hw2 := hw1.put (l := ⟨36, 0⟩) hv2 hl2
  have hb2 := hw1.blk_put_same (l := ⟨36, 0⟩) hv2 hl2
  have hb1 := hw1.blk_put (l := ⟨36, 0⟩) hv2 (l' := ⟨18, 1⟩) hv1 hl2
  rw [if_neg (by decide), hw0.blk_put_same hv1 hl1] at hb1
  generalize ((blankDevice D64.GEOMETRY_40).put _ ⟨18, 1⟩ (fullSector 36 0)).put _ ⟨36, 0⟩ (fullSector 0 0xFF)
    = d at hw2 hb1 hb2
  have hc : IsChain d ⟨.d64, 40, false⟩ [⟨18, 1⟩, ⟨36, 0⟩] (List.replicate 508 0x82) := by
    refine ⟨?_, by decide, ⟨?_, trivial⟩, [⟨18, 1⟩], ⟨36, 0⟩, rfl, ?_, ?_, ?_⟩
    · intro l hl
      rcases List.mem_cons.1 hl with rfl | hl
      · exact hv1
      · rw [List.mem_singleton.1 hl]; exact hv2
    · rw [hb1]; decide +kernel
    · rw [hb2]; decide +kernel
    · rw [hb2]; decide +kernel
    · show _ = [(⟨18, 1⟩ : Location)].flatMap _ ++ _
      simp only [List.flatMap_cons, List.flatMap_nil]
      rw [hb1, hb2]; decide +kernel
  have hb := (freshBam_consistent .d64).toBamOf
  refine ⟨⟨D64.DISK_FORMAT, d, some (freshHeader .d64 [] (0, 0)), some D64.DISK_FORMAT, some 0,
    [freshBam .d64]⟩, hw2, rfl, rfl, hc, ?_⟩
  refine (C60_panics_iff_refuted (s := ⟨.d64, 40, false⟩) hw2 rfl rfl hb).2.2
    ⟨_, _, _, ⟨36, 0⟩, rfl, rfl, hc, rfl, ?_, .inr (by decide)⟩
  intro p hp
  unfold dirSlots at hp
  simp only [List.flatMap_cons, List.flatMap_nil, List.append_nil, hb1, hb2] at hp
  unfold slotFree slotData
  rcases List.mem_append.1 hp with hp | hp
  · obtain ⟨k, hk, rfl⟩ := List.mem_map.1 hp
    rw [hb1]
    exact (by decide +kernel : ∀ k ∈ List.range (usedBytes (fullSector 36 0) / 32),
      (byteAt (slice (fullSector 36 0) (UInt8.ofNat (32 * k)).toNat 32) 2 &&& 0x8F == 0) = false) k hk
  · obtain ⟨k, hk, rfl⟩ := List.mem_map.1 hp
    rw [hb2]
    exact (by decide +kernel : ∀ k ∈ List.range (usedBytes (fullSector 0 0xFF) / 32),
      (byteAt (slice (fullSector 0 0xFF) (UInt8.ofNat (32 * k)).toNat 32) 2 &&& 0x8F == 0) = false) k hk

end Cbm
