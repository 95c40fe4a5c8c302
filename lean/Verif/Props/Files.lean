import Verif.Lemmas.FileFacts
import Verif.Lemmas.Start
/-!
# Writing and reading files (C18, C19, C20)

All theorems are about a program in any state it can reach within the contract
(`Reaches`, Spec/Observe), also with other writers open.
-/

namespace Cbm
open Spec

variable {i j k r : Nat} {a a' a₁ : Store} {x x' : Session}
  {g g' : StoredFile} {disk : Disk} {calls : List Call} {rs : List (Res Unit)} {name : Petscii}
  {type : FileType} {fin : Call}

/-! ## C18: what is written is what is read back -/

theorem newFile_runs (h : Reaches x a) (chunks : List (List Byte)) (hfin : Closes fin x.writers.length)
    (hstep : Store.step (.create name type .linear) a = some (.ok (), a')) :
    ∃ rs x' a'' i, runs (newFileCalls x name type chunks fin) x =
        (.ok () :: .ok () :: (rs ++ [.ok ()]), x') ∧
      Reaches x' a'' ∧ Created a name type a' i ∧
      a''.handles = a.handles ++ [some i] ∧
      a''.read i = some (chunks.flatten.take (254 * a.room)) ∧
      (storedName name = name → a''.find name = some i) ∧
      (chunks.flatten.length ≤ 254 * a.room ↔ ∀ r ∈ rs, r = .ok ()) := by
  obtain ⟨x₁, hx₁, hr₁⟩ := h.one hstep
  obtain ⟨i, hc⟩ := created h.good.quota hstep
  have hl : x₁.writers.length = x.writers.length := by
    rw [hr₁.writers, hc.writers, h.writers]
  have hcap : capOf a' ⟨storedName name, type.toByte ||| 0x80, []⟩ = 254 * a.room := by
    unfold capOf
    have := hc.free
    rw [← this]
    simp only [List.length_nil]
    rw [show blocksFor 0 = 1 from rfl, Nat.add_comm]
  obtain ⟨rs, x', ws, hrun, hr, -, hset, hfit, -⟩ := append_runs (k := x.files.length) hr₁
    (by rw [hc.handles, h.files]; simp) hc.slot (hc.writing h.good) chunks (hl ▸ hfin)
  rw [hl] at hrun
  have hlt := (List.getElem?_eq_some_iff.1 hc.slot).1
  refine ⟨rs, x', _, i, by rw [newFileCalls, runs_cons _ _ hx₁, hrun], hr, hc, hc.handles, ?_, ?_, ?_⟩
  · refine (read_eq (i := i) (List.getElem?_set_self hlt) hset).trans ?_
    rw [hcap]
    simp
  · intro hn
    refine find_of (List.getElem?_set_self hlt) hn ?_
    intro j g' hj hg'
    simp only [List.getElem?_set_ne (Ne.symm hj)] at hg'
    exact hc.absent j g' ((hc.others j g' hj).1 hg')
  · rw [← hfit, hcap]
    simp

/-- **C18** Create a file, write any data in any number of calls of any sizes, flush or
drop the writer.  If every call succeeds, reading through the handle gives the
concatenation of the data, and so does opening the file by name and reading it (for names
that do not end in a padding byte). -/
theorem C18_write_then_read (h : Reaches x a) (ht : type.toByte &&& 0x0F ≠ 4)
    (chunks : List (List Byte)) (hfin : Closes fin x.writers.length)
    (hrun : runs (newFileCalls x name type chunks fin) x = (rs, x')) (hok : ∀ r ∈ rs, r = .ok ()) :
    ReadsHandle x' x.files.length chunks.flatten ∧
    (name.getLast? ≠ some 0xA0 → ReadsName x'.disk name chunks.flatten) := by
  obtain ⟨res, a', hstep⟩ := create_total (type := type) ht name a
  have hres : res = .ok () := by
    obtain ⟨x₁, hx₁, -⟩ := h.one hstep
    rw [newFileCalls, runs_cons _ _ hx₁] at hrun
    cases hrun
    exact hok _ (List.mem_cons_self ..)
  subst hres
  obtain ⟨rs', x'', a'', i, hrun', hr, hc, hh, hread, hfind, hfit⟩ :=
    newFile_runs h chunks hfin hstep
  rw [hrun] at hrun'
  cases hrun'
  have hlen := hfit.2 fun r hr => hok r (by simp [hr])
  rw [List.take_of_length_le hlen] at hread
  refine ⟨hr.shows.readsHandle _ i _ (by rw [hh, h.files]; simp) hread, ?_⟩
  intro hn
  exact hr.shows.reads name i _ (hfind (storedName_plain hn)) hread

/-- **C18** It does succeed whenever the name is allowed and new, the directory is not
full and the data fit the free blocks. -/
theorem C18_succeeds_if_it_fits (h : Reaches x a) (ht : type.toByte &&& 0x0F ≠ 4)
    (chunks : List (List Byte)) (hfin : Closes fin x.writers.length) (hname : name.length ≤ 16)
    {lines : List (List Byte × Byte × Nat)} (hl : Lists x.disk lines)
    (hnew : ∀ line ∈ lines, line.1 ≠ name) (hdir : lines.length < maxSlots a.type)
    {free : Nat} (hfree : x.disk.blocksFree = .ok free)
    (hfit : max 1 ((chunks.flatten.length + 253) / 254) ≤ free) :
    ∀ r ∈ (runs (newFileCalls x name type chunks fin) x).1, r = .ok () := by
  have hlines : lines = a.listing := lists_unique hl h.shows.lists
  have hroom : a.room = free := by
    have := h.shows.blocksFree
    rw [hfree] at this
    exact (Except.ok.inj this).symm
  have hstep := create_fits (a := a) (type := type) ht hname
    (fun g hg => hnew (Store.line g) (hlines ▸ List.mem_map_of_mem hg))
    (by rw [hlines] at hdir; simpa [Store.listing] using hdir) (by omega)
  obtain ⟨a', hstep⟩ := hstep
  obtain ⟨rs, x', a'', i, hrun, -, -, -, -, -, hiff⟩ := newFile_runs h chunks hfin hstep
  rw [hrun]
  intro r hr
  simp only [List.mem_cons, List.mem_append, List.not_mem_nil, or_false] at hr
  rcases hr with rfl | rfl | hr | rfl
  · rfl
  · rfl
  · exact hiff.1 (by omega) r hr
  · rfl

/-- A disk, a name and data that meet the hypotheses. -/
example : ∃ x a lines, Reaches x a ∧ Lists x.disk lines ∧ (∀ line ∈ lines, line.1 ≠ [0x41]) ∧
    lines.length < maxSlots a.type ∧ x.disk.blocksFree = .ok 664 := by
  obtain ⟨x, hx⟩ := exists_formatted .d64 [0x41] (by decide) (0x30, 0x31)
  exact ⟨x, _, [], hx, hx.shows.lists, by simp, by decide, hx.shows.blocksFree⟩

/-! ## C19: appending -/

theorem append_old (h : Reaches x a) (hk : a.handles[k]? = some (some i))
    (hw : a.writing i = false) {content : List Byte} (hc : ReadsHandle x k content) :
    ∃ g, a.slots[i]? = some (some g) ∧ g.data = content := by
  obtain ⟨g, hg⟩ := h.handle hk
  refine ⟨g, hg, readsHandle_unique (h.shows.readsHandle k i g.data hk (read_eq hg ?_)) hc⟩
  intro w hm e
  have := List.any_eq_false.1 hw w hm
  simp [e] at this

/-- **C19** Opening a writer on a file of content `content` and writing the chunks, all
successfully, leaves a file with the content followed by the chunks. -/
theorem C19_append (h : Reaches x a) (hk : a.handles[k]? = some (some i))
    (hw : a.writing i = false) {content : List Byte} (hc : ReadsHandle x k content)
    (chunks : List (List Byte)) (hfin : Closes fin x.writers.length)
    (hrun : runs (appendCalls x k chunks fin) x = (rs, x')) (hok : ∀ r ∈ rs, r = .ok ()) :
    ReadsHandle x' k (content ++ chunks.flatten) := by
  obtain ⟨g, hg, rfl⟩ := append_old h hk hw hc
  obtain ⟨rs', x'', ws, hrun', hr, -, hset, hfit, -⟩ := append_runs h hk hg hw chunks hfin
  rw [appendCalls, hrun'] at hrun
  cases hrun
  have hlen := hfit.2 fun r hr => hok r (by simp [hr])
  refine hr.shows.readsHandle k i _ hk ?_
  refine (read_eq (i := i)
    (List.getElem?_set_self (List.getElem?_eq_some_iff.1 hg).1) hset).trans ?_
  rw [List.take_of_length_le (by simpa using hlen)]

/-- **C19** In every state, also while files are being written, the block count of every
directory entry is the number of blocks of its chain; and if no writer has unflushed data
for the file it is one block for every 254 bytes, at least one. -/
theorem C19_block_count (h : Reaches x a) :
    ∃ entries, x.disk.directory = .ok entries ∧ ∀ e ∈ entries, ∃ locs content,
      chainLocations x.disk.dev e.firstSector = .ok locs ∧
      chainContent x.disk.dev e.firstSector = .ok content ∧
      e.fileSize = locs.length ∧
      ((∀ w ∈ a.writers, w.pending = false) →
        e.fileSize = max 1 ((content.length + 253) / 254)) := by
  obtain ⟨s, v, r, b, hrep⟩ := h.rep
  have hod := hrep.ready.mounted.onDisk
  refine ⟨v.listing, directory_ready hrep.ready, ?_⟩
  intro e he
  unfold Volume.listing at he
  obtain ⟨q, -, hq⟩ := List.mem_filterMap.1 he
  split at hq
  · rename_i f hf
    cases hq
    have hmem := mem_files.2 ⟨q, hf⟩
    have hch := hod.chains f hmem
    have hhead := chain_head hch
    refine ⟨f.locs, f.data, chainLocations_chain hod.wf hch hhead,
      (C16_read_ok_iff hod.wf f.first f.data).2 ⟨f.locs, hhead, hch⟩,
      hrep.ready.exact f hmem, ?_⟩
    intro hp
    obtain ⟨g, hg, hfg⟩ := hrep.slots.some_left hf
    have := hrep.settled q f g hf hg fun w hw _ => hp w hw
    show f.blocks = _
    rw [hrep.ready.exact f hmem, hfg.blocks, this]
    rfl
  · cases hq

/-- A file with content, a handle on it and no writer. -/
example : ∃ x a, Reaches x a ∧ a.handles[0]? = some (some 0) ∧ a.writing 0 = false ∧
    ReadsHandle x 0 [1, 2, 3] := by
  obtain ⟨x, hx⟩ := exists_formatted .d81 [0x41] (by decide) (0x30, 0x31)
  obtain ⟨a, ha⟩ : ∃ a, Store.run [.create [0x41] .PRG .linear, .openWriter 0, .write 0 [1, 2, 3],
        .drop 0] (Store.empty .d81 [0x41] (0x30, 0x31)) = some ([.ok (), .ok (), .ok (), .ok ()], a) ∧
      a.handles = [some 0] ∧ a.writing 0 = false ∧ a.read 0 = some [1, 2, 3] :=
    ⟨_, rfl, by decide +kernel, by decide +kernel, by decide +kernel⟩
  obtain ⟨x', -, hx'⟩ := hx.run ha.1
  have h0 : a.handles[0]? = some (some 0) := by rw [ha.2.1]; rfl
  exact ⟨x', a, hx', h0, ha.2.2.1, hx'.shows.readsHandle 0 0 _ h0 ha.2.2.2⟩

/-! ## C20: running out of space -/

/-- **C20** If a write fails, it fails with DiskFull; after the writer is closed the file
holds its old content followed by the prefix of the data that fits its own blocks and all
free ones; no block is free; the directory lists everything else as before; and every other
file that could be read reads the same. -/
theorem C20_disk_full (h : Reaches x a) (hk : a.handles[k]? = some (some i))
    (hw : a.writing i = false) {content : List Byte} (hc : ReadsHandle x k content)
    {free : Nat} (hfree : x.disk.blocksFree = .ok free)
    (chunks : List (List Byte)) (hfin : Closes fin x.writers.length)
    (hrun : runs (appendCalls x k chunks fin) x = (rs, x'))
    (hfail : ∃ r ∈ rs, r ≠ .ok ()) :
    (∀ r ∈ rs, r = .ok () ∨ r = fail .diskFull) ∧
    ReadsHandle x' k ((content ++ chunks.flatten).take
      (254 * (max 1 ((content.length + 253) / 254) + free))) ∧
    x'.disk.blocksFree = .ok 0 ∧
    (∃ pre post n attr blocks blocks', Lists x.disk (pre ++ (n, attr, blocks) :: post) ∧
      Lists x'.disk (pre ++ (n, attr, blocks') :: post)) ∧
    (∀ (name : Petscii) (j : Nat) (data : List Byte), a.find name = some j → j ≠ i →
      a.read j = some data → ReadsName x.disk name data ∧ ReadsName x'.disk name data) := by
  obtain ⟨g, hg, rfl⟩ := append_old h hk hw hc
  obtain ⟨rs', x'', ws, hrun', hr, hother, hset, hfit, hok⟩ := append_runs h hk hg hw chunks hfin
  rw [appendCalls, hrun'] at hrun
  cases hrun
  have hroom : a.room = free := by
    have := h.shows.blocksFree
    rw [hfree] at this
    exact (Except.ok.inj this).symm
  have hnofit : capOf a g < g.data.length + chunks.flatten.length := by
    refine Nat.lt_of_not_le fun hle => ?_
    obtain ⟨r, hr, hne⟩ := hfail
    simp only [List.mem_cons, List.mem_append, List.not_mem_nil, or_false] at hr
    rcases hr with rfl | hr | rfl
    · exact hne rfl
    · exact hne (hfit.1 hle r hr)
    · exact hne rfl
  have hlt := (List.getElem?_eq_some_iff.1 hg).1
  refine ⟨?_, ?_, ?_, ?_, ?_⟩
  · intro r hr
    simp only [List.mem_cons, List.mem_append, List.not_mem_nil, or_false] at hr
    rcases hr with rfl | hr | rfl
    · exact .inl rfl
    · exact hok r hr
    · exact .inl rfl
  · refine hr.shows.readsHandle k i _ hk ?_
    refine (read_eq (i := i) (List.getElem?_set_self hlt) hset).trans ?_
    rw [← hroom]
    rfl
  · rw [hr.shows.blocksFree]
    congr 1
    have hu := used_put (a := a)
      (z' := some { g with data := (g.data ++ chunks.flatten).take (capOf a g) }) hg
    simp only [Option.toList_some, List.map_cons, List.map_nil, List.sum_cons, List.sum_nil] at hu
    have hlen : ((g.data ++ chunks.flatten).take (capOf a g)).length = capOf a g := by
      rw [List.length_take, List.length_append]
      omega
    have hb : blocksFor (capOf a g) = blocksFor g.data.length + a.room := by
      have hpos := blocksFor_pos g.data.length
      have hm : ∀ m, 1 ≤ m → blocksFor (254 * m) = m := by
        intro m hm
        unfold blocksFor
        omega
      exact hm _ (by omega)
    rw [hlen, hb] at hu
    have hq := h.good.quota
    show dataBlocks a.type - (a.put i _).used = 0
    unfold Store.room at hu
    omega
  · obtain ⟨pre, post, hsplit, hpre⟩ : ∃ pre post, a.slots = pre ++ some g :: post ∧
        pre.length = i := by
      refine ⟨a.slots.take i, a.slots.drop (i + 1), ?_, by simp; omega⟩
      have hget : a.slots[i] = some g := (List.getElem?_eq_some_iff.1 hg).2
      rw [← hget, List.getElem_cons_drop, List.take_append_drop]
    refine ⟨(pre.filterMap id).map Store.line, (post.filterMap id).map Store.line, g.name, g.attr,
      blocksFor g.data.length,
      blocksFor ((g.data ++ chunks.flatten).take (capOf a g)).length, ?_, ?_⟩
    · have := h.shows.lists
      unfold Store.listing Store.files at this
      rw [hsplit] at this
      simpa [Store.line] using this
    · have := hr.shows.lists
      unfold Store.listing Store.files at this
      simp only [hsplit] at this
      rw [← hpre, List.set_append_right _ _ (Nat.le_refl _)] at this
      simpa [Store.line] using this
  · intro name j data hf hj hrd
    refine ⟨h.shows.reads name j data hf hrd, ?_⟩
    obtain ⟨gj, hgj, hd, hp⟩ := read_some hrd
    refine hr.shows.reads name j data ?_ ?_
    · obtain ⟨⟨g', hg', hn⟩, hno⟩ := find_some_iff.1 hf
      unfold Store.find
      rw [find_some_iff]
      refine ⟨⟨g', by rw [List.getElem?_set_ne (Ne.symm hj)]; exact hg', hn⟩, ?_⟩
      intro q g'' hq hg''
      by_cases hqi : q = i
      · subst hqi
        simp only [List.getElem?_set_self hlt] at hg''
        cases hg''
        exact hno q g hq hg
      · simp only [List.getElem?_set_ne (Ne.symm hqi)] at hg''
        exact hno q g'' hq hg''
    · rw [← hd]
      exact read_eq (by simp only [List.getElem?_set_ne (Ne.symm hj)]; exact hgj) (hother j hj hp)

/-- Writing 200000 bytes to a file on a formatted D64 fails. -/
example : ∃ x a data rs x', Reaches x a ∧ a.handles[0]? = some (some 0) ∧ a.writing 0 = false ∧
    ReadsHandle x 0 [1, 2, 3] ∧ x.disk.blocksFree = .ok 663 ∧
    runs (appendCalls x 0 [data] (.drop x.writers.length)) x = (rs, x') ∧
    ∃ r ∈ rs, r ≠ .ok () := by
  obtain ⟨x₀, hx₀⟩ := exists_formatted .d64 [0x41] (by decide) (0x30, 0x31)
  obtain ⟨a, ha, h1, h2, h3, h4, h5⟩ : ∃ a, Store.run [.create [0x41] .PRG .linear, .openWriter 0,
        .write 0 [1, 2, 3], .drop 0] (Store.empty .d64 [0x41] (0x30, 0x31)) =
          some ([.ok (), .ok (), .ok (), .ok ()], a) ∧
      a.handles = [some 0] ∧ a.writing 0 = false ∧ a.read 0 = some [1, 2, 3] ∧ a.room = 663 ∧
      a.slots[0]? = some (some ⟨[0x41], 0x82, [1, 2, 3]⟩) :=
    ⟨_, rfl, by decide +kernel, by decide +kernel, by decide +kernel, by decide +kernel,
      by decide +kernel⟩
  obtain ⟨data, hd⟩ : ∃ data : List Byte, data.length = 200000 :=
    ⟨List.replicate 200000 0, List.length_replicate⟩
  obtain ⟨x, -, hx⟩ := hx₀.run ha
  have h0 : a.handles[0]? = some (some 0) := by rw [h1]; rfl
  obtain ⟨rs, x', ws, hrun, -, -, -, hfit, -⟩ := append_runs hx h0 h5 h2
    [data] (.inr rfl)
  refine ⟨x, a, data, _, x', hx, h0, h2, hx.shows.readsHandle 0 0 _ h0 h3, h4 ▸ hx.shows.blocksFree,
    hrun, ?_⟩
  refine Decidable.byContradiction fun hno => ?_
  have hall : ∀ r ∈ rs, r = .ok () := by
    intro r hr
    refine Decidable.byContradiction fun hne => hno ⟨r, by simp [hr], hne⟩
  have hle := hfit.2 hall
  have hcap : capOf a ⟨[0x41], 0x82, [1, 2, 3]⟩ = 254 * 664 := by
    unfold capOf
    rw [h4]
    rfl
  rw [hcap] at hle
  simp only [List.flatten_cons, List.flatten_nil, List.append_nil, hd] at hle
  simp at hle

end Cbm
