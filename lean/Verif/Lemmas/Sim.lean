import Verif.Lemmas.Reopen
/-!
# Every call does what the abstract store says
-/

namespace Cbm
open Spec

variable {s : Shape} {v v' v₁ : Volume} {i j r : Nat} {f f' : FileRec} {g g' : StoredFile}
  {b b' : Bam} {a a' : Store} {x x' : Session} {w : ChainWriter} {content : List Byte} {c : Call}
  {res : Res Unit}

/-- What is to be shown for a call. -/
def Simulated (c : Call) (x : Session) (s : Shape) (r : Nat) (res : Res Unit) (a' : Store) : Prop :=
  ∃ x' v' b', Session.step c x = (res, x') ∧ Rep x' s v' r b' a'

theorem onDisk_run {α : Type} {m : M Disk α} {res : Res α} {disk' : Disk}
    (h : m x.disk = (res, disk')) : Session.onDisk m x = (res, { x with disk := disk' }) := by
  unfold Session.onDisk
  rw [M.run_zoom, h]

theorem onWriter_run {α : Type} {m : M WSt α} {res : Res α} {y : WSt} {k : Nat}
    (hw : x.writers[k]? = some (w, r)) (hc : x.disk.cells[r]? = some b)
    (hm : m ⟨w, x.disk.dev, b⟩ = (res, y)) :
    Session.onWriter k m x = (res, { x with
      disk := x.disk.withSt r y.st, writers := x.writers.set k (y.w, r) }) := by
  unfold Session.onWriter
  rw [hw]
  simp only []
  rw [hc]
  simp only []
  rw [hm]
  rfl

theorem onFile_run {α : Type} {m : M FSt α} {res : Res α} {y : FSt} {k : Nat} {file : File}
    (hw : x.files[k]? = some (file, r)) (hc : x.disk.cells[r]? = some b)
    (hm : m ⟨file, x.disk.dev, b⟩ = (res, y)) :
    Session.onFile k m x = (res, { x with
      disk := x.disk.withSt r y.st, files := x.files.set k (y.file, r) }) := by
  unfold Session.onFile
  rw [hw]
  simp only []
  rw [hc]
  simp only []
  rw [hm]
  rfl

/-! ## Writers -/

/-- What a write through writer `k` gives, and what is on the disk meanwhile. -/
theorem write_rep {k : Nat} {y : StoreWriter} (buf : List Byte) (h : Rep x s v r b a)
    (hk : a.writers[k]? = some y) (hi : v.slots[y.slot]? = some (some f))
    (hg : a.slots[y.slot]? = some (some g)) :
    ∃ x' f' b', Session.step (.write k buf) x =
        (if g.data.length + buf.length ≤ 254 * (blocksFor g.data.length + a.room) then .ok ()
          else fail .diskFull, x') ∧
      Rep x' s (v.set y.slot (some f')) r b' { a with
        slots := a.slots.set y.slot (some { g with
          data := (g.data ++ buf).take (254 * (blocksFor g.data.length + a.room)) })
        writers := a.writers.set k ⟨y.slot, true⟩
        saved := false } ∧
      Grown f f' ∧
      Steps s (Growing s v y.slot f
        ((g.data ++ buf).take (254 * (blocksFor g.data.length + a.room)))) x.disk.dev x'.disk.dev ∧
      f'.locs = f.locs ++ firstBlocks s.type false (freeAt b) (f'.locs.length - f.locs.length) := by
    obtain ⟨w, f₂, g₂, hw, hg', hr, hdy⟩ := h.writers k y hk
    have hf₂ := hr.slot
    rw [hi] at hf₂
    cases hf₂
    rw [hg] at hg'
    cases hg'
    obtain ⟨g₂, hg₂, hfg⟩ := h.slots.some_left hi
    have hgg : g₂ = g := by rw [hg] at hg₂; exact (Option.some.inj (Option.some.inj hg₂)).symm
    subst hgg
    have hex : f.blocks = f.locs.length := h.ready.exact f (mem_files.2 ⟨_, hi⟩)
    obtain ⟨q, z, f', hrun, hres⟩ := write_spec buf h.ready.mounted hr hex
    have hcap : 254 * (f.locs.length + v.room s.type) =
        254 * (blocksFor g₂.data.length + a.room) := by rw [hfg.blocks, h.room]
    have hwk := (List.getElem?_eq_some_iff.1 hw).1
    have hak := (List.getElem?_eq_some_iff.1 hk).1
    refine ⟨{ x with disk := x.disk.withSt r z.st, writers := x.writers.set k (z.w, r) },
      f', z.st.bam, ?_, ?_, hres.grown, by rw [← hcap]; exact hres.steps, ?_⟩
    · simp only [Session.step]
      have hrun' := onWriter_run hw h.ready.cell hrun
      have hresult := hres.result
      rw [hcap] at hresult
      rw [hresult] at hrun'
      by_cases hfit : g₂.data.length + buf.length ≤ 254 * (blocksFor g₂.data.length + a.room)
      · rw [if_pos hfit] at hrun' ⊢
        rw [M.bind_of_ok hrun']
        rfl
      · rw [if_neg hfit] at hrun' ⊢
        exact M.bind_of_error hrun'
    · have hwr := hres.writer
      have htight := hres.tight (blocks_tight hfg.blocks)
      rw [hcap] at hwr htight
      refine h.touch hi hres.grown.first
        (g' := { g₂ with data := (g₂.data ++ buf).take (254 * (blocksFor g₂.data.length + a.room)) })
        ⟨hres.grown.name.trans hfg.name, hres.grown.attr.trans hfg.attr, tight_blocks hwr htight,
          hwr.visible⟩ rfl rfl rfl rfl rfl ?_ ?_ ?_ ?_ ?_ ?_ ?_ ?_
      · refine h.ready.update hres.mounted hres.format rfl (exact_set h.ready.exact ?_)
        intro f'' hf''
        cases hf''
        have := hres.grown.blocks
        omega
      · simpa using h.writersLen
      · intro k' y' hk' hne
        by_cases hkk : k = k'
        · subst hkk
          rw [List.getElem?_set_self hak] at hk'
          rw [← Option.some.inj hk'] at hne
          exact absurd rfl hne
        · rw [List.getElem?_set_ne hkk] at hk'
          exact ⟨k', hk', by simp only [List.getElem?_set_ne hkk]⟩
      · intro k' y' hk' heq
        by_cases hkk : k = k'
        · subst hkk
          rw [List.getElem?_set_self hak] at hk'
          rw [← Option.some.inj hk']
          exact ⟨z.w, by simp only [List.getElem?_set_self hwk], hwr, hres.dirty⟩
        · rw [List.getElem?_set_ne hkk] at hk'
          exact absurd (h.writer_unique hk hk' heq.symm) hkk
      · intro y' hy' hne
        obtain ⟨k', hk'⟩ := List.mem_iff_getElem?.1 hy'
        apply List.mem_iff_getElem?.2
        refine ⟨k', ?_⟩
        rw [List.getElem?_set_ne]
        · exact hk'
        · rintro rfl
          rw [hk] at hk'
          rw [Option.some.inj hk'] at hne
          exact hne rfl
      · have : (a.writers.set k ⟨y.slot, true⟩).map StoreWriter.slot = a.writers.map StoreWriter.slot := by
          rw [List.map_set]
          apply List.ext_getElem?
          intro k'
          rw [List.getElem?_set]
          split
          · rename_i he
            subst he
            rw [List.getElem?_map, hk]
            simp [hak]
          · rfl
        show ((a.writers.set k ⟨y.slot, true⟩).map StoreWriter.slot).Nodup
        rw [this]
        exact h.nodup
      · intro hall
        have := hall ⟨y.slot, true⟩ (List.mem_iff_getElem?.2 ⟨k, List.getElem?_set_self hak⟩) rfl
        cases this
      · intro hsv
        cases hsv
    · have hlaid := hres.laid
      have hg0 : b.format.geos = false := by rw [h.ready.bamFormat]; cases s.type <;> rfl
      rw [show (⟨x.disk.dev, b⟩ : St).bam.format.geos = false from hg0] at hlaid
      exact hlaid

theorem sim_write {k : Nat} {buf : List Byte} (h : Rep x s v r b a)
    (hs : Store.step (.write k buf) a = some (res, a')) : Simulated (.write k buf) x s r res a' := by
  simp only [Store.step] at hs
  cases hk : a.writers[k]? with
  | none => rw [hk] at hs; cases hs
  | some y =>
    rw [hk] at hs
    obtain ⟨w, f, g, hw, hg, hr, hdy⟩ := h.writers k y hk
    simp only [file?_eq.2 hg] at hs
    obtain ⟨rfl, rfl⟩ := Prod.mk.inj (Option.some.inj hs)
    obtain ⟨x', f', b', hrun, hrep, -, -, -⟩ := write_rep buf h hk hr.slot hg
    exact ⟨x', _, b', hrun, hrep⟩

theorem map_slot_set {ws : List StoreWriter} {k : Nat} {y : StoreWriter} (hk : ws[k]? = some y)
    (p : Bool) : (ws.set k ⟨y.slot, p⟩).map StoreWriter.slot = ws.map StoreWriter.slot := by
  rw [List.map_set]
  apply List.ext_getElem?
  intro k'
  rw [List.getElem?_set]
  split
  · rename_i he
    subst he
    rw [List.getElem?_map, hk]
    simp [(List.getElem?_eq_some_iff.1 hk).1]
  · rfl

/-- What a flush through writer `k` gives. -/
theorem flush_rep {k : Nat} {y : StoreWriter} (h : Rep x s v r b a) (hk : a.writers[k]? = some y)
    (hi : v.slots[y.slot]? = some (some f)) (hg : a.slots[y.slot]? = some (some g)) :
    ∃ z : WSt, Session.onWriter k ChainWriter.flush x = (.ok (), { x with
        disk := x.disk.withSt r z.st, writers := x.writers.set k (z.w, r) }) ∧
      Rep { x with disk := x.disk.withSt r z.st, writers := x.writers.set k (z.w, r) } s
        (v.set y.slot (some (withData f g.data))) r b
        { a with writers := a.writers.set k ⟨y.slot, false⟩, saved := a.saved || y.pending } ∧
      Grown f (withData f g.data) ∧
      Steps s (Growing s v y.slot f g.data) x.disk.dev z.st.dev := by
  obtain ⟨w, f₂, g₂, hw, hg', hr, hdy⟩ := h.writers k y hk
  have hf₂ := hr.slot
  rw [hi] at hf₂
  cases hf₂
  rw [hg] at hg'
  cases hg'
  obtain ⟨g₂, hg₂, hfg⟩ := h.slots.some_left hi
  have hgg : g₂ = g := by rw [hg] at hg₂; exact (Option.some.inj (Option.some.inj hg₂)).symm
  subst hgg
  obtain ⟨z, hrun, hm, hbam, hwr, hclean, hsync, hsame, hst⟩ := flush_spec h.ready.mounted hr
  have hwk := (List.getElem?_eq_some_iff.1 hw).1
  have hak := (List.getElem?_eq_some_iff.1 hk).1
  have hset : a.slots.set y.slot (some g₂) = a.slots := by
    apply List.ext_getElem?
    intro q
    rw [List.getElem?_set]
    split
    · rename_i he
      subst he
      rw [hg]
      simp [(List.getElem?_eq_some_iff.1 hg).1]
    · rfl
  refine ⟨z, onWriter_run hw h.ready.cell hrun, ?_, hr.grown, hst⟩
  refine h.touch hi (f' := withData f g₂.data) (g' := g₂) rfl
    ⟨hfg.name, hfg.attr, hfg.blocks, List.prefix_refl _⟩ rfl rfl hset.symm rfl rfl ?_ ?_ ?_ ?_ ?_ ?_ ?_ ?_
  · have := h.ready.update hm (by rw [hbam]) rfl (exact_set h.ready.exact (by
      intro f'' hf''
      cases hf''
      exact h.ready.exact f (mem_files.2 ⟨_, hi⟩)))
    rw [hbam] at this
    exact this
  · simpa using h.writersLen
  · intro k' y' hk' hne
    by_cases hkk : k = k'
    · subst hkk
      rw [List.getElem?_set_self hak] at hk'
      rw [← Option.some.inj hk'] at hne
      exact absurd rfl hne
    · rw [List.getElem?_set_ne hkk] at hk'
      exact ⟨k', hk', by simp only [List.getElem?_set_ne hkk]⟩
  · intro k' y' hk' heq
    by_cases hkk : k = k'
    · subst hkk
      rw [List.getElem?_set_self hak] at hk'
      rw [← Option.some.inj hk']
      exact ⟨z.w, by simp only [List.getElem?_set_self hwk], hwr, hclean⟩
    · rw [List.getElem?_set_ne hkk] at hk'
      exact absurd (h.writer_unique hk hk' heq.symm) hkk
  · intro y' hy' hne
    obtain ⟨k', hk'⟩ := List.mem_iff_getElem?.1 hy'
    apply List.mem_iff_getElem?.2
    refine ⟨k', ?_⟩
    rw [List.getElem?_set_ne]
    · exact hk'
    · rintro rfl
      rw [hk] at hk'
      rw [Option.some.inj hk'] at hne
      exact hne rfl
  · show ((a.writers.set k ⟨y.slot, false⟩).map StoreWriter.slot).Nodup
    rw [map_slot_set hk]
    exact h.nodup
  · intro _
    rfl
  · intro hsv
    simp only [Bool.or_eq_true] at hsv
    show Synced z.st.dev s b
    cases hp : y.pending with
    | true => exact hsync (hdy.trans hp)
    | false =>
      rw [hp] at hsv hdy
      rw [hsame hdy]
      exact h.saved (hsv.resolve_right (by simp))

theorem sim_flush {k : Nat} (h : Rep x s v r b a)
    (hs : Store.step (.flush k) a = some (res, a')) : Simulated (.flush k) x s r res a' := by
  simp only [Store.step] at hs
  cases hk : a.writers[k]? with
  | none => rw [hk] at hs; cases hs
  | some y =>
    rw [hk] at hs
    obtain ⟨rfl, rfl⟩ := Prod.mk.inj (Option.some.inj hs)
    obtain ⟨w, f, g, -, hg, hr, -⟩ := h.writers k y hk
    obtain ⟨z, hrun, hrep, -, -⟩ := flush_rep h hk hr.slot hg
    exact ⟨_, _, b, hrun, hrep⟩

/-- Forgetting a flushed writer. -/
theorem Rep.forget {k : Nat} {y : StoreWriter} (h : Rep x s v r b a) (hk : a.writers[k]? = some y)
    (hp : y.pending = false) :
    Rep { x with writers := x.writers.eraseIdx k } s v r b
      { a with writers := a.writers.eraseIdx k } where
  ready := h.ready
  type := h.type
  label := h.label
  slots := h.slots
  settled := by
    intro i f g hf hg hw
    refine h.settled i f g hf hg fun w hmem hsl => ?_
    obtain ⟨k', hk'⟩ := List.mem_iff_getElem?.1 hmem
    by_cases hkk : k' = k
    · subst hkk
      rw [hk] at hk'
      rw [← Option.some.inj hk']
      exact hp
    · exact hw w (List.mem_eraseIdx_iff_getElem?.2 ⟨k', hkk, hk'⟩) hsl
  filesLen := h.filesLen
  handles := h.handles
  writersLen := by
    have h1 := (List.getElem?_eq_some_iff.1 hk).1
    have h2 := h.writersLen
    show (x.writers.eraseIdx k).length = (a.writers.eraseIdx k).length
    rw [List.length_eraseIdx, List.length_eraseIdx, h2]
  writers := by
    intro k' y' hk'
    have hk'' : (a.writers.eraseIdx k)[k']? = some y' := hk'
    rw [List.getElem?_eraseIdx] at hk''
    show ∃ w f g, (x.writers.eraseIdx k)[k']? = _ ∧ _
    rw [List.getElem?_eraseIdx]
    split at hk''
    · rename_i hlt
      rw [if_pos hlt]
      exact h.writers k' y' hk''
    · rename_i hlt
      rw [if_neg hlt]
      exact h.writers (k' + 1) y' hk''
  nodup := by
    show ((a.writers.eraseIdx k).map StoreWriter.slot).Nodup
    exact h.nodup.sublist ((List.eraseIdx_sublist _ _).map _)
  saved := h.saved

theorem eraseIdx_set {α : Type} (xs : List α) (k : Nat) (y : α) :
    (xs.set k y).eraseIdx k = xs.eraseIdx k := by
  apply List.ext_getElem?
  intro q
  rw [List.getElem?_eraseIdx, List.getElem?_eraseIdx]
  split
  · rw [List.getElem?_set_ne (by omega)]
  · rw [List.getElem?_set_ne (by omega)]

/-- What dropping writer `k` gives. -/
theorem drop_rep {k : Nat} {y : StoreWriter} (h : Rep x s v r b a) (hk : a.writers[k]? = some y)
    (hi : v.slots[y.slot]? = some (some f)) (hg : a.slots[y.slot]? = some (some g)) :
    ∃ x', Session.step (.drop k) x = (.ok (), x') ∧
      Rep x' s (v.set y.slot (some (withData f g.data))) r b
        { a with writers := a.writers.eraseIdx k, saved := a.saved || y.pending } ∧
      Grown f (withData f g.data) ∧
      Steps s (Growing s v y.slot f g.data) x.disk.dev x'.disk.dev := by
  obtain ⟨z, hrun, hrep, hgr, hst⟩ := flush_rep h hk hi hg
  have hak := (List.getElem?_eq_some_iff.1 hk).1
  have := hrep.forget (k := k) (y := ⟨y.slot, false⟩) (List.getElem?_set_self hak) rfl
  refine ⟨{ x with disk := x.disk.withSt r z.st, writers := x.writers.eraseIdx k },
    ?_, ?_, hgr, hst⟩
  · simp only [Session.step, Session.dropWriter]
    rw [hrun]
    simp only [eraseIdx_set]
  · simp only [eraseIdx_set] at this ⊢
    exact this

theorem sim_drop {k : Nat} (h : Rep x s v r b a)
    (hs : Store.step (.drop k) a = some (res, a')) : Simulated (.drop k) x s r res a' := by
  simp only [Store.step] at hs
  cases hk : a.writers[k]? with
  | none => rw [hk] at hs; cases hs
  | some y =>
    rw [hk] at hs
    obtain ⟨rfl, rfl⟩ := Prod.mk.inj (Option.some.inj hs)
    obtain ⟨w, f, g, -, hg, hr, -⟩ := h.writers k y hk
    obtain ⟨x', hrun, hrep, -, -⟩ := drop_rep h hk hr.slot hg
    exact ⟨x', _, b, hrun, hrep⟩

/-- What opening a writer gives. -/
theorem openWriter_rep {k : Nat} (h : Rep x s v r b a) (hk : a.handles[k]? = some (some i))
    (hnw : a.writing i = false) :
    ∃ x', Session.step (.openWriter k) x = (.ok (), x') ∧ x'.disk = x.disk ∧
      Rep x' s v r b { a with writers := a.writers ++ [⟨i, true⟩] } := by
  obtain ⟨file, f, hfile, hh⟩ := h.handles k i hk
  obtain ⟨e, ex, rfl, hp, hfs, _⟩ := hh.entry
  obtain ⟨w, hw, hwe, hwd, hwr⟩ := writer_new h.onDisk hh.slot hp
  obtain ⟨g, hg, hfg⟩ := h.slots.some_left hh.slot
  have hno : ∀ y ∈ a.writers, y.slot ≠ i := by
    intro y hy he
    rw [writing_iff.2 ⟨y, hy, he⟩] at hnw
    cases hnw
  have hdata : f.data = g.data :=
    h.settled i f g hh.slot hg fun y hy he => absurd he (hno y hy)
  refine ⟨{ x with writers := x.writers ++ [(w, r)] }, ?_, rfl, ?_⟩
  · simp only [Session.step]
    rw [M.bind_of_ok (s := x) (s' := x) (a := (File.linear e, r))
      (by rw [M.run_read]; unfold indexRes; rw [hfile])]
    rw [M.bind_of_ok (s := x) (s' := x) (a := w)
      (by rw [M.run_read]; unfold File.writer; simp only []; rw [hfs, hw])]
    rfl
  · refine { ready := h.ready, type := h.type, label := h.label, slots := h.slots, settled := ?_,
             filesLen := h.filesLen, handles := h.handles, writersLen := ?_, writers := ?_,
             nodup := ?_, saved := h.saved }
    · intro i' f' g' hf' hg' hw'
      exact h.settled i' f' g' hf' hg' fun y hy he =>
        hw' y (List.mem_append_left _ hy) he
    · show (x.writers ++ [(w, r)]).length = (a.writers ++ [(⟨i, true⟩ : StoreWriter)]).length
      simp [h.writersLen]
    · intro k' y' hk'
      show ∃ w' f g, (x.writers ++ [(w, r)])[k']? = _ ∧ _
      have hk'' : (a.writers ++ [(⟨i, true⟩ : StoreWriter)])[k']? = some y' := hk'
      by_cases hlt : k' < a.writers.length
      · rw [List.getElem?_append_left hlt] at hk''
        rw [List.getElem?_append_left (by rw [h.writersLen]; exact hlt)]
        exact h.writers k' y' hk''
      · rw [List.getElem?_append_right (by omega)] at hk''
        rw [List.getElem?_append_right (by rw [h.writersLen]; omega), h.writersLen]
        cases hq : k' - a.writers.length with
        | zero =>
          rw [hq] at hk''
          have : y' = ⟨i, true⟩ := by simpa using hk''.symm
          subst this
          exact ⟨w, f, g, rfl, hg, by rw [← hdata]; exact hwr, hwd⟩
        | succ n => rw [hq] at hk''; cases hk''
    · show ((a.writers ++ [(⟨i, true⟩ : StoreWriter)]).map StoreWriter.slot).Nodup
      rw [List.map_append, List.nodup_append]
      refine ⟨h.nodup, by simp, ?_⟩
      intro q hq q' hq'
      simp only [List.map_cons, List.map_nil, List.mem_singleton] at hq'
      obtain ⟨y, hy, he⟩ := List.mem_map.1 hq
      subst hq'
      rw [← he]
      exact hno y hy

theorem sim_openWriter {k : Nat} (h : Rep x s v r b a)
    (hs : Store.step (.openWriter k) a = some (res, a')) :
    Simulated (.openWriter k) x s r res a' := by
  simp only [Store.step] at hs
  split at hs
  · rename_i i hk
    split at hs
    · cases hs
    · rename_i hnw
      obtain ⟨rfl, rfl⟩ := Prod.mk.inj (Option.some.inj hs)
      obtain ⟨x', hrun, -, hrep⟩ := openWriter_rep h hk (by simpa using hnw)
      exact ⟨x', v, b, hrun, hrep⟩
  · cases hs

/-! ## Handles and the directory -/

/-- A new handle. -/
theorem Rep.addHandle {file : File} (h : Rep x s v r b a) (hh : Handle file v i f) :
    Rep { x with files := x.files ++ [(file, r)] } s v r b
      { a with handles := a.handles ++ [some i] } where
  ready := h.ready
  type := h.type
  label := h.label
  slots := h.slots
  settled := h.settled
  filesLen := by simp [h.filesLen]
  handles := by
    intro k j hk
    have hk' : (a.handles ++ [some i])[k]? = some (some j) := hk
    show ∃ file' f, (x.files ++ [(file, r)])[k]? = _ ∧ _
    by_cases hlt : k < a.handles.length
    · rw [List.getElem?_append_left hlt] at hk'
      rw [List.getElem?_append_left (by rw [h.filesLen]; exact hlt)]
      exact h.handles k j hk'
    · rw [List.getElem?_append_right (by omega)] at hk'
      rw [List.getElem?_append_right (by rw [h.filesLen]; omega), h.filesLen]
      cases hq : k - a.handles.length with
      | zero =>
        rw [hq] at hk'
        have : i = j := by simpa using hk'
        subst this
        exact ⟨file, f, rfl, hh⟩
      | succ n => rw [hq] at hk'; cases hk'
  writersLen := h.writersLen
  writers := h.writers
  nodup := h.nodup
  saved := h.saved

theorem entry_handle (h : OnDisk x.disk.dev s v) (hi : v.slots[i]? = some (some f)) :
    Handle (.linear (f.entry (slotPos v.dir i))) v i f :=
  ⟨hi, _, f.extra, rfl, rfl, rfl, h.name_le hi, rfl, h.extra_len hi⟩

theorem openFile_ready {disk : Disk} (hr : ReadyAt disk s v r b)
    (hf : disk.findDirectoryEntry name = .ok (f.entry (slotPos v.dir i))) :
    disk.openFile name = .ok (.linear (f.entry (slotPos v.dir i)), r) := by
  unfold Disk.openFile
  rw [hf]
  simp only [res_bind_ok]
  unfold Disk.openFileFromEntry Disk.bamRef
  rw [hr.bam]
  rfl

/-- What opening a file gives. -/
theorem openFile_rep {name : Petscii} (h : Rep x s v r b a) (hi : a.find name = some i) :
    ∃ x', Session.step (.openFile name) x = (.ok (), x') ∧ x'.disk = x.disk ∧
      x'.writers = x.writers ∧ Rep x' s v r b { a with handles := a.handles ++ [some i] } := by
  rcases h.find name with ⟨i', f, g, hi', hg, hfg, hfind, hn, hf⟩ | ⟨hfind, _, hf⟩
  · rw [hi] at hfind
    cases hfind
    refine ⟨{ x with files := x.files ++ [(.linear (f.entry (slotPos v.dir i)), r)] }, ?_, rfl, rfl,
      h.addHandle (entry_handle h.onDisk hi')⟩
    simp only [Session.step]
    rw [M.bind_of_ok (s := x) (s' := x) (by rw [M.run_read, openFile_ready h.ready hf])]
    rfl
  · rw [hi] at hfind
    cases hfind

theorem sim_openFile {name : Petscii} (h : Rep x s v r b a)
    (hs : Store.step (.openFile name) a = some (res, a')) :
    Simulated (.openFile name) x s r res a' := by
  simp only [Store.step] at hs
  rcases h.find name with ⟨i, f, g, hi, hg, hfg, hfind, hn, hf⟩ | ⟨hfind, _, hf⟩
  · rw [hfind] at hs
    obtain ⟨rfl, rfl⟩ := Prod.mk.inj (Option.some.inj hs)
    obtain ⟨x', hrun, -, -, hrep⟩ := openFile_rep h hfind
    exact ⟨x', v, b, hrun, hrep⟩
  · rw [hfind] at hs
    obtain ⟨rfl, rfl⟩ := Prod.mk.inj (Option.some.inj hs)
    refine ⟨x, v, b, ?_, h⟩
    simp only [Session.step]
    refine M.bind_of_error ?_
    rw [M.run_read]
    unfold Disk.openFile
    rw [hf]
    rfl

/-- The relation after the directory grew. -/
theorem Rep.extended {st : St} {new : Location} (h : Rep x s v r b a)
    (hr : ReadyAt (x.disk.withSt r st) s (v.extend new) r st.bam) :
    Rep { x with disk := x.disk.withSt r st } s (v.extend new) r st.bam a.grow where
  ready := hr
  type := h.type
  label := h.label
  slots := h.slots.append 8
  settled := by
    intro i f g hf hg hw
    have hlt : i < v.slots.length := by
      apply Nat.lt_of_not_le
      intro hle
      have := (extend_slot_new hle hf).1
      cases this
    rw [extend_slot hlt] at hf
    have hg' : (a.slots ++ List.replicate 8 none)[i]? = some (some g) := hg
    rw [List.getElem?_append_left (by rw [← h.slots.1]; exact hlt)] at hg'
    exact h.settled i f g hf hg' hw
  filesLen := h.filesLen
  handles := by
    intro k j hk
    obtain ⟨file, f, hfile, hh⟩ := h.handles k j hk
    exact ⟨file, f, hfile, hh.extend h.onDisk.slotCount⟩
  writersLen := h.writersLen
  writers := by
    intro k y hk
    obtain ⟨w, f, g, hw, hg, hr, hd⟩ := h.writers k y hk
    refine ⟨w, f, g, hw, ?_, hr.extend h.onDisk.slotCount, hd⟩
    show (a.slots ++ List.replicate 8 none)[y.slot]? = _
    rw [List.getElem?_append_left (List.getElem?_eq_some_iff.1 hg).1]
    exact hg
  nodup := h.nodup
  saved := by intro hs; cases hs

theorem reserved_rep {st : St} (h : Rep x s v r b a) (hres : Reserve s v v₁ i)
    (hr : ReadyAt (x.disk.withSt r st) s v₁ r st.bam) (hsame : v₁ = v → x.disk.withSt r st = x.disk)
    (ha : a.reserve = some (a', j)) :
    j = i ∧ ∃ b', Rep { x with disk := x.disk.withSt r st } s v₁ r b' a' := by
  rcases h.reserve_some hres with ⟨hv, hra⟩ | ⟨⟨new, hv⟩, hra⟩
  · rw [ha] at hra
    obtain ⟨h1, h2⟩ := Prod.mk.inj (Option.some.inj hra)
    subst h1
    refine ⟨h2, b, ?_⟩
    rw [hsame hv, hv]
    exact h
  · rw [ha] at hra
    obtain ⟨h1, h2⟩ := Prod.mk.inj (Option.some.inj hra)
    subst h1
    subst hv
    exact ⟨h2, st.bam, h.extended hr⟩

theorem sim_nextFree (h : Rep x s v r b a)
    (hs : Store.step .nextFreeDirectoryEntry a = some (res, a')) :
    Simulated .nextFreeDirectoryEntry x s r res a' := by
  simp only [Store.step] at hs
  rcases nextFreeDirectoryEntry_ready h.ready with ⟨v₁, i, st, hres, hrun, hm, hf, hsame, _⟩ |
    ⟨hno, hmax, hrun⟩
  · have hr1 := h.ready.update hm hf hres.header (hres.exact h.ready.exact)
    cases hra : a.reserve with
    | none =>
      rcases h.reserve_some hres with ⟨_, hra'⟩ | ⟨_, hra'⟩ <;> rw [hra] at hra' <;> cases hra'
    | some p =>
      rw [hra] at hs
      obtain ⟨rfl, rfl⟩ := Prod.mk.inj (Option.some.inj hs)
      obtain ⟨_, b', hrep⟩ := reserved_rep h hres hr1
        (fun e => by rw [hsame e, withSt_self h.ready.cell]) hra
      refine ⟨_, v₁, b', ?_, hrep⟩
      simp only [Session.step]
      rw [M.bind_of_ok (onDisk_run hrun)]
      rfl
  · rw [h.reserve_none hno hmax] at hs
    obtain ⟨rfl, rfl⟩ := Prod.mk.inj (Option.some.inj hs)
    refine ⟨x, v, b, ?_, h⟩
    simp only [Session.step]
    exact M.bind_of_error (onDisk_run hrun)

/-- The relation after an empty slot was filled. -/
theorem Rep.fill {st : St} (h : Rep x s v r b a) (hi : v.slots[i]? = some none)
    (hfg : FileRep f g) (hd : f.data = g.data)
    (hr : ReadyAt (x.disk.withSt r st) s (v.set i (some f)) r st.bam) :
    Rep { x with disk := x.disk.withSt r st } s (v.set i (some f)) r st.bam
      { a.put i (some g) with saved := false } where
  ready := hr
  type := h.type
  label := h.label
  slots := h.slots.set (.some hfg) i
  settled := by
    intro j fj gj hfj hgj hw
    have hgj' : (a.slots.set i (some g))[j]? = some (some gj) := hgj
    by_cases hij : j = i
    · subst hij
      rw [set_slot (slot_lt hi)] at hfj
      rw [List.getElem?_set_self (by have := slot_lt hi; have := h.slots.1; omega)] at hgj'
      have h1 := Option.some.inj (Option.some.inj hfj)
      have h2 := Option.some.inj (Option.some.inj hgj')
      rw [← h1, ← h2]
      exact hd
    · rw [set_slot_ne hij] at hfj
      rw [List.getElem?_set_ne (Ne.symm hij)] at hgj'
      exact h.settled j fj gj hfj hgj' hw
  filesLen := h.filesLen
  handles := by
    intro k j hk
    obtain ⟨file, fj, hfile, hh⟩ := h.handles k j hk
    refine ⟨file, fj, hfile, hh.other ?_⟩
    rintro rfl
    have := hh.slot
    rw [hi] at this
    cases this
  writersLen := h.writersLen
  writers := by
    intro k y hk
    obtain ⟨w, fj, gj, hw, hg, hwr, hdy⟩ := h.writers k y hk
    have hne : i ≠ y.slot := by
      rintro rfl
      have := hwr.slot
      rw [hi] at this
      cases this
    refine ⟨w, fj, gj, hw, ?_, hwr.other hne, hdy⟩
    show (a.slots.set i (some g))[y.slot]? = _
    rw [List.getElem?_set_ne hne]
    exact hg
  nodup := h.nodup
  saved := by intro hs; cases hs

theorem newFile_handle {slot : DirectoryEntry} {name : Petscii} {type : FileType} {first : Location}
    (hi : i < v.slots.length) (hp : slot.position = some (slotPos v.dir i)) (hn : name.length ≤ 16) :
    Handle (.linear (newFileEntry slot name type first)) (v.set i (some (newFile name type first))) i
      (newFile name type first) :=
  ⟨set_slot hi, _, List.replicate 9 0, rfl, hp, rfl, hn, rfl, by simp⟩

theorem newFile_rep {name : Petscii} {type : FileType} {first : Location} :
    FileRep (newFile name type first) ⟨storedName name, type.toByte ||| 0x80, []⟩ :=
  ⟨rfl, rfl, by simp [newFile, blocksFor], List.prefix_refl _⟩

theorem sim_create {name : Petscii} {type : FileType} {scheme : Scheme} (h : Rep x s v r b a)
    (hs : Store.step (.create name type scheme) a = some (res, a')) :
    Simulated (.create name type scheme) x s r res a' := by
  simp only [Store.step] at hs
  split at hs
  · cases hs
  · rename_i hok
    have hlin : scheme = .linear := Decidable.byContradiction fun hne => hok (.inl hne)
    have hty : type.toByte &&& 0x0F ≠ 4 := fun he => hok (.inr he)
    subst hlin
    have hout := createFile_ready h.ready name type hty
    have fails : ∀ (e : Fail) (disk' : Disk), Disk.createFile name type .linear x.disk = (.error e, disk') →
        Session.step (.create name type .linear) x = (.error e, { x with disk := disk' }) := by
      intro e disk' hrun
      simp only [Session.step]
      exact M.bind_of_error (onDisk_run hrun)
    generalize hrun : Disk.createFile name type .linear x.disk = out at hout
    cases hout with
    | tooLong hlen =>
      rw [if_pos hlen] at hs
      obtain ⟨rfl, rfl⟩ := Prod.mk.inj (Option.some.inj hs)
      exact ⟨x, v, b, fails _ _ hrun, h⟩
    | «exists» hlen hex =>
      rw [if_neg (by omega), if_pos ((h.available name).2 hex)] at hs
      obtain ⟨rfl, rfl⟩ := Prod.mk.inj (Option.some.inj hs)
      exact ⟨x, v, b, fails _ _ hrun, h⟩
    | dirFull hlen hno hnone hmax =>
      rw [if_neg (by omega), if_neg (fun hh => by
        obtain ⟨g, hg, hn⟩ := (h.available name).1 hh
        exact hno g hg hn), h.reserve_none hnone hmax] at hs
      obtain ⟨rfl, rfl⟩ := Prod.mk.inj (Option.some.inj hs)
      exact ⟨x, v, b, fails _ _ hrun, h⟩
    | @full v₁ i st hlen hno hres hroom hr hsame _ _ =>
      rw [if_neg (by omega), if_neg (fun hh => by
        obtain ⟨g, hg, hn⟩ := (h.available name).1 hh
        exact hno g hg hn)] at hs
      cases hra : a.reserve with
      | none =>
        rcases h.reserve_some hres with ⟨_, hra'⟩ | ⟨_, hra'⟩ <;> rw [hra] at hra' <;> cases hra'
      | some p =>
        obtain ⟨a₁, j⟩ := p
        obtain ⟨rfl, b', hrep⟩ := reserved_rep h hres hr hsame hra
        rw [hra] at hs
        simp only [] at hs
        rw [if_pos (by rw [hrep.room, hres.room]; exact hroom)] at hs
        obtain ⟨rfl, rfl⟩ := Prod.mk.inj (Option.some.inj hs)
        exact ⟨_, v₁, b', fails _ _ hrun, hrep⟩
    | @created v₁ i st₁ st slot first hlen hno hres hr1 hsame hroom hdl hnu hp hr _ _ =>
      rw [if_neg (by omega), if_neg (fun hh => by
        obtain ⟨g, hg, hn⟩ := (h.available name).1 hh
        exact hno g hg hn)] at hs
      cases hra : a.reserve with
      | none =>
        rcases h.reserve_some hres with ⟨_, hra'⟩ | ⟨_, hra'⟩ <;> rw [hra] at hra' <;> cases hra'
      | some p =>
        obtain ⟨a₁, j⟩ := p
        obtain ⟨rfl, b', hrep⟩ := reserved_rep h hres hr1 hsame hra
        rw [hra] at hs
        simp only [] at hs
        rw [if_neg (by rw [hrep.room, hres.room]; omega)] at hs
        obtain ⟨rfl, rfl⟩ := Prod.mk.inj (Option.some.inj hs)
        have hfill := hrep.fill (st := st) hres.slot (newFile_rep (name := name) (type := type)
          (first := first)) rfl (by rw [withSt_withSt]; exact hr)
        simp only [withSt_withSt] at hfill
        have hadd := hfill.addHandle
          (newFile_handle (type := type) (first := first) (slot_lt hres.slot) hp hlen)
        refine ⟨_, _, _, ?_, hadd⟩
        simp only [Session.step]
        rw [M.bind_of_ok (onDisk_run hrun)]
        rfl

theorem getElem?_map_handle {hs : List (Option Nat)} {k i j : Nat}
    (h : (hs.map fun q => if q = some i then none else q)[k]? = some (some j)) :
    hs[k]? = some (some j) ∧ j ≠ i := by
  rw [List.getElem?_map] at h
  cases hk : hs[k]? with
  | none => rw [hk] at h; cases h
  | some q =>
    rw [hk] at h
    simp only [Option.map_some, Option.some.injEq] at h
    split at h
    · cases h
    · rename_i hne
      subst h
      exact ⟨rfl, fun e => hne (by rw [e])⟩

/-- `delete` within the contract. -/
theorem delete_rep {k : Nat} (h : Rep x s v r b a) (hk : a.handles[k]? = some (some i))
    (hnw : ¬a.writing i = true) {file : File} {f : FileRec} {z : FSt} (hh : Handle file v i f)
    (hm : Mounted z.st s (v.set i none)) (hfmt : z.st.bam.format = b.format)
    (hsync : Synced z.st.dev s z.st.bam) :
    Rep { x with disk := x.disk.withSt r z.st, files := x.files.set k (z.file, r) } s (v.set i none) r
      z.st.bam { a.put i none with
        handles := a.handles.map fun k => if k = some i then none else k, saved := true } := by
  have hno : ∀ y ∈ a.writers, y.slot ≠ i := by
    intro y hy he
    exact hnw (writing_iff.2 ⟨y, hy, he⟩)
  refine { ready := ?_, type := h.type, label := h.label, slots := h.slots.set .none i, settled := ?_,
           filesLen := ?_, handles := ?_, writersLen := h.writersLen, writers := ?_,
           nodup := h.nodup, saved := fun _ => hsync }
  · exact h.ready.update hm hfmt rfl (exact_set h.ready.exact fun f' hf' => by cases hf')
  · intro j fj gj hfj hgj hw
    have hgj' : (a.slots.set i none)[j]? = some (some gj) := hgj
    by_cases hij : j = i
    · subst hij
      rw [set_slot (slot_lt hh.slot)] at hfj
      cases hfj
    · rw [set_slot_ne hij] at hfj
      rw [List.getElem?_set_ne (Ne.symm hij)] at hgj'
      exact h.settled j fj gj hfj hgj' hw
  · simp [h.filesLen]
  · intro k' j hk'
    obtain ⟨hk'', hne⟩ := getElem?_map_handle hk'
    obtain ⟨file', f', hfile', hh'⟩ := h.handles k' j hk''
    refine ⟨file', f', ?_, hh'.other (Ne.symm hne)⟩
    show (x.files.set k (z.file, r))[k']? = _
    rw [List.getElem?_set_ne]
    · exact hfile'
    · rintro rfl
      rw [hk] at hk''
      exact hne (Option.some.inj (Option.some.inj hk'')).symm
  · intro k' y hk'
    obtain ⟨w, fj, gj, hw, hg, hwr, hdy⟩ := h.writers k' y hk'
    have hne := hno y (List.mem_of_getElem? hk')
    refine ⟨w, fj, gj, hw, ?_, hwr.other (Ne.symm hne), hdy⟩
    show (a.slots.set i none)[y.slot]? = _
    rw [List.getElem?_set_ne (Ne.symm hne)]
    exact hg

theorem sim_delete {k : Nat} (h : Rep x s v r b a)
    (hs : Store.step (.delete k) a = some (res, a')) : Simulated (.delete k) x s r res a' := by
  simp only [Store.step] at hs
  split at hs
  · rename_i i hk
    split at hs
    · cases hs
    · rename_i hnw
      obtain ⟨rfl, rfl⟩ := Prod.mk.inj (Option.some.inj hs)
      obtain ⟨file, f, hfile, hh⟩ := h.handles k i hk
      obtain ⟨z, hrun, hm, hfmt, hsync, _, _⟩ := delete_spec h.ready.mounted hh
      exact ⟨_, v.set i none, z.st.bam, onFile_run hfile h.ready.cell hrun,
        delete_rep h hk hnw hh hm hfmt hsync⟩
  · cases hs

/-- `rename` on a disk in use. -/
theorem rename_ready {disk : Disk} (h : ReadyAt disk s v r b) (original new : Petscii) :
    ((∀ g ∈ v.files, g.name ≠ original) ∧ Disk.rename original new disk = (fail .notFound, disk)) ∨
    (∃ (i : Nat) (f : FileRec), v.slots[i]? = some (some f) ∧ f.name = original ∧
      (∀ (j : Nat) (g : FileRec), j < i → v.slots[j]? = some (some g) → g.name ≠ original) ∧
      ((16 < new.length ∧ Disk.rename original new disk = (fail .filenameTooLong, disk)) ∨
       (new.length ≤ 16 ∧ (∃ g ∈ v.files, g.name = new) ∧
          Disk.rename original new disk = (fail .fileExists, disk)) ∨
       (new.length ≤ 16 ∧ (∀ g ∈ v.files, g.name ≠ new) ∧ ∃ d',
          Disk.rename original new disk = (.ok (), { disk with dev := d' }) ∧
          ReadyAt { disk with dev := d' } s (v.set i (some { f with name := storedName new })) r b ∧
          (∀ P : Device → Prop, P disk.dev → P d' → Steps s P disk.dev d') ∧
          d' = putSlot disk.dev s v i (rendered { f.entry (slotPos v.dir i) with filename := new }
            f.extra (slotAt disk.dev s v.dir i))))) := by
  rcases find_ready h original with ⟨i, f, hi, hn, hfirst, hf⟩ | ⟨hno, hf⟩
  · right
    refine ⟨i, f, hi, hn, hfirst, ?_⟩
    by_cases hlen : 16 < new.length
    · left
      refine ⟨hlen, ?_⟩
      unfold Disk.rename
      rw [M.bind_of_ok (s := disk) (s' := disk) (by rw [M.run_read, hf])]
      refine M.bind_of_error ?_
      rw [M.run_lift]
      unfold checkFilenameValidity
      rw [if_pos hlen]
    · right
      have hlen' : new.length ≤ 16 := by omega
      have hv : checkFilenameValidity new = .ok () := by
        unfold checkFilenameValidity
        rw [if_neg hlen]
      rcases available_ready h new with ⟨hex, ha⟩ | ⟨hno, ha⟩
      · left
        refine ⟨hlen', hex, ?_⟩
        unfold Disk.rename
        rw [M.bind_of_ok (s := disk) (s' := disk) (by rw [M.run_read, hf]),
          M.bind_of_ok (s := disk) (s' := disk) (a := ()) (by rw [M.run_lift, hv])]
        refine M.bind_of_error ?_
        rw [M.run_read, ha]
      · right
        have hb : f.blocks < 65536 := by
          have := blocks_lt h.mounted hi (h.exact f (mem_files.2 ⟨i, hi⟩))
          omega
        obtain ⟨d', hd', hon, hw, hst, hsame, heq⟩ :=
          rename_slot (name := new) h.onDisk h.mounted.writable hi hlen' hb
        refine ⟨hlen', hno, d', ?_, ?_, hst, heq⟩
        · unfold Disk.rename
          rw [M.bind_of_ok (s := disk) (s' := disk) (by rw [M.run_read, hf]),
            M.bind_of_ok (s := disk) (s' := disk) (a := ()) (by rw [M.run_lift, hv]),
            M.bind_of_ok (s := disk) (s' := disk) (a := ()) (by rw [M.run_read, ha])]
          unfold Disk.writeDirectoryEntry Disk.onDev
          rw [M.run_zoom, M.run_update, hd']
        · exact { native := h.native, format := h.format, header := h.header, noGeos := h.noGeos,
                  bam := h.bam, cell := h.cell, bamFormat := h.bamFormat,
                  mounted := ⟨hon, h.mounted.recorded.setSame hi rfl, hw⟩,
                  exact := exact_set h.exact fun f' hf' => by
                    cases hf'
                    exact h.exact f (mem_files.2 ⟨i, hi⟩) }
  · left
    refine ⟨hno, ?_⟩
    unfold Disk.rename
    refine M.bind_of_error ?_
    rw [M.run_read, hf]

theorem rendered_length {e : DirectoryEntry} {y slot : List Byte} (hs : slot.length = 32)
    (hn : e.filename.length ≤ 16) (hy : y.length = 9) : (rendered e y slot).length = 32 := by
  unfold rendered
  refine slotBytes_length hs rfl ?_ hy rfl
  rw [List.length_append, List.length_replicate]
  omega

theorem sim_rename {original new : Petscii} (h : Rep x s v r b a)
    (hs : Store.step (.rename original new) a = some (res, a')) :
    Simulated (.rename original new) x s r res a' := by
  simp only [Store.step] at hs
  have run : ∀ (res : Res Unit) (disk' : Disk), Disk.rename original new x.disk = (res, disk') →
      Session.step (.rename original new) x = (res, { x with disk := disk' }) :=
    fun _ _ hr => onDisk_run hr
  rcases rename_ready h.ready original new with ⟨hno, hrun⟩ | ⟨i, f, hi, hn, hfirst, hcase⟩
  · have hfind : a.find original = none := by
      cases hq : a.find original with
      | none => rfl
      | some i =>
        obtain ⟨g, hg, hn⟩ := (h.available original).1 (by rw [hq]; rfl)
        exact absurd hn (hno g hg)
    rw [hfind] at hs
    obtain ⟨rfl, rfl⟩ := Prod.mk.inj (Option.some.inj hs)
    exact ⟨x, v, b, run _ _ hrun, h⟩
  · obtain ⟨g, hg, hfg⟩ := h.slots.some_left hi
    have hfind : a.find original = some i := by
      unfold Store.find
      rw [find_some_iff]
      refine ⟨⟨g, hg, hfg.name.symm.trans hn⟩, ?_⟩
      intro j g' hj hg' hn'
      obtain ⟨f', hf', hfg'⟩ := h.slots.some_right hg'
      exact hfirst j f' hj hf' (hfg'.name.trans hn')
    rw [hfind] at hs
    simp only [] at hs
    rcases hcase with ⟨hlen, hrun⟩ | ⟨hlen, hex, hrun⟩ | ⟨hlen, hno, d', hrun, hr, _, heq⟩
    · rw [if_pos hlen] at hs
      obtain ⟨rfl, rfl⟩ := Prod.mk.inj (Option.some.inj hs)
      exact ⟨x, v, b, run _ _ hrun, h⟩
    · rw [if_neg (by omega), if_pos ((h.available new).2 hex)] at hs
      obtain ⟨rfl, rfl⟩ := Prod.mk.inj (Option.some.inj hs)
      exact ⟨x, v, b, run _ _ hrun, h⟩
    · rw [if_neg (by omega), if_neg (fun hh => by
        obtain ⟨g, hg, hn⟩ := (h.available new).1 hh
        exact hno g hg hn)] at hs
      simp only [file?_eq.2 hg] at hs
      obtain ⟨rfl, rfl⟩ := Prod.mk.inj (Option.some.inj hs)
      refine ⟨{ x with disk := { x.disk with dev := d' } },
        v.set i (some { f with name := storedName new }), b, run _ _ hrun, ?_⟩
      refine h.touch hi (f' := { f with name := storedName new }) rfl
        (g' := { g with name := storedName new })
        ⟨rfl, hfg.attr, hfg.blocks, hfg.shown⟩ rfl rfl rfl rfl rfl hr h.writersLen ?_ ?_ ?_ h.nodup ?_ ?_
      · intro k y hk _
        exact ⟨k, hk, rfl⟩
      · intro k y hk he
        subst he
        obtain ⟨w, fw, gw, hw, hgw, hwr, hdy⟩ := h.writers k y hk
        have h1 : fw = f := by
          have := hwr.slot
          rw [hi] at this
          exact (Option.some.inj (Option.some.inj this)).symm
        have h2 : gw = g := by
          rw [hg] at hgw
          exact (Option.some.inj (Option.some.inj hgw)).symm
        subst h1
        subst h2
        exact ⟨w, hw, hwr.renamed, hdy⟩
      · intro y hy _
        exact hy
      · intro hw
        exact h.settled i f g hi hg hw
      · intro hsv
        have hs0 := h.saved hsv
        refine hs0.frame h.onDisk.wf hr.onDisk.wf ?_
        intro l hl hsys
        show d'.blk s l = x.disk.dev.blk s l
        rw [heq]
        have hlt := slot_lt hi
        have hmem := slot_dir_mem h.onDisk hlt
        refine h.onDisk.wf.blk_put_other (h.onDisk.dir_valid hmem) hl ?_
          (putSlot_length h.onDisk hlt (rendered_length (slotAt_length h.onDisk hlt) hlen
            (h.onDisk.extra_len hi)))
        rintro rfl
        rw [(h.onDisk.dirTrack _ hmem).2] at hsys
        cases hsys

theorem sim_init (h : Rep x s v r b a) (hs : Store.step .init a = some (res, a')) :
    Simulated .init x s r res a' := by
  simp only [Store.step] at hs
  split at hs
  · rename_i hsv
    obtain ⟨rfl, rfl⟩ := Prod.mk.inj (Option.some.inj hs)
    refine ⟨x, v, b, ?_, h⟩
    simp only [Session.step, Session.onDisk]
    rw [M.run_zoom, M.update_ok (initialize_ready h.ready (h.saved hsv))]
  · cases hs

theorem sim_flushHeader (h : Rep x s v r b a) (hs : Store.step .flushHeader a = some (res, a')) :
    Simulated .flushHeader x s r res a' := by
  simp only [Store.step] at hs
  obtain ⟨rfl, rfl⟩ := Prod.mk.inj (Option.some.inj hs)
  obtain ⟨d', hrun, hready, hsync, -, -⟩ := flushHeader_ready h.ready
  refine ⟨{ x with disk := { x.disk with dev := d' } }, v, b, ?_, ?_⟩
  · simp only [Session.step, Session.onDisk]
    rw [M.run_zoom, hrun]
  · exact { h with ready := hready, saved := fun hsv => hsync (h.saved hsv) }

theorem sim_format {name : Petscii} {id : Byte × Byte} (h : Rep x s v r b a)
    (hs : Store.step (.format name id) a = some (res, a')) :
    Simulated (.format name id) x s r res a' := by
  simp only [Store.step] at hs
  split at hs
  · cases hs
  · rename_i hc
    obtain ⟨rfl, rfl⟩ := Prod.mk.inj (Option.some.inj hs)
    have hname : name.length ≤ 16 := by
      apply Nat.le_of_not_lt
      exact fun hlt => hc (Or.inl hlt)
    have hwr : a.writers = [] := Decidable.byContradiction fun hne => hc (Or.inr hne)
    have hxw : x.writers = [] := by
      have := h.writersLen
      rw [hwr] at this
      exact List.eq_nil_of_length_eq_zero this
    obtain ⟨d', b', ws, hrun, hready, hsync, -, -, -, -⟩ :=
      writeFormat_ok h.ready.mounted.onDisk.wf h.ready.mounted.writable h.ready.native
        (fun r' hr' => by
          rw [h.ready.bam] at hr'
          cases hr'
          exact (List.getElem?_eq_some_iff.1 h.ready.cell).1) hname id
    have hcr : x.disk.cellRef = r := by
      unfold Disk.cellRef
      rw [h.ready.bam]; rfl
    rw [hcr] at hready
    refine ⟨{ x with disk := ⟨x.disk.native, d', some (freshHeader s.type name id),
      some s.type.format, some x.disk.cellRef, x.disk.cellsWith b'⟩ },
      emptyVolume s.type name id, b', ?_, ?_⟩
    · simp only [Session.step, Session.onDisk]
      rw [M.run_zoom, hrun]
    · rw [hcr]
      refine ⟨hready, h.type, rfl, ?_, ?_, ?_, ?_, ?_, ?_, ?_, fun _ => hsync⟩
      · refine ⟨rfl, ?_⟩
        intro i y z hy hz
        have h1 := List.mem_of_getElem? hy
        have h2 := List.mem_of_getElem? hz
        rw [(List.mem_replicate.1 h1).2, (List.mem_replicate.1 h2).2]
        exact .none
      · intro i f g hf
        have h1 := List.mem_of_getElem? hf
        exact absurd (List.mem_replicate.1 h1).2 (by simp)
      · simpa using h.filesLen
      · intro k i hk
        rw [List.getElem?_map] at hk
        cases hh : a.handles[k]? with
        | none => rw [hh] at hk; cases hk
        | some o => rw [hh] at hk; cases hk
      · rw [hxw]
        show 0 = a.writers.length
        rw [hwr]; rfl
      · intro k y hk
        have hk : a.writers[k]? = some y := hk
        rw [hwr] at hk
        cases hk
      · show (a.writers.map StoreWriter.slot).Nodup
        rw [hwr]; simp

/-- Every call within the contract has the result the store says, and leads to a
session that shows the store after it. -/
theorem simulation (h : Rep x s v r b a) (hs : Store.step c a = some (res, a')) :
    Simulated c x s r res a' := by
  cases c with
  | create name type scheme => exact sim_create h hs
  | openFile name => exact sim_openFile h hs
  | openWriter k => exact sim_openWriter h hs
  | write k buf => exact sim_write h hs
  | flush k => exact sim_flush h hs
  | drop k => exact sim_drop h hs
  | delete k => exact sim_delete h hs
  | rename o n => exact sim_rename h hs
  | nextFreeDirectoryEntry => exact sim_nextFree h hs
  | init => exact sim_init h hs
  | flushHeader => exact sim_flushHeader h hs
  | format name id => exact sim_format h hs
  | _ => simp [Store.step] at hs

end Cbm
