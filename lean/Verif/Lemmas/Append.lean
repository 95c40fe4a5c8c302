import Verif.Lemmas.Commands
import Verif.Lemmas.WriteLoop
import Verif.Lemmas.Device
/-!
# Appending to a read-only image
-/

namespace Cbm
open Spec

variable {disk : Disk} {ext : Option (List Char)} {bytes : List Byte} {d : Device} {s : Shape}
  {w : ChainWriter} {st : St}

/-- A writer at the end of a file. -/
structure Pen (w : ChainWriter) : Prop where
  len : w.block.length = 256
  zero : byteAt w.block 0 = 0
  one : 1 ≤ (byteAt w.block 1).toNat
  dirty : w.dirty = true

theorem tailLoop_pen (hw : Wf d s) : ∀ (fuel : Nat) {l l' : Location} {block block' : List Byte},
    block.length = 256 → tailLoop d fuel l block = .ok (l', block') →
    block'.length = 256 ∧ byteAt block' 0 = 0 ∧ 1 ≤ (byteAt block' 1).toNat
  | 0, _, _, _, _, _, h => by cases h
  | fuel + 1, l, l', block, block', hb, h => by
    simp only [tailLoop] at h
    obtain ⟨link, h1, h2⟩ := res_bind_eq_ok.1 h
    rw [chainLink_new _ (by rw [hb]; omega)] at h1
    cases link with
    | next l2 =>
      simp only at h2
      obtain ⟨b2, h3, h4⟩ := res_bind_eq_ok.1 h2
      have hlen : b2.length = 256 := by
        by_cases hv : s.Valid l2
        · rw [hw.sector hv] at h3
          cases h3
          exact hw.blk_length hv
        · rw [hw.sector_invalid hv] at h3; cases h3
      exact tailLoop_pen hw fuel hlen h4
    | tail n =>
      simp only at h2
      cases h2
      split at h1
      · rename_i h0
        split at h1
        · cases h1
        · rename_i hne
          refine ⟨hb, h0, ?_⟩
          have : (byteAt block 1).toNat ≠ 0 := fun e => hne (UInt8.toNat_inj.1 e)
          omega
      · cases h1

theorem writer_pen (hw : Wf d s) {f : File} (h : f.writer d = .ok w) : Pen w := by
  unfold File.writer at h
  split at h
  · rename_i e
    unfold ChainWriter.new at h
    obtain ⟨b, h1, h2⟩ := res_bind_eq_ok.1 h
    obtain ⟨⟨l, b'⟩, h3, h4⟩ := res_bind_eq_ok.1 h2
    have hlen : b.length = 256 := by
      by_cases hv : s.Valid e.firstSector
      · rw [hw.sector hv] at h1
        cases h1
        exact hw.blk_length hv
      · rw [hw.sector_invalid hv] at h1; cases h1
    obtain ⟨k1, k2, k3⟩ := tailLoop_pen hw _ hlen h3
    cases h4
    exact ⟨k1, k2, k3, rfl⟩
  · cases h
  · split at h <;> cases h
  · split at h <;> cases h

theorem current_readOnly (hr : st.dev.image.kind = .readOnlyMap) :
    ChainWriter.writeCurrentBlock ⟨w, st⟩ = (fail .readOnly, ⟨w, st⟩) := by
  unfold ChainWriter.writeCurrentBlock
  rw [M.bind_of_ok (m := M.get) (s := (⟨w, st⟩ : WSt)) (s' := ⟨w, st⟩) (a := ⟨w, st⟩) rfl]
  unfold ChainWriter.onSt St.updDev
  rw [M.run_zoom, M.update_error (e := .err .readOnly) (by
    simp only
    rw [sectorMut_readOnly hr]; rfl)]

theorem writeLoop_readOnly (hr : st.dev.image.kind = .readOnlyMap) :
    ∀ (fuel : Nat) (bs : List Byte) {w : ChainWriter}, Pen w → bs.length ≤ fuel →
    ∃ r w', ChainWriter.writeLoop fuel bs ⟨w, st⟩ = (r, ⟨w', st⟩) ∧ Pen w' ∧
      (r = .ok () ∨ r = fail .readOnly)
  | fuel, [], w, h, _ => ⟨.ok (), w, by unfold ChainWriter.writeLoop; rfl, h, .inl rfl⟩
  | 0, b :: bs, w, h, hf => by simp at hf
  | fuel + 1, b :: bs, w, h, hf => by
    rw [writeLoop_succ]
    have hlink : ChainLink.new w.block = .ok (.tail ((byteAt w.block 1).toNat + 1)) := by
      rw [chainLink_new _ (by rw [h.len]; omega), if_pos h.zero, if_neg]
      intro e
      have := h.one
      rw [e] at this
      cases this
    have hget : (M.get : M WSt WSt) ⟨w, st⟩ = (.ok ⟨w, st⟩, ⟨w, st⟩) := rfl
    have hroom : ChainWriter.room ⟨w, st⟩ =
        if (byteAt w.block 1).toNat + 1 = 256 then (fail .readOnly, ⟨w, st⟩)
        else (.ok ((byteAt w.block 1).toNat + 1, 256 - ((byteAt w.block 1).toNat + 1)), ⟨w, st⟩) := by
      unfold ChainWriter.room
      rw [M.bind_of_ok hget, M.bind_of_ok (m := M.lift _) (s := (⟨w, st⟩ : WSt)) (s' := ⟨w, st⟩)
        (a := ChainLink.tail ((byteAt w.block 1).toNat + 1))
        (by rw [M.run_lift]; exact congrArg (·, _) hlink)]
      simp only
      by_cases he : (byteAt w.block 1).toNat + 1 = 256
      · rw [if_pos he]
        rw [if_pos (show (byteAt w.block 1).toNat + 1 = BLOCK_SIZE from he)]
        unfold ChainWriter.allocateNextBlock
        rw [M.bind_of_error (M.bind_of_error (current_readOnly hr))]
      · rw [if_neg he]
        rw [if_neg (show ¬ (byteAt w.block 1).toNat + 1 = BLOCK_SIZE from he)]
        rfl
    by_cases he : (byteAt w.block 1).toNat + 1 = 256
    · rw [if_pos he] at hroom
      rw [M.bind_of_error hroom]
      exact ⟨_, w, rfl, h, .inr rfl⟩
    · rw [if_neg he] at hroom
      rw [M.bind_of_ok hroom]
      have hlt := (byteAt w.block 1).toNat_lt
      have h1 := h.one
      generalize hn : min (256 - ((byteAt w.block 1).toNat + 1)) (b :: bs).length = n
      have hn1 : 1 ≤ n := by rw [← hn, List.length_cons]; omega
      have hn2 : n ≤ (b :: bs).length := by rw [← hn]; omega
      have htl : ((b :: bs).take n).length = n := by rw [List.length_take]; omega
      obtain ⟨block', e1, e2, e3, e4, e5⟩ := fillBlock_ok (bytes := (b :: bs).take n) h.len
        (m := (byteAt w.block 1).toNat) h.one (by rw [htl]; omega)
      obtain ⟨r, w', k1, k2, k3⟩ := writeLoop_readOnly hr fuel ((b :: bs).drop n)
        (w := { w with block := block' }) ⟨e2, e3, by show 1 ≤ (byteAt block' 1).toNat; rw [e4]; omega,
          h.dirty⟩ (by rw [List.length_drop]; omega)
      refine ⟨r, w', ?_, k2, k3⟩
      unfold afterRoom
      simp only [hn]
      rw [M.bind_of_ok hget]
      rw [M.bind_of_ok (m := M.lift _) (s := (⟨w, st⟩ : WSt)) (s' := ⟨w, st⟩) (a := block')
        (by rw [M.run_lift]; exact congrArg (·, _) e1)]
      rw [M.bind_of_ok (m := ChainWriter.modW _) (s := (⟨w, st⟩ : WSt))
        (s' := ⟨{ w with block := block' }, st⟩) (a := ()) rfl]
      exact k1

theorem write_readOnly (hr : st.dev.image.kind = .readOnlyMap) (bs : List Byte) (h : Pen w) :
    ∃ r w', ChainWriter.write bs ⟨w, st⟩ = (r, ⟨w', st⟩) ∧ Pen w' ∧
      (r = .ok bs.length ∨ r = fail .readOnly) := by
  unfold ChainWriter.write
  obtain ⟨r, w', h1, h2, h3⟩ := writeLoop_readOnly hr bs.length bs
    (w := { w with dirty := true }) ⟨h.len, h.zero, h.one, rfl⟩ (Nat.le_refl _)
  rw [M.bind_of_ok (m := ChainWriter.modW _) (s := (⟨w, st⟩ : WSt))
    (s' := ⟨{ w with dirty := true }, st⟩) (a := ()) rfl]
  rcases h3 with rfl | rfl
  · rw [M.bind_of_ok h1]
    exact ⟨_, w', rfl, h2, .inl rfl⟩
  · rw [M.bind_of_error h1]
    exact ⟨_, w', rfl, h2, .inr rfl⟩

theorem flush_pen (hr : st.dev.image.kind = .readOnlyMap) (h : Pen w) :
    ChainWriter.flush ⟨w, st⟩ = (fail .readOnly, ⟨w, st⟩) := by
  unfold ChainWriter.flush
  rw [M.bind_of_ok (m := M.get) (s := (⟨w, st⟩ : WSt)) (s' := ⟨w, st⟩) (a := ⟨w, st⟩) rfl]
  rw [if_pos h.dirty]
  rw [M.bind_of_error (current_readOnly hr)]

/-- A session with a single writer on a read-only disk. -/
structure OnePen (x : Session) (w : ChainWriter) (ref : Nat) (b : Bam) : Prop where
  writer : x.writers = [(w, ref)]
  cell : x.disk.cells[ref]? = some b
  kind : x.disk.dev.image.kind = .readOnlyMap
  pen : Pen w

theorem OnePen.run {x : Session} {ref : Nat} {b : Bam} (h : OnePen x w ref b) {α : Type}
    {m : M WSt α} {r : Res α} {w' : ChainWriter} (hm : m ⟨w, x.disk.dev, b⟩ = (r, ⟨w', x.disk.dev, b⟩))
    (hp : Pen w') : ∃ x', Session.onWriter 0 m x = (r, x') ∧ OnePen x' w' ref b ∧
      x'.disk.dev = x.disk.dev := by
  unfold Session.onWriter
  rw [h.writer]
  simp only [List.getElem?_cons_zero]
  rw [h.cell]
  simp only [hm]
  refine ⟨_, rfl, ⟨rfl, ?_, h.kind, hp⟩, rfl⟩
  show (x.disk.cells.set ref b)[ref]? = some b
  rw [List.getElem?_set_self (List.getElem?_eq_some_iff.1 h.cell).1]

theorem writes_readOnly : ∀ (pieces : List (List Byte)) {x : Session} {w : ChainWriter} {ref : Nat}
    {b : Bam}, OnePen x w ref b → ∃ r x' w',
      M.forEach pieces (fun p => Session.step (.write 0 p)) x = (r, x') ∧ OnePen x' w' ref b ∧
      (r = .ok () ∨ r = fail .readOnly)
  | [], x, w, ref, b, h => ⟨.ok (), x, w, rfl, h, .inl rfl⟩
  | p :: ps, x, w, ref, b, h => by
    obtain ⟨r, w', h1, h2, h3⟩ := write_readOnly (st := ⟨x.disk.dev, b⟩) h.kind p h.pen
    obtain ⟨x', k1, k2, -⟩ := h.run h1 h2
    rw [M.run_forEach_cons]
    rcases h3 with rfl | rfl
    · have : Session.step (.write 0 p) x = (.ok (), x') := by
        simp only [Session.step]
        rw [M.bind_of_ok k1]; rfl
      rw [this]
      exact writes_readOnly ps k2
    · have : Session.step (.write 0 p) x = (fail .readOnly, x') := by
        simp only [Session.step]
        rw [M.bind_of_error k1]
      rw [this]
      exact ⟨_, x', w', rfl, k2, .inr rfl⟩

theorem copyInto_readOnly (pieces : List (List Byte)) {x : Session} {ref : Nat} {b : Bam}
    (h : OnePen x w ref b) : (copyInto 0 pieces x).1 = fail .readOnly := by
  obtain ⟨r, x', w', h1, h2, h3⟩ := writes_readOnly pieces h
  unfold copyInto
  rcases h3 with rfl | rfl
  · rw [M.bind_of_ok h1]
    obtain ⟨x'', k1, -, -⟩ := h2.run (flush_pen (st := ⟨x'.disk.dev, b⟩) h2.kind h2.pen) h2.pen
    rw [show Session.step (.flush 0) x' = _ from k1]
  · rw [M.bind_of_error h1]

/-- No command that opens the image read-only changes it. -/
theorem inSession_readOnly {α : Type} {body : M Session α}
    (h : Keeps ReadOnlySame Session.dev body) (ext : Option (List Char)) (bytes : List Byte) :
    (inSession ext false body bytes).2 = bytes := by
  unfold inSession
  cases ho : Disk.openPath ext false bytes with
  | error e => rfl
  | ok disk =>
    obtain ⟨ty, -, -, hn⟩ := openPath_inv ho
    obtain ⟨_, -, -, -, hi, -⟩ := new_ok hn
    have hd : (body ⟨disk, [], []⟩).2.disk.dev = disk.dev :=
      h ⟨disk, [], []⟩ (by show disk.dev.image.kind = _; rw [hi]; rfl)
    simp only
    rw [hd, hi]
    rfl

theorem keep_copyInto (w : Nat) (pieces : List (List Byte)) :
    Keeps ReadOnlySame Session.dev (copyInto w pieces) := by
  intro x
  have h1 : Keeps ReadOnlySame Session.dev (do
      M.forEach pieces fun p => Session.step (.write w p)
      Session.step (.flush w) : M Session Unit) :=
    Keeps.bind (Keeps.forEach (fun p => keep_step _) _) fun _ => keep_step _
  exact Pre.trans (h1 x) (keep_step (.drop w) _)

theorem append_run {name : List Nat} (pieces : List (List Byte)) {f : File} {ref : Nat}
    (ho : Disk.openPath ext false bytes = .ok disk)
    (hf : disk.openFile (fromStrLossy name) = .ok (f, ref)) :
    (cmdAppend ext name pieces bytes).1 = match f.writer disk.dev with
      | .ok _ => fail .readOnly
      | .error e => .error e := by
  obtain ⟨ty, -, -, hn⟩ := openPath_inv ho
  obtain ⟨s, -, hwf, -, hi, -, hcells⟩ := new_ok hn
  have hk : disk.dev.image.kind = .readOnlyMap := by rw [hi]; rfl
  have hopen : Session.step (.openFile (fromStrLossy name)) ⟨disk, [], []⟩ =
      (.ok (), ⟨disk, [(f, ref)], []⟩) := by
    simp only [Session.step]
    rw [M.bind_of_ok (s' := ⟨disk, [], []⟩) (a := (f, ref)) (by rw [M.run_read, hf])]
    rfl
  have hindex : (M.read fun s : Session => indexRes s.files 0) ⟨disk, [(f, ref)], []⟩ =
      (.ok (f, ref), ⟨disk, [(f, ref)], []⟩) := rfl
  have hwriter : Session.step (.openWriter 0) ⟨disk, [(f, ref)], []⟩ =
      match f.writer disk.dev with
      | .ok w => (.ok (), ⟨disk, [(f, ref)], [(w, ref)]⟩)
      | .error e => (.error e, ⟨disk, [(f, ref)], []⟩) := by
    simp only [Session.step]
    rw [M.bind_of_ok hindex]
    cases hw : f.writer disk.dev with
    | ok w =>
      simp only
      rw [M.bind_of_ok (s' := ⟨disk, [(f, ref)], []⟩) (a := w) (by rw [M.run_read, hw])]
      rfl
    | error e =>
      simp only
      rw [M.bind_of_error (s' := ⟨disk, [(f, ref)], []⟩) (e := e) (by rw [M.run_read, hw])]
  unfold cmdAppend inSession
  rw [ho]
  simp only
  rw [M.bind_of_ok hopen]
  cases hw : f.writer disk.dev with
  | error e =>
    rw [hw] at hwriter
    rw [M.bind_of_error hwriter]
  | ok w =>
    rw [hw] at hwriter
    rw [M.bind_of_ok hwriter]
    have href : disk.bam = some ref := by
      unfold Disk.openFile Disk.openFileFromEntry at hf
      obtain ⟨e, -, h2⟩ := res_bind_eq_ok.1 hf
      obtain ⟨r, h3, h4⟩ := res_bind_eq_ok.1 h2
      obtain ⟨g, -, h5⟩ := res_bind_eq_ok.1 h4
      cases h5
      unfold Disk.bamRef at h3
      split at h3
      · cases h3; assumption
      · cases h3
    have hlt := hcells ref href
    exact copyInto_readOnly pieces (w := w) (ref := ref) (b := disk.cells[ref])
      ⟨rfl, List.getElem?_eq_getElem hlt, hk, writer_pen hwf hw⟩

theorem append_not_ok (ext : Option (List Char)) (name : List Nat) (pieces : List (List Byte))
    (bytes : List Byte) : ∃ e, (cmdAppend ext name pieces bytes).1 = .error e := by
  cases ho : Disk.openPath ext false bytes with
  | error e => exact ⟨e, by unfold cmdAppend inSession; rw [ho]⟩
  | ok disk =>
    cases hf : disk.openFile (fromStrLossy name) with
    | ok p =>
      obtain ⟨f, ref⟩ := p
      rw [append_run pieces ho hf]
      split
      · exact ⟨_, rfl⟩
      · exact ⟨_, rfl⟩
    | error e =>
      refine ⟨e, ?_⟩
      unfold cmdAppend inSession
      rw [ho]
      simp only
      rw [M.bind_of_error (s' := ⟨disk, [], []⟩) (e := e) (by
        simp only [Session.step]
        rw [M.bind_of_error (s' := ⟨disk, [], []⟩) (e := e) (by rw [M.run_read, hf])])]

end Cbm
