import Verif.Lemmas.SafeDisk
/-!
# C79: calls that change a damaged disk

`C78` is about reading.  Here every call of the library is made on an image with any bytes, after any other
calls: it comes back with a result or an error, but for the cases listed in `Spec.Excuse`.
-/

namespace Cbm
open Spec

variable {X : Prop} {s : Shape} {disk : Disk} {x : Session} {α : Type}

/-- What stays true of the disk, the file handles and the writers. -/
structure Steady (s : Shape) (x : Session) : Prop where
  standing : Standing x.disk s
  cells : ∀ b ∈ x.disk.cells, BamSize b s.type
  files : ∀ f ∈ x.files, HandleOk s f.1 ∧ f.2 < x.disk.cells.length
  writers : ∀ w ∈ x.writers, WriterOk s w.1 ∧ w.2 < x.disk.cells.length

theorem Spec.Plain.installs {c : Call} (h : Plain s c) : Installs c = false := by
  cases c with
  | setFormat f => cases f with
    | none => rfl
    | some f => exact h.elim
  | setBam b => cases b with
    | none => rfl
    | some f => exact h.elim
  | _ => rfl

/-- The disk part of the invariant is kept by every call. -/
theorem Steady.next {c : Call} (h : Steady s x) (hp : Plain s c)
    (hf : ∀ f ∈ (Session.step c x).2.files, f ∈ x.files ∨
      HandleOk s f.1 ∧ f.2 < (Session.step c x).2.disk.cells.length)
    (hw : ∀ w ∈ (Session.step c x).2.writers, w ∈ x.writers ∨
      WriterOk s w.1 ∧ w.2 < (Session.step c x).2.disk.cells.length) :
    Steady s (Session.step c x).2 := by
  have h1 := keep_step (R := SameTail) c x s h.standing.wf
  have h2 := form_step (ty := s.type) c hp.installs x ⟨h.standing.native, h.standing.format, h.standing.bam⟩
  have h3 := cells_step (ty := s.type) (n := x.disk.cells.length) c hp.installs x
    ⟨h.standing.native, h.cells, Nat.le_refl _⟩
  refine ⟨⟨h1.1, h2.native, h2.format, h2.bam⟩, h3.size, fun f hf' => ?_, fun w hw' => ?_⟩
  · rcases hf f hf' with h' | h'
    · exact ⟨(h.files f h').1, Nat.lt_of_lt_of_le (h.files f h').2 h3.many⟩
    · exact h'
  · rcases hw w hw' with h' | h'
    · exact ⟨(h.writers w h').1, Nat.lt_of_lt_of_le (h.writers w h').2 h3.many⟩
    · exact h'

/-- A call is safe: it keeps the invariant, and it returns unless it is excused. -/
def SafeCall (s : Shape) (x : Session) (c : Call) : Prop :=
  Steady s (Session.step c x).2 ∧ (Named x c → SafeRes (Excuse x s c) (Session.step c x).1)

theorem onDisk_res {m : M Disk α} : (Session.onDisk m x).1 = (m x.disk).1 := by
  rw [onDisk_run (res := (m x.disk).1) (disk' := (m x.disk).2) rfl]

theorem onDisk_state {m : M Disk α} : (Session.onDisk m x).2 = { x with disk := (m x.disk).2 } := by
  rw [onDisk_run (res := (m x.disk).1) (disk' := (m x.disk).2) rfl]

/-- A call on the disk alone. -/
theorem safeCall_disk {c : Call} {m : M Disk Unit} (h : Steady s x) (hp : Plain s c)
    (hc : Session.step c = Session.onDisk m) (hr : Named x c → SafeRes (Excuse x s c) (m x.disk).1) :
    SafeCall s x c := by
  refine ⟨h.next hp (fun f hf => ?_) (fun w hw => ?_), fun hn => ?_⟩
  · rw [hc, onDisk_state] at hf; exact .inl hf
  · rw [hc, onDisk_state] at hw; exact .inl hw
  · rw [hc, onDisk_res]; exact hr hn

theorem Steady.cell {r : Nat} (h : Steady s x) (hr : r < x.disk.cells.length) :
    ∃ b, x.disk.cells[r]? = some b ∧ Sound s ⟨x.disk.dev, b⟩ :=
  ⟨x.disk.cells[r], List.getElem?_eq_getElem hr, h.standing.wf, h.cells _ (List.getElem_mem hr)⟩

theorem Steady.ref {r : Nat} (h : Steady s x) (hr : x.disk.bamRef = .ok r) : r < x.disk.cells.length := by
  obtain ⟨-, b, -, hb, -⟩ := h.standing.cell hr
  rcases Nat.lt_or_ge r x.disk.cells.length with hlt | hge
  · exact hlt
  · rw [List.getElem?_eq_none hge] at hb; cases hb

theorem listed_geos {e : DirectoryEntry} (hw : Wf disk.dev s) (h : .ok e ∈ disk.items)
    (hs : e.scheme = .geosSequential ∨ e.scheme = .geosVLIR) : ∃ g, e.extra = .geos g := by
  obtain ⟨p, -, hp⟩ := item_slot hw h
  obtain ⟨border, heq⟩ := hp.entry
  have hsch : entryScheme (slotData disk.dev s p) = e.scheme := by
    rw [heq]
    rfl
  rw [heq]
  rcases hs with hs | hs <;> rw [hs] at hsch <;> simp only [entryAt, DirectoryEntry.parse32, hsch, Extra.fromBytes] <;>
    exact ⟨_, rfl⟩

/-- Opening: the new handle. -/
theorem safeCall_open {c : Call} {r : Session → Res (File × Nat)} (h : Steady s x) (hp : Plain s c)
    (hc : Session.step c = (do
      let h ← M.read r
      M.modify fun s => { s with files := s.files ++ [h] }))
    (hr : SafeRes (Excuse x s c) (r x))
    (hok : ∀ f ref, r x = .ok (f, ref) → HandleOk s f ∧ ref < x.disk.cells.length) : SafeCall s x c := by
  cases hx : r x with
  | ok p =>
    have hstep : Session.step c x = (.ok (), { x with files := x.files ++ [p] }) := by
      rw [hc, M.bind_of_ok (s' := x) (a := p) (by rw [M.run_read, hx])]
      rfl
    unfold SafeCall
    have hn := h.next hp
    rw [hstep] at hn ⊢
    refine ⟨hn (fun f hf => ?_) fun w hw => .inl hw, fun _ => .inr (returns_ok _)⟩
    rcases List.mem_append.1 hf with hf | hf
    · exact .inl hf
    · rw [List.mem_singleton.1 hf]
      exact .inr (hok p.1 p.2 hx)
  | error q =>
    have hstep : Session.step c x = (.error q, x) := by
      rw [hc, M.bind_of_error (s' := x) (e := q) (by rw [M.run_read, hx])]
    unfold SafeCall
    rw [hstep]
    refine ⟨h, fun _ => ?_⟩
    rw [hx] at hr
    rcases hr with hr | hr
    · exact .inl hr
    · exact .inr hr.error

theorem openEntry_safe {e : DirectoryEntry} (h : Steady s x) (he : Placed s e)
    (hg : e.scheme = .geosSequential ∨ e.scheme = .geosVLIR → ∃ g, e.extra = .geos g)
    (hb : ¬ X → ¬ BadRelative x.disk.dev s e) :
    SafeRes X (x.disk.openFileFromEntry e) ∧
    ∀ f ref, x.disk.openFileFromEntry e = .ok (f, ref) → HandleOk s f ∧ ref < x.disk.cells.length := by
  unfold Disk.openFileFromEntry
  refine ⟨SafeRes.bind (.inr returns_bamRef) fun r _ =>
    (fromEntry_returns h.standing.wf hg hb).bind fun _ _ => .inr (returns_ok _), fun f ref hok => ?_⟩
  obtain ⟨r, hr, hok⟩ := res_bind_eq_ok.1 hok
  obtain ⟨f', hf, hok⟩ := res_bind_eq_ok.1 hok
  cases hok
  exact ⟨fromEntry_ok h.standing.wf he hg hf, h.ref hr⟩

/-- A call through a writer. -/
theorem onWriter_safe {m : M WSt α} {i : Nat} (h : Steady s x)
    (hm : ∀ w r b, x.writers[i]? = some (w, r) → x.disk.cells[r]? = some b → WSound s ⟨w, x.disk.dev, b⟩ →
      SafeRes X (m ⟨w, x.disk.dev, b⟩).1 ∧ WSound s (m ⟨w, x.disk.dev, b⟩).2) :
    (i < x.writers.length → SafeRes X (Session.onWriter i m x).1) ∧
    (Session.onWriter i m x).2.files = x.files ∧
    (Session.onWriter i m x).2.disk.cells.length = x.disk.cells.length ∧
    ∀ w ∈ (Session.onWriter i m x).2.writers, w ∈ x.writers ∨ WriterOk s w.1 ∧ w.2 < x.disk.cells.length := by
  cases hw : x.writers[i]? with
  | none =>
    have : Session.onWriter i m x = (.error .panic, x) := by
      unfold Session.onWriter
      rw [hw]
    rw [this]
    refine ⟨fun hi => ?_, rfl, rfl, fun w hw => .inl hw⟩
    rw [List.getElem?_eq_getElem hi] at hw
    cases hw
  | some p =>
    obtain ⟨w, r⟩ := p
    obtain ⟨h1, h2⟩ := h.writers _ (List.mem_of_getElem? hw)
    obtain ⟨b, hb, hs⟩ := h.cell h2
    obtain ⟨h3, h4⟩ := hm w r b hw hb ⟨hs, h1⟩
    rw [onWriter_run hw hb (res := (m ⟨w, x.disk.dev, b⟩).1) (y := (m ⟨w, x.disk.dev, b⟩).2) rfl]
    refine ⟨fun _ => h3, rfl, ?_, fun w' hw' => ?_⟩
    · show (x.disk.cells.set _ _).length = _
      rw [List.length_set]
    · rcases List.mem_or_eq_of_mem_set hw' with hw' | rfl
      · exact .inl hw'
      · exact .inr ⟨h4.w, h2⟩

theorem Safe.both {σ : Type} {P : σ → Prop} {m : M σ α} {I : σ → Prop} (h : Safe X P m (fun _ => I) I)
    {y : σ} (hy : P y) : SafeRes X (m y).1 ∧ I (m y).2 := by
  refine ⟨h.res hy, ?_⟩
  rcases h y hy with ⟨a, h1, h2⟩ | ⟨q, h1, h2, -⟩
  · exact h2
  · exact h2

/-- Every call keeps the invariant, and returns unless it is excused. -/
theorem safe_call (h : Steady s x) {c : Call} (hp : Plain s c) : SafeCall s x c := by
  have hst := h.standing
  cases c with
  | init =>
    refine safeCall_disk h hp rfl fun _ => ?_
    obtain ⟨d', hd⟩ := initialize_ok hst.wf hst.native
    rw [M.update_ok hd]
    exact .inr (returns_ok _)
  | format name id => exact safeCall_disk h hp rfl fun _ => .inr (writeFormat_returns hst name id)
  | setHeader hd => exact safeCall_disk h hp rfl fun _ => .inr (returns_ok _)
  | setFormat f => exact safeCall_disk h hp rfl fun _ => .inr (returns_ok _)
  | setBam b => exact safeCall_disk h hp rfl fun _ => .inr (returns_ok _)
  | flushHeader =>
    refine safeCall_disk h hp rfl fun _ => .inr ?_
    unfold Disk.flushHeader
    cases hh : x.disk.header with
    | none =>
      rw [M.bind_of_error (s' := x.disk) (e := .err .unformatted)
        (by rw [M.run_read]; unfold Disk.getHeader; rw [hh])]
      exact returns_fail _
    | some hd =>
      rw [M.bind_of_ok (s' := x.disk) (a := hd) (by rw [M.run_read]; unfold Disk.getHeader; rw [hh])]
      rw [M.bind_of_ok (m := M.get) (s := x.disk) (s' := x.disk) (a := x.disk) rfl, onDev_res, hst.native]
      exact headerWrite_returns hst.wf hd
  | create name type scheme =>
    obtain ⟨h1, h2⟩ := createFile_safe (X := scheme ≠ .linear ∨ BadTail x.disk s) hst name type scheme fun hX => by
      refine ⟨Classical.byContradiction fun hs => hX (.inl hs), fun hb => hX (.inr hb)⟩
    rcases hcf : Disk.createFile name type scheme x.disk with ⟨res, disk'⟩
    rw [hcf] at h1 h2
    have hn := h.next hp
    unfold SafeCall
    cases res with
    | ok p =>
      obtain ⟨e, ref⟩ := p
      have hstep : Session.step (.create name type scheme) x =
          (.ok (), { x with disk := disk', files := x.files ++ [(.linear e, ref)] }) := by
        show (_ >>= _ : M Session Unit) x = _
        rw [M.bind_of_ok (onDisk_run hcf)]
        rfl
      rw [hstep] at hn ⊢
      refine ⟨hn (fun f hf => ?_) fun w hw => .inl hw, fun _ => .inr (returns_ok _)⟩
      rcases List.mem_append.1 hf with hf | hf
      · exact .inl hf
      · rw [List.mem_singleton.1 hf]
        obtain ⟨g1, g2⟩ := h2 e ref rfl
        exact .inr ⟨⟨g1, fun _ h => by (cases h), fun ⟨g, h⟩ => by rcases h with h | h <;> cases h⟩, g2⟩
    | error q =>
      have hstep : Session.step (.create name type scheme) x = (.error q, { x with disk := disk' }) := by
        show (_ >>= _ : M Session Unit) x = _
        rw [M.bind_of_error (onDisk_run hcf)]
      rw [hstep] at hn ⊢
      refine ⟨hn (fun f hf => .inl hf) fun w hw => .inl hw, fun _ => ?_⟩
      rcases h1 with h1 | h1
      · exact .inl h1
      · exact .inr h1.error
  | openFile name =>
    by_cases hf : ∃ e, x.disk.findDirectoryEntry name = .ok e
    · obtain ⟨e, he⟩ := hf
      have hmem := (mem_of_find he).1
      obtain ⟨h1, h2⟩ := openEntry_safe (X := Excuse x s (.openFile name)) h (listed_placed hst.wf hmem)
        (listed_geos hst.wf hmem) fun hX hb => hX ⟨e, he, hb⟩
      have : x.disk.openFile name = x.disk.openFileFromEntry e := by
        unfold Disk.openFile; rw [he, res_bind_ok]
      refine safeCall_open h hp (r := fun s => s.disk.openFile name) rfl ?_ ?_
      · show SafeRes _ (x.disk.openFile name); rw [this]; exact h1
      · show ∀ f ref, x.disk.openFile name = _ → _; rw [this]; exact h2
    · have hfail : ∃ y, x.disk.findDirectoryEntry name = fail y := by
        rcases ((C78_looking hst).2.2 name ⟨0, 0⟩).1.cases with h | h
        · exact absurd h hf
        · exact h
      obtain ⟨y, hy⟩ := hfail
      have : x.disk.openFile name = fail y := by
        unfold Disk.openFile; rw [hy]; rfl
      refine safeCall_open h hp (r := fun s => s.disk.openFile name) rfl ?_ ?_
      · show SafeRes _ (x.disk.openFile name); rw [this]; exact .inr (returns_fail _)
      · show ∀ f ref, x.disk.openFile name = _ → _; rw [this]; exact fun _ _ h => by cases h
  | openEntry e =>
    obtain ⟨h1, h2⟩ := openEntry_safe (X := Excuse x s (.openEntry e)) h hp.1 hp.2 fun hX hb => hX hb
    exact safeCall_open h hp (r := fun s => s.disk.openFileFromEntry e) rfl h1 h2
  | openWriter i =>
    have hn := h.next hp
    unfold SafeCall
    cases hf : x.files[i]? with
    | none =>
      have hstep : Session.step (.openWriter i) x = (.error .panic, x) := by
        show (_ >>= _ : M Session Unit) x = _
        rw [M.bind_of_error (s' := x) (e := .panic) (by rw [M.run_read]; unfold indexRes; rw [hf])]
      rw [hstep]
      refine ⟨h, fun hi => ?_⟩
      rw [List.getElem?_eq_getElem (show i < x.files.length from hi)] at hf
      cases hf
    | some p =>
      obtain ⟨f, ref⟩ := p
      obtain ⟨h1, h2⟩ := h.files _ (List.mem_of_getElem? hf)
      have hstep : ∀ r, f.writer x.disk.dev = r → Session.step (.openWriter i) x = match r with
          | .ok w => (.ok (), { x with writers := x.writers ++ [(w, ref)] })
          | .error q => (.error q, x) := by
        intro r hr
        show (_ >>= _ : M Session Unit) x = _
        rw [M.bind_of_ok (s' := x) (a := (f, ref)) (by rw [M.run_read]; unfold indexRes; rw [hf])]
        cases r with
        | ok w =>
          show (_ >>= _ : M Session Unit) x = _
          rw [M.bind_of_ok (s' := x) (a := w) (by rw [M.run_read, hr])]
          rfl
        | error q =>
          show (_ >>= _ : M Session Unit) x = _
          rw [M.bind_of_error (s' := x) (e := q) (by rw [M.run_read, hr])]
      have hlin : ∀ w, f.writer x.disk.dev = .ok w → WriterOk s w := by
        intro w hw
        cases f with
        | linear e => exact writer_ok hst.wf h1.entry hw
        | relative g => cases hw
        | geosSequential g =>
          unfold File.writer at hw
          simp only at hw
          split at hw <;> cases hw
        | geosVLIR g =>
          unfold File.writer at hw
          simp only at hw
          split at hw <;> cases hw
      have hret : SafeRes (Excuse x s (.openWriter i)) (f.writer x.disk.dev) := by
        cases f with
        | linear e =>
          by_cases hl : chainContent x.disk.dev e.firstSector = fail .chainLoop
          · exact .inl ⟨e, ref, hf, hl⟩
          · right
            rcases C51_returns_partial hst.wf hl e with ⟨-, w, -, hw⟩ | ⟨y, -, hy⟩
            · show Returns (ChainWriter.new _ _ _); rw [hw]; exact returns_ok _
            · show Returns (ChainWriter.new _ _ _); rw [hy]; exact returns_fail _
        | relative g => exact .inr (returns_fail _)
        | geosSequential g =>
          unfold File.writer
          simp only
          split <;> exact .inr (returns_fail _)
        | geosVLIR g =>
          unfold File.writer
          simp only
          split <;> exact .inr (returns_fail _)
      rw [hstep _ rfl] at hn ⊢
      cases hwr : f.writer x.disk.dev with
      | ok w =>
        rw [hwr] at hn
        simp only at hn ⊢
        refine ⟨hn (fun f hf => .inl hf) fun w' hw' => ?_, fun _ => .inr (returns_ok _)⟩
        rcases List.mem_append.1 hw' with hw' | hw'
        · exact .inl hw'
        · rw [List.mem_singleton.1 hw']
          exact .inr ⟨hlin w hwr, h2⟩
      | error q =>
        simp only
        refine ⟨h, fun _ => ?_⟩
        rw [hwr] at hret
        rcases hret with hret | hret
        · exact .inl hret
        · exact .inr hret.error
  | write i buf =>
    obtain ⟨h1, h2, h3, h4⟩ := onWriter_safe (X := Excuse x s (.write i buf)) (m := ChainWriter.write buf) (i := i) h
      fun w r b hw hb hws => by
        obtain ⟨p, hpos, -⟩ := hws.w.entry.position
        refine ((safe_write (p := p) (k := 0) buf).post (Q' := fun _ => WSound s) fun _ _ h => h.1).both ⟨hws, fun hX => ⟨hpos, fun e => hX ?_, ?_, ?_⟩⟩
        · exact ⟨w, r, b, p, hw, hb, hpos, .inr (.inl e)⟩
        · exact Bool.eq_false_iff.2 fun e => hX ⟨w, r, b, p, hw, hb, hpos, .inr (.inr e)⟩
        · refine Nat.le_of_not_lt fun e => hX ⟨w, r, b, p, hw, hb, hpos, .inl ?_⟩
          rw [Nat.zero_add, Nat.add_zero] at e
          exact e
    have hstep : (Session.step (.write i buf) x).2 = (Session.onWriter i (ChainWriter.write buf) x).2 ∧
        (SafeRes (Excuse x s (.write i buf)) (Session.onWriter i (ChainWriter.write buf) x).1 →
          SafeRes (Excuse x s (.write i buf)) (Session.step (.write i buf) x).1) := by
      show ((_ >>= _ : M Session Unit) x).2 = _ ∧ (_ → SafeRes _ ((_ >>= _ : M Session Unit) x).1)
      rcases hr : Session.onWriter i (ChainWriter.write buf) x with ⟨r, x'⟩
      cases r with
      | ok u => rw [M.bind_of_ok hr]; exact ⟨rfl, fun _ => .inr (returns_ok _)⟩
      | error q =>
        rw [M.bind_of_error hr]
        refine ⟨rfl, fun h => ?_⟩
        rcases h with h | h
        · exact .inl h
        · exact .inr h.error
    refine ⟨h.next hp ?_ ?_, fun hn => hstep.2 (h1 hn)⟩
    · rw [hstep.1, h2]; exact fun f hf => .inl hf
    · rw [hstep.1, h3]; exact h4
  | flush i =>
    obtain ⟨h1, h2, h3, h4⟩ := onWriter_safe (X := Excuse x s (.flush i)) (m := ChainWriter.flush) (i := i) h
      fun w r b hw hb hws => safe_flush.both hws
    refine ⟨h.next hp ?_ ?_, h1⟩
    · show ∀ f ∈ (Session.onWriter i ChainWriter.flush x).2.files, _
      rw [h2]; exact fun f hf => .inl hf
    · show ∀ f ∈ (Session.onWriter i ChainWriter.flush x).2.writers, _ ∨ _ ∧ _ < (Session.onWriter i ChainWriter.flush x).2.disk.cells.length
      rw [h3]; exact h4
  | drop i =>
    obtain ⟨h1, h2, h3, h4⟩ := onWriter_safe (X := Excuse x s (.flush i)) (m := ChainWriter.flush) (i := i) h
      fun w r b hw hb hws => safe_flush.both hws
    refine ⟨h.next hp ?_ ?_, fun _ => .inr (returns_ok _)⟩
    · show ∀ f ∈ (Session.onWriter i ChainWriter.flush x).2.files, _
      rw [h2]; exact fun f hf => .inl hf
    · show ∀ f ∈ (Session.onWriter i ChainWriter.flush x).2.writers.eraseIdx i, _ ∨ _ ∧ _ < (Session.onWriter i ChainWriter.flush x).2.disk.cells.length
      rw [h3]
      exact fun w hw => h4 w (List.mem_of_mem_eraseIdx hw)
  | delete i =>
    have hn := h.next hp
    unfold SafeCall
    cases hf : x.files[i]? with
    | none =>
      have hstep : Session.step (.delete i) x = (.error .panic, x) := by
        show Session.onFile i File.delete x = _
        unfold Session.onFile
        rw [hf]
      rw [hstep]
      refine ⟨h, fun hi => ?_⟩
      rw [List.getElem?_eq_getElem (show i < x.files.length from hi)] at hf
      cases hf
    | some p =>
      obtain ⟨f, r⟩ := p
      obtain ⟨h1, h2⟩ := h.files _ (List.mem_of_getElem? hf)
      obtain ⟨b, hb, hs⟩ := h.cell h2
      have hsafe := safe_delete (X := Excuse x s (.delete i)) (s := s) (f := f) (fun hX => by
          have : ∀ t ∈ shapes, ¬ (t.type = .d64 ∧ t.tracks = 40) → t.tracks ≤ bamTracks t.type := by decide
          exact this s hst.wf.shape fun e => hX (.inl e)) (fun hX g hg h0 =>
          Classical.byContradiction fun hm => hX (.inr ⟨f, r, g, hf, hg, h0, hm⟩))
      obtain ⟨h3, h4⟩ := hsafe.both (y := ⟨f, x.disk.dev, b⟩) ⟨⟨hs, h1⟩, rfl⟩
      have hstep : Session.step (.delete i) x = ((File.delete ⟨f, x.disk.dev, b⟩).1, { x with
          disk := x.disk.withSt r (File.delete ⟨f, x.disk.dev, b⟩).2.st
          files := x.files.set i ((File.delete ⟨f, x.disk.dev, b⟩).2.file, r) }) :=
        onFile_run (m := File.delete) hf hb (res := (File.delete ⟨f, x.disk.dev, b⟩).1) (y := (File.delete ⟨f, x.disk.dev, b⟩).2) rfl
      rw [hstep] at hn ⊢
      refine ⟨hn (fun f' hf' => ?_) fun w hw => .inl hw, fun _ => h3⟩
      rcases List.mem_or_eq_of_mem_set hf' with hf' | rfl
      · exact .inl hf'
      · refine .inr ⟨h4.file, ?_⟩
        show r < (x.disk.cells.set _ _).length
        rw [List.length_set]
        exact h2
  | rename a b => exact safeCall_disk h hp rfl fun _ => .inr (rename_returns hst a b)
  | nextFreeDirectoryEntry =>
    have h1 := (nextFree_safe (X := BadTail x.disk s) hst fun hX => hX).1
    rcases hnf : Disk.nextFreeDirectoryEntry x.disk with ⟨res, disk'⟩
    rw [hnf] at h1
    have hn := h.next hp
    unfold SafeCall
    have hstep : Session.step .nextFreeDirectoryEntry x = (match res with
        | .ok _ => .ok ()
        | .error q => .error q, { x with disk := disk' }) := by
      show (_ >>= _ : M Session Unit) x = _
      cases res with
      | ok e => rw [M.bind_of_ok (onDisk_run hnf)]; rfl
      | error q => rw [M.bind_of_error (onDisk_run hnf)]
    rw [hstep] at hn ⊢
    refine ⟨hn (fun f hf => .inl hf) fun w hw => .inl hw, fun _ => ?_⟩
    rcases h1 with h1 | h1
    · exact .inl h1
    · cases res with
      | ok e => exact .inr (returns_ok _)
      | error q => exact .inr h1.error
  | writeDirectoryEntry e =>
    refine safeCall_disk h hp rfl fun _ => ?_
    unfold Disk.writeDirectoryEntry
    rw [onDev_res]
    exact update_res (f := fun d => d.writeEntry e) (x := x.disk.dev) (writeEntry_safe hst.wf fun hX =>
      Classical.not_not.1 hX)
  | writeSector l data =>
    refine safeCall_disk h hp rfl fun _ => .inr ?_
    unfold Disk.writeSector
    rw [onDev_res]
    have hw : Returns (x.disk.dev.writeSector l data) := by
      unfold Device.writeSector
      split
      · exact returns_fail _
      · rename_i hl
        rcases sectorMut_returns hst.wf (l := l) (f := copyFromSlice data) (fun hv =>
          copy_ok (Classical.not_not.1 hl) _ (hst.wf.blk_length hv)) with ⟨n, -, -, -, h1, -⟩ | ⟨y, h1⟩
        · rw [h1]; exact returns_ok _
        · rw [h1]; exact returns_fail _
    rcases update_res (X := False) (f := fun d => d.writeSector l data) (x := x.disk.dev) (.inr hw) with hf | hf
    · exact hf.elim
    · exact hf
  | sectorMut l data =>
    refine safeCall_disk h hp rfl fun _ => ?_
    rw [onDev_res]
    by_cases hl : data.length = 256
    · unfold M.sectorMut
      refine update_res (.inr ?_)
      rcases sectorMut_returns hst.wf (l := l) (f := copyFromSlice data) (fun hv =>
        copy_ok hl _ (hst.wf.blk_length hv)) with ⟨n, -, -, -, h1, -⟩ | ⟨y, h1⟩
      · rw [h1]; exact returns_ok _
      · rw [h1]; exact returns_fail _
    · exact .inl hl
  | bamAllocate r l =>
    refine safeCall_disk h hp rfl fun hn => ?_
    obtain ⟨b, hb, hs⟩ := h.cell hn
    rw [withBam_res hb]
    exact (safe_allocate (s := s) fun hX => Classical.not_not.1 hX).res hs
  | bamFree r l =>
    refine safeCall_disk h hp rfl fun hn => ?_
    obtain ⟨b, hb, hs⟩ := h.cell hn
    rw [withBam_res hb]
    exact (safe_free (s := s) fun hX => Classical.not_not.1 hX).res hs
  | bamFlush r =>
    refine safeCall_disk h hp rfl fun hn => ?_
    obtain ⟨b, hb, hs⟩ := h.cell hn
    rw [withBam_res hb]
    exact safe_flushBam.res hs

theorem steady_run : ∀ (calls : List Call) {x : Session}, Steady s x → (∀ c ∈ calls, Plain s c) →
    Steady s (Session.run calls x)
  | [], _, h, _ => h
  | c :: cs, _, h, hp => steady_run cs (safe_call h (hp c (by simp))).1 fun c' hc' =>
      hp c' (List.mem_cons_of_mem _ hc')

theorem steady_new {ty : DiskType} {image : Image} (hnew : Disk.new ty image = .ok disk) :
    ∃ s : Shape, s.type = ty ∧ Steady s ⟨disk, [], []⟩ := by
  obtain ⟨s, rfl, hwf, -⟩ := new_ok hnew
  have h := formed_new hnew
  refine ⟨s, rfl, ⟨hwf, h.native, h.format, h.bam⟩, ?_, fun _ h => by (cases h), fun _ h => by (cases h)⟩
  have hcells : Cells s.type 0 disk := by
    unfold Disk.new Disk.fromImage at hnew
    cases hf : Geometry.findBySize image.len s.type.geometries with
    | none => rw [hf] at hnew; cases hnew
    | some g =>
      rw [hf] at hnew
      exact cells_initialize hnew ⟨rfl, fun b hb => by (cases hb), Nat.zero_le _⟩
  exact hcells.size

/-- **C79** Take an image with any bytes and any size the library accepts, open it and make any calls, also
failing ones.  Then any call with any arguments returns a result or an error: it does not panic and does not
loop for ever.  The only exceptions are those of `Excuse`, and callers that pass a format, a BAM or the entry
of a file that could not come from a disk.  -/
theorem C79_calls_return {ty : DiskType} {image : Image} (hnew : Disk.new ty image = .ok disk) :
    ∃ s : Shape, s.type = ty ∧ ∀ calls : List Call, (∀ c ∈ calls, Plain s c) →
      Wf (Session.run calls ⟨disk, [], []⟩).disk.dev s ∧
      ∀ c, Plain s c → Named (Session.run calls ⟨disk, [], []⟩) c →
        ¬ Excuse (Session.run calls ⟨disk, [], []⟩) s c →
        Returns (Session.step c (Session.run calls ⟨disk, [], []⟩)).1 := by
  obtain ⟨s, hty, hs⟩ := steady_new hnew
  refine ⟨s, hty, fun calls hcalls => ?_⟩
  have h := steady_run calls hs hcalls
  refine ⟨h.standing.wf, fun c hp hn hX => ?_⟩
  exact ((safe_call h hp).2 hn).resolve_left hX

/-! ## Concrete cases -/

/-- Whatever is in 174848 bytes, after a file is created on them and another one deleted, a rename and a new
format return; so does a write through the first writer, if the counter of its file has room for it, its slot
is marked as in use and the file does not claim the sector of its own slot. -/
example (bytes : List Byte) (hl : bytes.length = 174848) : ∃ disk, Disk.new .d64 ⟨.memory, bytes⟩ = .ok disk ∧
    ∃ s : Shape, s.type = .d64 ∧ ∀ x, x = Session.run
      [.create [0x41] .PRG .linear, .openFile [0x42], .delete 1, .openWriter 0] ⟨disk, [], []⟩ →
      Returns (Session.step (.rename [0x43] [0x44]) x).1 ∧ Returns (Session.step (.format [0x45] (0, 0)) x).1 ∧
      ∀ w r b p, x.writers = [(w, r)] → x.disk.cells[r]? = some b → w.entry.position = some p →
        storedSize x.disk.dev s p ≤ 65534 → p.location ≠ w.location → isFree b p.location = false →
        Returns (Session.step (.write 0 [1, 2, 3]) x).1 := by
  obtain ⟨disk, hd⟩ := (C05_accepts_exactly .d64 ⟨.memory, bytes⟩).1.2 (by
    show bytes.length ∈ _
    rw [hl]
    decide)
  obtain ⟨s, hty, h⟩ := C79_calls_return hd
  obtain ⟨-, h⟩ := h [.create [0x41] .PRG .linear, .openFile [0x42], .delete 1, .openWriter 0] (by
    intro c hc
    simp only [List.mem_cons, List.not_mem_nil, or_false] at hc
    rcases hc with rfl | rfl | rfl | rfl <;> exact trivial)
  refine ⟨disk, hd, s, hty, fun x hx => ?_⟩
  rw [← hx] at h
  refine ⟨h _ trivial trivial id, h _ trivial trivial id, fun w r b p hw hb hp h1 h2 h3 => ?_⟩
  refine h _ trivial (show 0 < x.writers.length by rw [hw]; exact Nat.zero_lt_one) ?_
  rintro ⟨w', r', b', p', g1, g2, g3, g4⟩
  rw [hw] at g1
  cases g1
  rw [hb] at g2
  cases g2
  rw [hp] at g3
  cases g3
  rcases g4 with g4 | g4 | g4
  · have : ([1, 2, 3] : List Byte).length = 3 := rfl
    omega
  · exact h2 g4
  · rw [h3] at g4; cases g4

/-- The excuses are not idle.  Opening a writer on a chain that loops does not return (`C51`), and creating a
file that is not linear is not implemented. -/
example (x : Session) (name : Petscii) : (Session.step (.create name .REL .relative) x).1 = .error .panic := rfl

example {i r : Nat} {e : DirectoryEntry} (hw : Wf x.disk.dev s) (hf : x.files[i]? = some (.linear e, r))
    (h : chainContent x.disk.dev e.firstSector = fail .chainLoop) :
    (Session.step (.openWriter i) x).1 = .error .diverge := by
  show ((_ >>= _ : M Session Unit) x).1 = _
  rw [M.bind_of_ok (s' := x) (a := (.linear e, r)) (by rw [M.run_read]; unfold indexRes; rw [hf])]
  show ((_ >>= _ : M Session Unit) x).1 = _
  rw [M.bind_of_error (s' := x) (e := .diverge)
    (by rw [M.run_read]; exact congrArg (·, x) (C51_loops_forever hw h e).1)]

end Cbm
