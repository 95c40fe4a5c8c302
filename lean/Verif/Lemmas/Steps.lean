import Verif.Lemmas.Slot
import Verif.Lemmas.Space
/-!
# Operations as sequences of sector writes
-/

namespace Cbm
open Spec

variable {d d' d'' : Device} {s : Shape} {v v' : Volume} {i j : Nat} {f f' : FileRec}
  {l : Location} {P Q : Device → Prop} {b : Bam}

/-- `d'` is reached from `d` by whole-sector writes, and `P` holds before, after
and between all of them. -/
def Steps (s : Shape) (P : Device → Prop) (d d' : Device) : Prop :=
  ∃ ws, d' = d.puts s ws ∧ WsOK s ws ∧ ∀ k, P (d.puts s (ws.take k))

theorem Steps.refl (h : P d) : Steps s P d d :=
  ⟨[], rfl, WsOK.nil, fun k => by simpa using h⟩

theorem Steps.trans (h : Steps s P d d') (h' : Steps s P d' d'') : Steps s P d d'' := by
  obtain ⟨ws, rfl, o, p⟩ := h
  obtain ⟨vs, rfl, o', p'⟩ := h'
  refine ⟨ws ++ vs, by rw [puts_append], o.append o', fun k => ?_⟩
  rw [List.take_append, puts_append]
  rcases Nat.lt_or_ge k ws.length with hk | hk
  · rw [Nat.sub_eq_zero_of_le (Nat.le_of_lt hk)]
    simpa using p k
  · rw [List.take_of_length_le hk]
    exact p' _

theorem Steps.mono (h : Steps s P d d') (hPQ : ∀ d, P d → Q d) : Steps s Q d d' := by
  obtain ⟨ws, e, o, p⟩ := h
  exact ⟨ws, e, o, fun k => hPQ _ (p k)⟩

theorem Steps.put {new : List Byte} (hl : s.Valid l) (hn : new.length = 256) (h0 : P d)
    (h1 : P (d.put s l new)) : Steps s P d (d.put s l new) := by
  refine ⟨[(l, new)], rfl, WsOK.single hl hn, fun k => ?_⟩
  cases k with
  | zero => simpa using h0
  | succ k => simpa using h1

theorem Steps.wf (h : Steps s P d d') (hw : Wf d s) : Wf d' s := by
  obtain ⟨ws, rfl, o, _⟩ := h
  exact hw.puts o

theorem Steps.writable (h : Steps s P d d') (hw : Writable d) : Writable d' := by
  obtain ⟨ws, rfl, _, _⟩ := h
  exact hw.puts

theorem Steps.geometry (h : Steps s P d d') : d'.geometry = d.geometry := by
  obtain ⟨ws, rfl, _, _⟩ := h
  exact puts_geometry

theorem Steps.kind (h : Steps s P d d') : d'.image.kind = d.image.kind := by
  obtain ⟨ws, rfl, _, _⟩ := h
  exact puts_kind

theorem Steps.last (h : Steps s P d d') : P d' := by
  obtain ⟨ws, rfl, _, p⟩ := h
  have := p ws.length
  simpa using this

/-- The header and BAM sectors are the same. -/
def SysSame (s : Shape) (d d' : Device) : Prop :=
  ∀ l, s.Valid l → systemSector s.type l = true → d'.blk s l = d.blk s l

theorem SysSame.refl (s : Shape) (d : Device) : SysSame s d d := fun _ _ _ => rfl

theorem SysSame.trans (h : SysSame s d d') (h' : SysSame s d' d'') : SysSame s d d'' :=
  fun l hl hs => (h' l hl hs).trans (h l hl hs)

theorem SysSame.put {new : List Byte} (hw : Wf d s) (hl : s.Valid l) (hn : new.length = 256)
    (hs : systemSector s.type l = false) : SysSame s d (d.put s l new) := by
  intro m hm hsm
  refine hw.blk_put_other hl hm ?_ hn
  rintro rfl
  rw [hs] at hsm
  cases hsm

/-! ## Running operations on the shared state -/

theorem updDev_ok {st : St} {g : Device → Res Device} (h : g st.dev = .ok d') :
    St.updDev g st = (.ok (), { st with dev := d' }) := by
  unfold St.updDev
  exact M.update_ok (by rw [h]; rfl)

theorem updDev_error {st : St} {g : Device → Res Device} {e : Fail} (h : g st.dev = .error e) :
    St.updDev g st = (.error e, st) := by
  unfold St.updDev
  exact M.update_error (by rw [h]; rfl)

theorem updBam_ok {st : St} {g : Bam → Res Bam} {b' : Bam} (h : g st.bam = .ok b') :
    St.updBam g st = (.ok (), { st with bam := b' }) := by
  unfold St.updBam
  exact M.update_ok (by rw [h]; rfl)

theorem updBam_error {st : St} {g : Bam → Res Bam} {e : Fail} (h : g st.bam = .error e) :
    St.updBam g st = (.error e, st) := by
  unfold St.updBam
  exact M.update_error (by rw [h]; rfl)

theorem onSt_run {α : Type} {m : M St α} {x : WSt} {r : Res α} {st : St} (h : m x.st = (r, st)) :
    ChainWriter.onSt m x = (r, { x with st := st }) := by
  unfold ChainWriter.onSt
  rw [M.run_zoom, h]

theorem device_flush (h : Writable d) : d.flush = .ok () := by
  unfold Device.flush
  rw [checkWritability_ok h, res_bind_ok]
  exact checkWritability_ok h

theorem bamLoc_system {ty : DiskType} (h : bamLoc ty l) : systemSector ty l = true := by
  obtain ⟨j, h⟩ := h
  cases ty with
  | d64 => simp only [bamArea] at h; rw [h.1]; decide
  | d71 =>
    simp only [bamArea] at h
    rcases h with h | h
    · rw [h.1]; decide
    · rw [h.1]; decide
  | d81 =>
    simp only [bamArea] at h
    rcases h.1 with h | h
    · rw [h]; decide
    · rw [h]; decide

/-- Writes to system sectors that keep the header do not touch the volume. -/
theorem Spec.OnDisk.system_writes (h : OnDisk d s v) {ws : List (Location × List Byte)}
    (o : WsOK s ws) (hs : ∀ w ∈ ws, systemSector s.type w.1 = true)
    (hh : Header.read (d.puts s ws) s.type.format.header = Header.read d s.type.format.header) :
    OnDisk (d.puts s ws) s v := by
  refine h.frame (h.wf.puts o) hh ?_ ?_
  · intro l hl
    refine h.wf.blk_puts_other o (h.dir_valid hl) fun w hw e => ?_
    have h1 := hs w hw
    rw [e, (h.dirTrack l hl).2] at h1
    cases h1
  · intro l hl
    refine h.wf.blk_puts_other o (h.used_valid hl) fun w hw e => ?_
    have h1 := hs w hw
    rw [e, (h.dataLocs l hl).not_system] at h1
    cases h1

/-- The image holds the BAM: reading it back gives its entries. -/
def Spec.Synced (d : Device) (s : Shape) (b : Bam) : Prop :=
  Bam.read d s.type.format = .ok ⟨s.type.format, b.entries, false⟩

/-- Flushing the BAM, whatever it says. -/
theorem flushBam_gen {st : St} (h : OnDisk st.dev s v) (hc : Consistent st.bam s.type)
    (hw : Writable st.dev) (hP : ∀ d, OnDisk d s v → P d) :
    ∃ d', St.flushBam st = (.ok (), { st with dev := d' }) ∧ Steps s P st.dev d' ∧
      OnDisk d' s v ∧ Synced d' s st.bam := by
  obtain ⟨ws, r, o, hold, hfr, hb⟩ :=
    flush_writes hc.toBamOf h.wf hw
  have hhead : ∀ k, Header.read (st.dev.puts s (ws.take k)) s.type.format.header =
      Header.read st.dev s.type.format.header := fun k =>
    header_outside h.wf (h.wf.puts (o.take k)) fun j hj =>
      hfr k _ j (headerLoc_valid h.wf) fun hin => hj (inSections_area _ _ _ hin)
  have hhead' : Header.read (st.dev.puts s ws) s.type.format.header =
      Header.read st.dev s.type.format.header := by
    have := hhead ws.length
    rwa [List.take_length] at this
  have hsys : ∀ w ∈ ws, systemSector s.type w.1 = true := fun w hw => bamLoc_system (hb w hw)
  refine ⟨st.dev.puts s ws, ?_, ⟨ws, rfl, o, fun k => hP _ ?_⟩, h.system_writes o hsys hhead', ?_⟩
  · unfold St.flushBam
    rw [M.bind_of_ok (m := M.get) (s := st) (s' := st) (a := st) rfl]
    unfold St.onDev
    rw [M.run_zoom, r]
  · exact h.system_writes (o.take k) (fun w hw => hsys w (List.mem_of_mem_take hw))
      (hhead k)
  · exact read_of_holds (h.wf.puts o) hc.toBamOf
      hc.fits hold _ rfl

/-- Flushing the BAM. -/
theorem flushBam_ok {st : St} (h : Mounted st s v) (hP : ∀ d, OnDisk d s v → P d) :
    ∃ d', St.flushBam st = (.ok (), { st with dev := d' }) ∧ Steps s P st.dev d' ∧
      OnDisk d' s v ∧ Synced d' s st.bam :=
  flushBam_gen h.onDisk h.recorded.consistent h.writable hP

end Cbm
