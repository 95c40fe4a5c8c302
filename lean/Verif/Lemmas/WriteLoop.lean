import Verif.Lemmas.Write
/-!
# The write loop, flushing and opening a writer
-/

namespace Cbm
open Spec

variable {d d' d'' : Device} {s : Shape} {v v' : Volume} {i j : Nat} {f f' : FileRec}
  {l next : Location} {b : Bam} {w w' : ChainWriter} {st st' : St} {content bs : List Byte}

/-- No sector beyond the first is empty. -/
def Tight (f : FileRec) (content : List Byte) : Prop :=
  f.locs.length = 1 ∨ 254 * (f.locs.length - 1) < content.length

/-- The body of the loop after the room was found. -/
def afterRoom (fuel : Nat) (bs : List Byte) (p : Nat × Nat) : M WSt Unit := do
  let n := min p.2 bs.length
  let x ← M.get
  let block ← M.lift (ChainWriter.fillBlock x.w.block p.1 (bs.take n))
  ChainWriter.modW fun w => { w with block := block }
  ChainWriter.writeLoop fuel (bs.drop n)

theorem writeLoop_succ (fuel : Nat) (b : Byte) (bs : List Byte) :
    ChainWriter.writeLoop (fuel + 1) (b :: bs) =
      (ChainWriter.room >>= afterRoom fuel (b :: bs)) := rfl

theorem WRel.fill (hr : WRel w v i f content) (hdirty : w.dirty = true) {bytes block' : List Byte}
    (hl : block'.length = 256) (h0 : byteAt block' 0 = 0)
    (h1 : (byteAt block' 1).toNat = (byteAt w.block 1).toNat + bytes.length)
    (hs : slice block' 2 ((byteAt w.block 1).toNat + bytes.length - 1) =
      slice w.block 2 ((byteAt w.block 1).toNat - 1) ++ bytes) :
    WRel { w with block := block' } v i f (content ++ bytes) := by
  have hsz := hr.size
  have ht := hr.tail1
  refine ⟨hr.slot, hr.pos, hr.last, hl, h0, ?_, ?_, ?_, ?_, ?_⟩
  · show 1 ≤ (byteAt block' 1).toNat
    omega
  · show (content ++ bytes).length = _ + ((byteAt block' 1).toNat - 1)
    rw [List.length_append]
    omega
  · show _ = slice block' 2 ((byteAt block' 1).toNat - 1)
    rw [h1, hs, ← hr.rest, List.drop_append_of_le_length (by omega)]
  · exact hr.visible.trans (List.prefix_append _ _)
  · intro h
    rw [show ({ w with block := block' } : ChainWriter).dirty = w.dirty from rfl, hdirty] at h
    cases h

/-- The state after writing `bs`: everything fits, or the disk is full and the
longest part that fits was written. -/
structure WriteResult (s : Shape) (i : Nat) (v : Volume) (f : FileRec) (content bs : List Byte)
    (st : St) (r : Res Unit) (x : WSt) (f' : FileRec) : Prop where
  result : r = if content.length + bs.length ≤ 254 * (f.locs.length + v.room s.type) then .ok ()
    else fail .diskFull
  mounted : Mounted x.st s (v.set i (some f'))
  format : x.st.bam.format = st.bam.format
  writer : WRel x.w (v.set i (some f')) i f'
    ((content ++ bs).take (254 * (f.locs.length + v.room s.type)))
  dirty : x.w.dirty = true
  grown : Grown f f'
  full : 254 * (f.locs.length + v.room s.type) < content.length + bs.length →
    f'.data = (content ++ bs).take (254 * (f.locs.length + v.room s.type)) ∧
    (v.set i (some f')).room s.type = 0
  tight : Tight f content →
    Tight f' ((content ++ bs).take (254 * (f.locs.length + v.room s.type)))
  room : f'.locs.length + (v.set i (some f')).room s.type = f.locs.length + v.room s.type
  steps : Steps s (Growing s v i f
    ((content ++ bs).take (254 * (f.locs.length + v.room s.type)))) st.dev x.st.dev
  laid : f'.locs = f.locs ++ firstBlocks s.type st.bam.format.geos (freeAt st.bam)
    (f'.locs.length - f.locs.length)

theorem WRel.le_cap (hr : WRel w v i f content) (n : Nat) :
    content.length ≤ 254 * (f.locs.length + n) := by
  have := hr.size
  have := hr.locs_pos
  have := (byteAt w.block 1).toNat_lt
  omega

theorem blocks_lt (hm : Mounted st s v) (hi : v.slots[i]? = some (some f))
    (hex : f.blocks = f.locs.length) : f.blocks + 1 < 65536 := by
  have h1 := hm.onDisk.used_le
  rw [(used_perm hi).length_eq, List.length_append] at h1
  have h2 : dataBlocks s.type ≤ 3160 := by cases s.type <;> decide
  have h3 : (slotLocs (some f)).length = f.locs.length := rfl
  omega

theorem writeLoop_spec : ∀ (fuel : Nat) (bs : List Byte) {w : ChainWriter} {st : St} {v : Volume}
    {f : FileRec} {content : List Byte}, Mounted st s v → WRel w v i f content →
    w.dirty = true → f.blocks = f.locs.length → bs.length ≤ fuel →
    ∃ r x f', ChainWriter.writeLoop fuel bs ⟨w, st⟩ = (r, x) ∧
      WriteResult s i v f content bs st r x f' := by
  intro fuel
  induction fuel with
  | zero =>
    intro bs w st v f content hm hr hd hex hf
    have : bs = [] := List.eq_nil_of_length_eq_zero (by omega)
    subst this
    exact ⟨_, _, f, rfl, nil_case hm hr hd⟩
  | succ fuel ih =>
    intro bs w st v f content hm hr hd hex hf
    cases bs with
    | nil => exact ⟨_, _, f, rfl, nil_case hm hr hd⟩
    | cons b0 bs =>
      -- once there is room in the block
      have key : ∀ {w : ChainWriter} {st : St} {v : Volume} {f : FileRec} {content : List Byte},
          Mounted st s v → WRel w v i f content → w.dirty = true → f.blocks = f.locs.length →
          (byteAt w.block 1).toNat < 255 →
          ∃ r x f', afterRoom fuel (b0 :: bs) ((byteAt w.block 1).toNat + 1,
              256 - ((byteAt w.block 1).toNat + 1)) ⟨w, st⟩ = (r, x) ∧
            WriteResult s i v f content (b0 :: bs) st r x f' ∧
            254 * (f'.locs.length - 1) < ((content ++ (b0 :: bs)).take
              (254 * (f.locs.length + v.room s.type))).length := by
        intro w st v f content hm hr hd hex hlt
        have ht := hr.tail1
        generalize hn : min (256 - ((byteAt w.block 1).toNat + 1)) (b0 :: bs).length = n
        have hn1 : 1 ≤ n := by rw [← hn, List.length_cons]; omega
        have hn2 : n ≤ (b0 :: bs).length := by rw [← hn]; omega
        have hn3 : (byteAt w.block 1).toNat + n ≤ 255 := by omega
        have htl : ((b0 :: bs).take n).length = n := by rw [List.length_take]; omega
        obtain ⟨block', e1, e2, e3, e4, e5⟩ := fillBlock_ok (bytes := (b0 :: bs).take n) hr.len
          (m := (byteAt w.block 1).toNat) ht (by rw [htl]; omega)
        have hr' := hr.fill hd (bytes := (b0 :: bs).take n) e2 e3 e4 e5
        obtain ⟨r, x, f', hrun, hres⟩ := ih ((b0 :: bs).drop n) hm hr' hd hex
          (by rw [List.length_drop]; omega)
        have hcat : content ++ (b0 :: bs).take n ++ (b0 :: bs).drop n = content ++ b0 :: bs := by
          rw [List.append_assoc, List.take_append_drop]
        have hlen : (content ++ (b0 :: bs).take n).length + ((b0 :: bs).drop n).length =
            content.length + (b0 :: bs).length := by
          rw [← List.length_append, hcat, List.length_append]
        have htight0 : Tight f (content ++ (b0 :: bs).take n) := by
          right
          have := hr.size
          rw [List.length_append, htl]
          omega
        have htight := hres.tight htight0
        rw [hcat] at htight
        refine ⟨r, x, f', ?_, ?_, ?_⟩
        · unfold afterRoom
          simp only [hn]
          rw [M.bind_of_ok (m := M.get) (s := (⟨w, st⟩ : WSt)) (s' := ⟨w, st⟩) (a := ⟨w, st⟩) rfl]
          rw [M.bind_of_ok (m := M.lift _) (s := (⟨w, st⟩ : WSt)) (s' := ⟨w, st⟩) (a := block')
            (by rw [M.run_lift]; exact congrArg (·, _) e1)]
          rw [M.bind_of_ok (m := ChainWriter.modW _) (s := (⟨w, st⟩ : WSt))
            (s' := ⟨{ w with block := block' }, st⟩) (a := ()) rfl]
          exact hrun
        · obtain ⟨a1, a2, a3, a4, a5, a6, a7, a8, a9, a10, a11⟩ := hres
          rw [hcat] at a4 a7 a8 a10
          rw [hlen] at a1 a7
          exact ⟨a1, a2, a3, a4, a5, a6, a7, fun _ => htight, a9, a10, a11⟩
        · rcases htight with h | h
          · have h1 := hr.locs_pos
            rw [h, List.length_take, List.length_append, List.length_cons]
            omega
          · exact h
      rw [writeLoop_succ]
      have hlink : ChainLink.new w.block = .ok (.tail ((byteAt w.block 1).toNat + 1)) := by
        rw [chainLink_new _ (by rw [hr.len]; omega), if_pos hr.tail0, if_neg]
        intro e
        have := hr.tail1
        rw [e] at this
        cases this
      by_cases hfull : (byteAt w.block 1).toNat = 255
      · have hroom : ∀ r x, ChainWriter.allocateNextBlock ⟨w, st⟩ = (r, x) →
            ChainWriter.room ⟨w, st⟩ = (r.map fun n => (256 - n, n), x) := by
          intro r x h
          unfold ChainWriter.room
          rw [M.bind_of_ok (m := M.get) (s := (⟨w, st⟩ : WSt)) (s' := ⟨w, st⟩) (a := ⟨w, st⟩) rfl]
          rw [M.bind_of_ok (m := M.lift _) (s := (⟨w, st⟩ : WSt)) (s' := ⟨w, st⟩)
            (a := ChainLink.tail ((byteAt w.block 1).toNat + 1))
            (by rw [M.run_lift]; exact congrArg (·, _) hlink)]
          simp only [hfull]
          rw [if_pos (by trivial)]
          cases r with
          | ok n => rw [M.bind_of_ok h]; rfl
          | error e => rw [M.bind_of_error h]; rfl
        rcases allocateNextBlock_spec hm hr hfull hd (blocks_lt hm hr.slot hex) with
          ⟨hz, st', hrun, hm', hbam, hr', hsteps⟩ |
          ⟨hpos, st', w', f1, hrun, hm', hfmt, hr', h1, hd', hg, hdata, hlen, hsteps, next, hlocs, hfirst, hwo⟩
        · -- the disk is full
          have hsz := hr.size
          have hlp := hr.locs_pos
          have hcl : content.length = 254 * (f.locs.length + v.room s.type) := by
            rw [hfull] at hsz; omega
          have htake : (content ++ b0 :: bs).take (254 * (f.locs.length + v.room s.type))
              = content := by rw [← hcl]; simp
          refine ⟨_, _, withData f content, M.bind_of_error (hroom _ _ hrun), ?_⟩
          refine ⟨?_, hm', by rw [hbam], ?_, hd, hr.grown, ?_, ?_, ?_, ?_, ?_⟩
          · rw [if_neg (by rw [List.length_cons]; omega)]
          · rw [htake]; exact hr'
          · intro _
            rw [htake]
            exact ⟨rfl, (room_set_same (y := some (withData f content)) hr.slot rfl).trans hz⟩
          · rw [htake]; exact id
          · rw [room_set_same (y := some (withData f content)) hr.slot rfl]; rfl
          · rw [htake]; exact hsteps
          · show f.locs = f.locs ++ firstBlocks _ _ _ (f.locs.length - f.locs.length)
            rw [Nat.sub_self]
            exact (List.append_nil _).symm
        · have hex' : f1.blocks = f1.locs.length := by have := hg.blocks; omega
          have hrm : (v.set i (some f1)).room s.type = v.room s.type - 1 := room_set hr.slot hlen
          have hcap : f1.locs.length + (v.set i (some f1)).room s.type =
              f.locs.length + v.room s.type := by omega
          obtain ⟨r, x, f', hrun2, hres, htight⟩ := key hm' hr' hd' hex' (by omega)
          rw [hcap] at htight
          refine ⟨r, x, f', ?_, ?_⟩
          · rw [M.bind_of_ok (hroom _ _ hrun)]
            rw [h1] at hrun2
            exact hrun2
          · obtain ⟨a1, a2, a3, a4, a5, a6, a7, a8, a9, a10, a11⟩ := hres
            rw [hcap] at a1 a4 a7 a8 a9 a10
            rw [set_set] at a2 a4 a7 a9
            refine ⟨a1, a2, a3.trans hfmt, a4, a5, hg.trans a6, a7, fun _ => .inr htight, a9,
              Steps.trans (hsteps.mono fun d hd => hd.mono ?_)
                (a10.mono fun d hd => Growing.base hg hd), ?_⟩
            case refine_2 =>
              have hge : f1.locs.length ≤ f'.locs.length := a6.locs.length_le
              rw [hfmt, hwo, show f'.locs.length - f1.locs.length =
                f'.locs.length - f.locs.length - 1 by omega, hlocs] at a11
              obtain ⟨m, hm⟩ : ∃ m, f'.locs.length - f.locs.length = m + 1 :=
                ⟨f'.locs.length - f.locs.length - 1, by omega⟩
              rw [hm] at a11 ⊢
              rw [a11, List.append_assoc]
              simp only [firstBlocks]
              rw [hfirst]
              rfl
            have hle := hr.le_cap (v.room s.type)
            rw [List.take_append, List.take_of_length_le hle]
            exact List.prefix_append _ _
      · have hlt : (byteAt w.block 1).toNat < 255 := by
          have := (byteAt w.block 1).toNat_lt
          omega
        have hroom : ChainWriter.room ⟨w, st⟩ =
            (.ok ((byteAt w.block 1).toNat + 1, 256 - ((byteAt w.block 1).toNat + 1)), ⟨w, st⟩) := by
          unfold ChainWriter.room
          rw [M.bind_of_ok (m := M.get) (s := (⟨w, st⟩ : WSt)) (s' := ⟨w, st⟩) (a := ⟨w, st⟩) rfl]
          rw [M.bind_of_ok (m := M.lift _) (s := (⟨w, st⟩ : WSt)) (s' := ⟨w, st⟩)
            (a := ChainLink.tail ((byteAt w.block 1).toNat + 1))
            (by rw [M.run_lift]; exact congrArg (·, _) hlink)]
          simp only []
          rw [if_neg (by simp only [BLOCK_SIZE]; omega)]
          rfl
        obtain ⟨r, x, f', hrun, hres, _⟩ := key hm hr hd hex hlt
        exact ⟨r, x, f', by rw [M.bind_of_ok hroom]; exact hrun, hres⟩
where
  nil_case {w : ChainWriter} {st : St} {v : Volume} {f : FileRec} {content : List Byte}
      (hm : Mounted st s v) (hr : WRel w v i f content) (hd : w.dirty = true) :
      WriteResult s i v f content [] st (.ok ()) ⟨w, st⟩ f := by
    have hle := hr.le_cap (v.room s.type)
    have htake : (content ++ []).take (254 * (f.locs.length + v.room s.type)) = content := by
      rw [List.append_nil, List.take_of_length_le hle]
    refine ⟨?_, ?_, rfl, ?_, hd, Grown.refl, ?_, ?_, ?_, ?_, ?_⟩
    · rw [if_pos (by simpa using hle)]
    · rw [set_self hr.slot]; exact hm
    · rw [htake, set_self hr.slot]; exact hr
    · intro h
      simp only [List.length_nil] at h
      omega
    · rw [htake]; exact id
    · rw [set_self hr.slot]
    · rw [htake]
      exact Steps.refl (Growing.start hm.onDisk hr.slot hr.visible)
    · rw [Nat.sub_self]
      exact (List.append_nil _).symm


/-- `write` marks the writer dirty and runs the loop. -/
theorem write_spec (buf : List Byte) (hm : Mounted st s v) (hr : WRel w v i f content)
    (hex : f.blocks = f.locs.length) :
    ∃ r x f', ChainWriter.write buf ⟨w, st⟩ = (r.map fun _ => buf.length, x) ∧
      WriteResult s i v f content buf st r x f' := by
  have hr' : WRel { w with dirty := true } v i f content :=
    ⟨hr.slot, hr.pos, hr.last, hr.len, hr.tail0, hr.tail1, hr.size, hr.rest, hr.visible,
      fun h => by cases h⟩
  obtain ⟨r, x, f', hrun, hres⟩ := writeLoop_spec buf.length buf hm hr' rfl hex (Nat.le_refl _)
  refine ⟨r, x, f', ?_, hres⟩
  unfold ChainWriter.write
  rw [M.bind_of_ok (m := ChainWriter.modW _) (s := (⟨w, st⟩ : WSt))
    (s' := ⟨{ w with dirty := true }, st⟩) (a := ()) rfl]
  cases r with
  | ok u => rw [M.bind_of_ok hrun]; rfl
  | error e => rw [M.bind_of_error hrun]; rfl

/-- `flush` makes everything written so far visible. -/
theorem flush_spec (hm : Mounted st s v) (hr : WRel w v i f content) :
    ∃ x, ChainWriter.flush ⟨w, st⟩ = (.ok (), x) ∧
      Mounted x.st s (v.set i (some (withData f content))) ∧ x.st.bam = st.bam ∧
      WRel x.w (v.set i (some (withData f content))) i (withData f content) content ∧
      x.w.dirty = false ∧ (w.dirty = true → Synced x.st.dev s st.bam) ∧
      (w.dirty = false → x.st = st) ∧
      Steps s (Growing s v i f content) st.dev x.st.dev := by
  unfold ChainWriter.flush
  rw [M.bind_of_ok (m := M.get) (s := (⟨w, st⟩ : WSt)) (s' := ⟨w, st⟩) (a := ⟨w, st⟩) rfl]
  simp only []
  cases hd : w.dirty with
  | false =>
    have he : withData f content = f := by
      unfold withData
      rw [← hr.clean hd]
    rw [if_neg (by simp)]
    refine ⟨_, rfl, ?_, rfl, ?_, hd, ?_, fun _ => rfl, Steps.refl (Growing.start hm.onDisk hr.slot hr.visible)⟩
    · rw [he, set_self hr.slot]; exact hm
    · rw [he, set_self hr.slot]; exact hr
    · intro h; cases h
  | true =>
    rw [if_pos rfl, M.bind_of_ok (writeCurrentBlock_ok hm hr)]
    obtain ⟨hv, h1⟩ := hm.onDisk.writeCurrent hr
    have hw1 : Writable (st.dev.put s w.location w.block) := hm.writable.put _
    have hrec1 : Recorded st.bam s.type (v.set i (some (withData f content))) :=
      hm.recorded.setSame hr.slot rfl
    have hs1 : Steps s (Growing s v i f content) st.dev (st.dev.put s w.location w.block) :=
      Steps.put hv hr.len (Growing.start hm.onDisk hr.slot hr.visible)
        (Growing.of h1 hr.grown (List.prefix_refl _))
    have hm1 : Mounted { st with dev := st.dev.put s w.location w.block } s
        (v.set i (some (withData f content))) := ⟨h1, hrec1, hw1⟩
    obtain ⟨d2, hrun, hs2, h2, hsync⟩ := flushBam_ok (P := Growing s v i f content) hm1
      fun d h => Growing.of h hr.grown (List.prefix_refl _)
    rw [M.bind_of_ok (onSt_run (x := ⟨w, { st with dev := st.dev.put s w.location w.block }⟩) hrun)]
    rw [M.bind_of_ok (m := M.read fun x : WSt => x.st.dev.flush) (s := ⟨w, d2, st.bam⟩)
      (s' := ⟨w, d2, st.bam⟩) (a := ())
      (by rw [M.run_read]; exact congrArg (·, _) (device_flush (hs2.writable hw1)))]
    refine ⟨_, rfl, ⟨h2, hrec1, hs2.writable hw1⟩, rfl, ?_, rfl, fun _ => hsync, ?_, hs1.trans hs2⟩
    · exact ⟨set_slot (slot_lt hr.slot), hr.pos, hr.last, hr.len, hr.tail0, hr.tail1, hr.size,
        hr.rest, List.prefix_refl _, fun _ => rfl⟩
    · intro h; cases h

/-! ## Opening a writer -/

theorem tailLoop_chain (hw : Wf d s) : ∀ (init : List Location) (t : Location) (fuel : Nat)
    (a : Location), (init ++ [t]).head? = some a → Linked d s (init ++ [t]) →
    (∀ l ∈ init ++ [t], s.Valid l) → byteAt (d.blk s t) 0 = 0 → byteAt (d.blk s t) 1 ≠ 0 →
    init.length < fuel → tailLoop d fuel a (d.blk s a) = .ok (t, d.blk s t)
  | [], t, fuel + 1, a, ha, _, hv, h0, h1, _ => by
    have : t = a := by simpa using ha
    subst this
    rw [tailLoop, chainLink_new _ (by rw [hw.blk_length (hv _ (by simp))]; omega), if_pos h0,
      if_neg h1]
    rfl
  | l :: init, t, fuel + 1, a, ha, hl, hv, h0, h1, hf => by
    have : l = a := by simpa using ha
    subst this
    obtain ⟨m, rest, hm⟩ : ∃ m rest, init ++ [t] = m :: rest := by
      cases init with
      | nil => exact ⟨t, [], rfl⟩
      | cons x xs => exact ⟨x, xs ++ [t], rfl⟩
    rw [List.cons_append, hm] at hl
    have hmv : s.Valid m := hv m (by rw [List.cons_append, hm]; simp)
    have hlv : s.Valid l := hv l (by simp)
    have hb0 : byteAt (d.blk s l) 0 ≠ 0 := by
      intro e
      have h2 := congrArg Location.track hl.1
      have h3 : byteAt (d.blk s l) 0 = m.track := h2
      have h4 : 1 ≤ m.track.toNat := hmv.1
      rw [← h3, e] at h4
      cases h4
    rw [tailLoop, chainLink_new _ (by rw [hw.blk_length hlv]; omega), if_neg hb0, res_bind_ok]
    simp only []
    rw [hl.1, hw.sector hmv, res_bind_ok]
    refine tailLoop_chain hw init t fuel m (by rw [hm]; rfl) (by rw [hm]; exact hl.2) ?_ h0 h1
      (by simp at hf; omega)
    intro x hx
    exact hv x (by simp at hx ⊢; exact .inr hx)

theorem locs_length_le (h : OnDisk d s v) (hi : v.slots[i]? = some (some f)) :
    f.locs.length ≤ 3160 := by
  have h1 := h.used_le
  rw [(used_perm hi).length_eq, List.length_append] at h1
  have h2 : dataBlocks s.type ≤ 3160 := by cases s.type <;> decide
  have h3 : (slotLocs (some f)).length = f.locs.length := rfl
  omega

/-- Opening a writer positions it at the end of the file. -/
theorem writer_new (h : OnDisk d s v) (hi : v.slots[i]? = some (some f)) {e : DirectoryEntry}
    (hp : e.position = some (slotPos v.dir i)) :
    ∃ w, ChainWriter.new d e f.first = .ok w ∧ w.entry = e ∧ w.dirty = true ∧
      WRel w v i f f.data := by
  have hc := h.chains f (mem_files.2 ⟨i, hi⟩)
  obtain ⟨init, t, hl, h0, h1, hdata⟩ := hc.last
  have hlen := locs_length_le h hi
  have hhead : (init ++ [t]).head? = some f.first := by
    unfold FileRec.first
    rw [hl]
    cases init <;> rfl
  have hfv : s.Valid f.first := by
    apply hc.valid
    rw [hl]
    exact List.mem_of_mem_head? hhead
  have htv : s.Valid t := hc.valid t (by rw [hl]; simp)
  refine ⟨⟨e, t, d.blk s t, true⟩, ?_, rfl, rfl, ?_⟩
  · unfold ChainWriter.new
    rw [h.wf.sector hfv, res_bind_ok]
    have := hc.linked
    rw [hl] at this
    rw [tailLoop_chain h.wf init t chainFuel f.first hhead this (fun l hm => hc.valid l (hl ▸ hm)) h0 h1
      (by rw [hl] at hlen; simp at hlen; show _ < 65537; omega)]
    rfl
  · have hpl : (payload d s init).length = 254 * init.length :=
      payload_length h.wf fun l hm => hc.valid l (by rw [hl]; simp [hm])
    have hil : f.locs.length - 1 = init.length := by rw [hl]; simp
    have hblk := h.wf.blk_length htv
    have h255 := (byteAt (d.blk s t) 1).toNat_lt
    have hpos : 1 ≤ (byteAt (d.blk s t) 1).toNat := by
      have : (byteAt (d.blk s t) 1).toNat ≠ 0 := fun e => h1 (UInt8.toNat_inj.1 e)
      omega
    refine ⟨hi, hp, by rw [hl]; simp, hblk, h0, hpos, ?_, ?_, List.prefix_refl _, fun _ => rfl⟩
    · rw [hil]
      rw [hdata, List.length_append, hpl]
      simp only [slice, List.length_take, List.length_drop, hblk]
      omega
    · rw [hil]
      rw [hdata, ← hpl, List.drop_left]

end Cbm
