import Verif.Lemmas.Durable
/-!
# Sectors and slots that are used again
-/

namespace Cbm
open Spec

variable {d d' : Device} {s : Shape} {v : Volume} {b b' : Bam} {ty : DiskType} {st : St}
  {disk : Disk} {r i : Nat} {f : FileRec}

/-- Two consistent BAMs of one format that mark the same sectors are equal. -/
theorem consistent_unique (h : Consistent b ty) (h' : Consistent b' ty) (hf : b.format = b'.format)
    (he : ∀ t n, 1 ≤ t → t ≤ bamTracks ty → n < sectorsPerTrack ty t → freeAt b t n = freeAt b' t n) :
    b = b' := by
  have hall : ∀ t n, 1 ≤ t → t ≤ bamTracks ty → freeAt b t n = freeAt b' t n := by
    intro t n h1 h2
    by_cases hn : n < sectorsPerTrack ty t
    · exact he t n h1 h2 hn
    · rw [h.noStray t n (by omega), h'.noStray t n (by omega)]
  have hent : b.entries = b'.entries := by
    apply List.ext_getElem?
    intro k
    by_cases hk : k < bamTracks ty
    · obtain ⟨e, hke⟩ : ∃ e, b.entries[k]? = some e :=
        ⟨_, List.getElem?_eq_getElem (by rw [h.length]; exact hk)⟩
      obtain ⟨e', hke'⟩ : ∃ e, b'.entries[k]? = some e :=
        ⟨_, List.getElem?_eq_getElem (by rw [h'.length]; exact hk)⟩
      rw [hke, hke']
      have hbit : ∀ n, e.sectorMap.getLsbD n = e'.sectorMap.getLsbD n := by
        intro n
        have := hall (k + 1) n (by omega) (by omega)
        simpa [freeAt, hke, hke'] using this
      have hcount : e.freeSectors.toNat = e'.freeSectors.toNat := by
        have c := h.counts (k + 1) (by omega) (by omega)
        have c' := h'.counts (k + 1) (by omega) (by omega)
        have hon : freeOn b ty (k + 1) = freeOn b' ty (k + 1) := by
          unfold freeOn
          congr 1
          apply List.filter_congr
          intro n _
          exact hall (k + 1) n (by omega) (by omega)
        simp only [recorded, Nat.add_sub_cancel, hke, hke', Option.map_some, Option.some.injEq] at c c'
        omega
      cases e; cases e'
      simp only [Option.some.injEq, BamEntry.mk.injEq]
      exact ⟨UInt8.toNat_inj.1 hcount, BitVec.eq_of_getLsbD_eq fun n _ => hbit n⟩
    · rw [List.getElem?_eq_none (by rw [h.length]; omega),
        List.getElem?_eq_none (by rw [h'.length]; omega)]
  have h1 := h.live
  have h2 := h'.live
  cases b; cases b'
  simp_all

/-- The BAM of a volume is determined by the volume. -/
theorem recorded_unique (h : Recorded b ty v) (h' : Recorded b' ty v) (hf : b.format = b'.format) :
    b = b' := by
  refine consistent_unique h.consistent h'.consistent hf fun t n h1 h2 hn => ?_
  have hb : sectorsPerTrack ty t ≤ 40 := by
    unfold sectorsPerTrack
    cases ty <;> dsimp only [zone] <;> (repeat' split) <;> omega
  have ht : t < 256 := by have := bamTracks_le ty; omega
  have et : (UInt8.ofNat t).toNat = t := by rw [UInt8.toNat_ofNat', Nat.mod_eq_of_lt ht]
  have en : (UInt8.ofNat n).toNat = n := by rw [UInt8.toNat_ofNat', Nat.mod_eq_of_lt (by omega)]
  have hv : ValidLoc ty (bamTracks ty) ⟨UInt8.ofNat t, UInt8.ofNat n⟩ := by
    refine ⟨?_, ?_, ?_⟩ <;> simp only [et, en] <;> assumption
  have e1 := h.exact _ hv
  have e2 := h'.exact _ hv
  simp only [isFree, et, en] at e1 e2
  have := e1.trans e2.symm
  cases hx : freeAt b t n <;> cases hy : freeAt b' t n <;> simp_all

theorem Volume.set_none (h : v.slots[i]? = some none) (x : Option FileRec) :
    (v.set i x).set i none = v := by
  cases v
  simp only [Volume.set, Volume.mk.injEq, true_and, List.set_set] at h ⊢
  exact set_getElem? h

/-- What a successful `create_file` with a free slot at hand has chosen. -/
theorem createIn_inv {slot e : DirectoryEntry} {name : Petscii} {type : FileType} {st st' : St}
    (h : createIn slot name type st = (.ok e, st')) :
    ∃ first, st.bam.nextFreeBlock none = .ok first ∧ e = newFileEntry slot name type first := by
  unfold createIn at h
  cases hn : st.bam.nextFreeBlock none with
  | error x =>
    rw [M.bind_of_error (s' := st) (e := x) (by rw [readBam_run, hn])] at h
    cases h
  | ok first =>
    rw [M.bind_of_ok (s' := st) (a := first) (by rw [readBam_run, hn])] at h
    refine ⟨first, rfl, ?_⟩
    obtain ⟨_, _, -, h⟩ := bind_inv h
    obtain ⟨_, _, -, h⟩ := bind_inv h
    obtain ⟨_, _, -, h⟩ := bind_inv h
    cases h
    rfl

/-- A file created in a free slot, and its handle. -/
theorem create_free (h : ReadyAt disk s v r b) {name : Petscii} {type : FileType}
    (ht : type.toByte &&& 0x0F ≠ 4) (hn : name.length ≤ 16) (hnew : ∀ g ∈ v.files, g.name ≠ name)
    (hi : v.slots[i]? = some none) (hfirst : ∀ k : Nat, k < i → v.slots[k]? ≠ some none)
    (hroom : 0 < v.room s.type) :
    ∃ e st first, Disk.createFile name type .linear disk = (.ok (e, r), disk.withSt r st) ∧
      b.nextFreeBlock none = .ok first ∧ DataLoc s.type first ∧ first ∉ v.used ∧
      ReadyAt (disk.withSt r st) s (v.set i (some (newFile name type first))) r st.bam ∧
      Handle (.linear e) (v.set i (some (newFile name type first))) i (newFile name type first) := by
  have ho := createFile_ready h name type ht
  cases hq : Disk.createFile name type .linear disk with
  | mk res disk' =>
    rw [hq] at ho
    cases ho with
    | tooLong h1 => omega
    | «exists» _ h1 => obtain ⟨g, hg, he⟩ := h1; exact absurd he (hnew g hg)
    | dirFull _ _ h1 _ => exact absurd hi (h1 i)
    | full _ _ _ h1 _ _ _ _ => omega
    | @created v₁ j st₁ st slot first _ _ hres _ _ _ hdl hnu hpos hready _ _ =>
      cases hres with
      | fresh h1 _ _ => exact absurd hi (h1 i)
      | free h1 h2 =>
        have hij : j = i := by
          rcases Nat.lt_trichotomy j i with hlt | heq | hgt
          · exact absurd h1 (hfirst j hlt)
          · exact heq
          · exact absurd hi (h2 i hgt)
        subst hij
        refine ⟨_, st, first, rfl, ?_, hdl, hnu, hready, ?_, ?_⟩
        · unfold Disk.createFile at hq
          rw [if_neg (by simp)] at hq
          obtain ⟨_, d1, h3, hq⟩ := bind_inv hq
          obtain ⟨_, d2, h4, hq⟩ := bind_inv hq
          obtain ⟨sl, d3, h5, hq⟩ := bind_inv hq
          obtain ⟨ref, d4, h6, hq⟩ := bind_inv hq
          obtain ⟨e', d5, h7, hq⟩ := bind_inv hq
          obtain ⟨ref', d6, h8, hq⟩ := bind_inv hq
          have e1 : d1 = disk := (Prod.ext_iff.1 h3).2.symm
          have e2 : d2 = d1 := (Prod.ext_iff.1 h4).2.symm
          rw [e2, e1] at h5
          have e3 : d3 = disk := by
            rcases nextFreeDirectoryEntry_ready h with ⟨v₁, k, st', hr, hrun, _, _, hst, _⟩ | ⟨hno, _⟩
            · cases hr with
              | free _ _ =>
                rw [h5] at hrun
                have := (Prod.ext_iff.1 hrun).2
                rw [hst rfl] at this
                rw [show d3 = _ from this]
                exact withSt_self h.cell
              | fresh hno _ _ => exact absurd h1 (hno j)
            · exact absurd h1 (hno j)
          have e4 : d4 = d3 := (Prod.ext_iff.1 h6).2.symm
          have hr : ref = r := by
            have := (Prod.ext_iff.1 h6).1
            rw [e3, M.run_read] at this
            simp [Disk.bamRef, h.bam] at this
            exact this.symm
          rw [e4, e3, hr] at h7
          have h7' : (createIn sl name type ⟨disk.dev, b⟩).1 = .ok e' := by
            have := withBam_run (m := createIn sl name type) h.cell rfl
            rw [this] at h7
            exact (Prod.ext_iff.1 h7).1
          obtain ⟨first', hf1, hf2⟩ := createIn_inv (st := ⟨disk.dev, b⟩) (e := e')
            (st' := (createIn sl name type ⟨disk.dev, b⟩).2) (Prod.ext h7' rfl)
          have h9 := (Prod.ext_iff.1 hq).1
          rw [hf2] at h9
          have : first' = first :=
            congrArg (fun q : DirectoryEntry × Nat => q.1.firstSector) (Except.ok.inj h9)
          rw [← this]
          exact hf1
        · rw [show (v.set j (some (newFile name type first))).slots =
            v.slots.set j (some (newFile name type first)) from rfl,
            List.getElem?_set_self (slot_lt hi)]
        · exact ⟨_, List.replicate 9 0, rfl, hpos, rfl, hn, rfl, by simp⟩

/-- Flushing the BAM leaves the data blocks alone. -/
theorem flushBam_data (h : OnDisk st.dev s v) (hc : Consistent st.bam s.type)
    (hw : Writable st.dev) {l : Location} (hl : DataLoc s.type l) :
    (St.flushBam st).2.dev.blk s l = st.dev.blk s l := by
  obtain ⟨ws, r, o, -, -, hb⟩ := flush_writes hc.toBamOf h.wf hw
  have hrun : St.flushBam st = (.ok (), { st with dev := st.dev.puts s ws }) := by
    unfold St.flushBam
    rw [M.bind_of_ok (m := M.get) (s := st) (s' := st) (a := st) rfl]
    unfold St.onDev
    rw [M.run_zoom, r]
  rw [hrun]
  refine h.wf.blk_puts_other o (hl.valid h.wf.shape) fun w hw e => ?_
  have h1 := bamLoc_system (hb w hw)
  rw [e, hl.not_system] at h1
  cases h1

/-- `delete` through a handle of any slot, occupied or not, whose first sector heads a
chain. -/
theorem delete_gen {e : DirectoryEntry} {x : List Byte} {locs : List Location}
    {content : List Byte} (h : OnDisk st.dev s v) (hc : Consistent st.bam s.type)
    (hw : Writable st.dev) (hlt : i < v.slots.length)
    (hp : e.position = some (slotPos v.dir i)) (hn : e.filename.length ≤ 16)
    (hx : e.extra = .linear x) (hxl : x.length = 9) (hch : IsChain st.dev s locs content)
    (hhead : locs.head? = some e.firstSector)
    (hloc : ∀ l ∈ locs, ValidLoc s.type (bamTracks s.type) l) :
    ∃ d' b', File.delete ⟨.linear e, st⟩ = (.ok (), ⟨.linear e.scratch, ⟨d', b'⟩⟩) ∧
      OnDisk d' s (v.set i none) ∧ Writable d' ∧ Consistent b' s.type ∧
      b'.format = st.bam.format ∧ (∀ m, isFree b' m = (decide (m ∈ locs) || isFree st.bam m)) ∧
      (∀ l, DataLoc s.type l → d'.blk s l = st.dev.blk s l) ∧ Synced d' s b' := by
  have hlocs := chainLocations_chain h.wf hch hhead
  obtain ⟨b1, r1, f1, o1, c1, fr1⟩ := freeAll_ok st.dev locs (b := st.bam) hc.toBamOf hloc
  have hc1 := c1 hc
  obtain ⟨d2, r2, s2, h2, y2⟩ := flushBam_gen (st := ⟨st.dev, b1⟩) h hc1 hw
    (P := fun _ => True) (fun _ _ => trivial)
  have hw2 := s2.writable hw
  obtain ⟨d3, r3, h3, w3, -, s3, e3⟩ := writeEntry_volume (e := e.scratch) (y := none) h2 hw2 hlt hp
    hn hx hxl
    (by
      obtain ⟨_, _, _, _, t5, _⟩ := toBytes_linear (e := e.scratch) (x := x) (slotAt_length h2 hlt)
        hn hx hxl
      show (FileAttributes.fromByte (byteAt _ 2)).isScratched = true
      rw [t5]
      exact scratch_scratched _)
    (fun g hg => by cases hg) (fun l hl => by cases hl) (fun l hl => by cases hl)
  refine ⟨d3, b1, ?_, h3, w3, hc1, f1, fr1, fun l hl => ?_, ?_⟩
  · have hrem : removeChain e.firstSector st = (.ok (), ⟨d2, b1⟩) := by
      unfold removeChain
      rw [M.bind_of_ok (s := st) (s' := st) (a := locs) (by rw [readDev_run, hlocs])]
      rw [M.bind_of_ok (s' := ⟨st.dev, b1⟩) (a := ()) r1]
      exact r2
    unfold File.delete
    rw [M.bind_of_ok (m := M.get) (s := (⟨.linear e, st⟩ : FSt)) (s' := ⟨.linear e, st⟩)
      (a := ⟨.linear e, st⟩) rfl]
    rw [M.bind_of_ok (s' := ⟨.linear e, ⟨d2, b1⟩⟩) (a := ())
      (by
        rw [M.run_zoom]
        show ((removeChain e.firstSector st).1, FSt.mk _ (removeChain e.firstSector st).2) = _
        rw [hrem])]
    rw [M.bind_of_ok (m := M.modify _) (s' := ⟨.linear e.scratch, ⟨d2, b1⟩⟩) (a := ()) rfl]
    rw [M.run_zoom]
    show ((St.updDev (fun d => d.writeEntry e.scratch) ⟨d2, b1⟩).1, FSt.mk _
      (St.updDev (fun d => d.writeEntry e.scratch) ⟨d2, b1⟩).2) = _
    rw [updDev_ok (st := ⟨d2, b1⟩) r3]
  · rw [s3 l hl]
    have := flushBam_data (st := ⟨st.dev, b1⟩) h hc1 hw hl
    rw [r2] at this
    exact this
  · refine y2.frame h2.wf h3.wf fun l hl hsys => ?_
    have hlen := (toBytes_linear (e := e.scratch) (x := x) (slotAt_length h2 hlt) hn hx hxl).2.1
    rw [e3, putSlot_blk h2 hlt hlen hl, if_neg]
    intro he
    have := (h2.dirTrack _ (slot_dir_mem h2 hlt)).2
    rw [← he, hsys] at this
    cases this

/-- Deleting a deleted file again, while its sectors and its slot are unused. -/
theorem delete_stale {e : DirectoryEntry} {x : List Byte} {locs : List Location}
    {content : List Byte} (hm : Mounted st s v) (hi : v.slots[i]? = some none)
    (hp : e.position = some (slotPos v.dir i)) (hn : e.filename.length ≤ 16)
    (hx : e.extra = .linear x) (hxl : x.length = 9) (hch : IsChain st.dev s locs content)
    (hhead : locs.head? = some e.firstSector)
    (hloc : ∀ l ∈ locs, DataLoc s.type l ∧ l ∉ v.used) :
    ∃ d', File.delete ⟨.linear e, st⟩ = (.ok (), ⟨.linear e.scratch, ⟨d', st.bam⟩⟩) ∧
      Mounted ⟨d', st.bam⟩ s v := by
  obtain ⟨d', b', h1, h2, h3, h4, h5, h6, -⟩ := delete_gen hm.onDisk hm.recorded.consistent
    hm.writable (slot_lt hi) hp hn hx hxl hch hhead fun l hl => (hloc l hl).1.1
  have hv : v.set i none = v := by
    have := Volume.set_none hi none
    rwa [show (v.set i none).set i none = v.set i none by simp [Volume.set]] at this
  have hfree : ∀ l ∈ locs, isFree st.bam l = true := by
    intro l hl
    have hd := (hloc l hl).1
    cases hx : isFree st.bam l with
    | true => rfl
    | false =>
      rcases (hm.recorded.exact l hd.1).1 hx with e | e | e
      · rw [hd.not_system] at e; cases e
      · exact absurd (hm.onDisk.dirTrack l e).1 hd.not_directory
      · exact absurd e (hloc l hl).2
  have hsame : ∀ m, isFree b' m = isFree st.bam m := by
    intro m
    rw [h6]
    by_cases hml : m ∈ locs
    · simp [hml, hfree m hml]
    · simp [hml]
  have hrec : Recorded b' s.type v := ⟨h4, fun m hm' => by rw [hsame]; exact hm.recorded.exact m hm'⟩
  have hb := recorded_unique hrec hm.recorded h5
  subst hb
  exact ⟨d', h1, hv ▸ h2, hm.recorded, h3⟩

/-- Create a file in a free slot and delete it: the volume is as before, and the next
file created gets the same slot and the same first sector. -/
theorem create_delete (h : ReadyAt disk s v r b) {name : Petscii} {type : FileType}
    (ht : type.toByte &&& 0x0F ≠ 4) (hn : name.length ≤ 16) (hnew : ∀ g ∈ v.files, g.name ≠ name)
    (hi : v.slots[i]? = some none) (hfirst : ∀ k : Nat, k < i → v.slots[k]? ≠ some none)
    (hroom : 0 < v.room s.type) :
    ∃ e st first d', Disk.createFile name type .linear disk = (.ok (e, r), disk.withSt r st) ∧
      b.nextFreeBlock none = .ok first ∧
      ReadyAt (disk.withSt r st) s (v.set i (some (newFile name type first))) r st.bam ∧
      Handle (.linear e) (v.set i (some (newFile name type first))) i (newFile name type first) ∧
      File.delete ⟨.linear e, st⟩ = (.ok (), ⟨.linear e.scratch, ⟨d', b⟩⟩) ∧
      ReadyAt (disk.withSt r ⟨d', b⟩) s v r b ∧
      DataLoc s.type first ∧ first ∉ v.used ∧ d'.blk s first = st.dev.blk s first := by
  obtain ⟨e, st, first, h1, h2, h3, h4, h5, h6⟩ := create_free h ht hn hnew hi hfirst hroom
  obtain ⟨hs, e', x, he, hp, hfs, hfn, hx, hxl⟩ := h6
  cases he
  have hm : Mounted st s (v.set i (some (newFile name type first))) := h5.mounted
  have hset : (v.set i (some (newFile name type first))).set i none = v := Volume.set_none hi _
  obtain ⟨x', k1, k2, k3, -, -, -⟩ := delete_spec (file := .linear e) (st := st) hm
    ⟨hs, e, x, rfl, hp, hfs, hfn, hx, hxl⟩
  have hc := hm.onDisk.chains _ (mem_files.2 ⟨i, hs⟩)
  have hdl : DataLoc s.type first := h3
  obtain ⟨d', b', j1, j2, j3, j4, j5, j6, j7, -⟩ := delete_gen (e := e) (x := x) (st := st) hm.onDisk
    hm.recorded.consistent hm.writable (slot_lt hs) hp hfn hx hxl hc
    (by rw [hfs]; rfl) (fun l hl => by
      rw [show (newFile name type first).locs = [first] from rfl, List.mem_singleton] at hl
      rw [hl]; exact hdl.1)
  rw [j1] at k1
  cases k1
  rw [hset] at k2
  have hbf : b'.format = b.format := by rw [k3, h5.bamFormat, h.bamFormat]
  have hb := recorded_unique k2.recorded h.mounted.recorded hbf
  subst hb
  refine ⟨e, st, first, d', h1, h2, h5, ⟨hs, e, x, rfl, hp, hfs, hfn, hx, hxl⟩, j1, ?_, hdl, h4,
    j7 first hdl⟩
  exact h.update (st := ⟨d', b'⟩) k2 rfl rfl h.exact

/-- The state after creating `A` in `x`. -/
theorem create_step {x : Session} {name : Petscii} {type : FileType} {e : DirectoryEntry} {disk' : Disk}
    (h : Disk.createFile name type .linear x.disk = (.ok (e, r), disk')) :
    Session.step (.create name type .linear) x =
      (.ok (), { x with disk := disk', files := x.files ++ [(.linear e, r)] }) := by
  simp only [Session.step]
  rw [M.bind_of_ok (onDisk_run h)]
  rfl

theorem getElem?_snoc {α : Type} (xs : List α) (y : α) : (xs ++ [y])[xs.length]? = some y := by
  simp

theorem set_snoc {α : Type} (xs : List α) (y z : α) : (xs ++ [y]).set xs.length z = xs ++ [z] := by
  rw [List.set_append_right _ _ (Nat.le_refl _)]
  simp

/-- After deletion of `A` the old handle is a handle of whatever file takes the slot and the
sector. -/
theorem Handle.stale {e : DirectoryEntry} {g : FileRec} (hh : Handle (.linear e) (v.set i (some f)) i f)
    (hi : i < v.slots.length) (hg : g.first = f.first) :
    Handle (.linear e.scratch) (v.set i (some g)) i g := by
  obtain ⟨hs, e', x, he, hp, hfs, hfn, hx, hxl⟩ := hh
  cases he
  exact ⟨by simp [Volume.set, hi], e.scratch, x, rfl, hp, by rw [hg]; exact hfs, hfn, hx, hxl⟩

/-- The name of a file just created is found. -/
theorem reads_created {name : Petscii} (hnew : ∀ g ∈ v.files, g.name ≠ name)
    (hp : name.getLast? ≠ some 0xA0) {g : FileRec} (hg : g.name = storedName name)
    (hgs : (v.set i (some g)).slots[i]? = some (some g)) {content : List Byte}
    {disk' : Disk} {b' : Bam} (h' : ReadyAt disk' s (v.set i (some g)) r b') (hd : g.data = content) :
    ReadsName disk' name content := by
  refine (readsName_ready h').2 ⟨i, g, hgs, by rw [hg, storedName_plain hp], ?_, hd⟩
  intro j g' hj hgj
  have : (v.set i (some g)).slots[j]? = v.slots[j]? := by
    simp only [Volume.set]
    rw [List.getElem?_set_ne (by omega)]
  rw [this] at hgj
  exact hnew g' (mem_files.2 ⟨j, hgj⟩)

/-- A short write stays in the block in memory. -/
theorem write_short {w : ChainWriter} {bs : List Byte} (hr : WRel w v i f []) (hl : f.locs.length = 1)
    (hbs : bs.length ≤ 254) :
    ∃ w', ChainWriter.write bs ⟨w, st⟩ = (.ok bs.length, ⟨w', st⟩) ∧ WRel w' v i f bs ∧
      w'.dirty = true := by
  have hrd : WRel { w with dirty := true } v i f [] :=
    ⟨hr.slot, hr.pos, hr.last, hr.len, hr.tail0, hr.tail1, hr.size, hr.rest, hr.visible, nofun⟩
  have h1 : (byteAt w.block 1).toNat = 1 := by
    have := hr.size
    have := hr.tail1
    simp only [List.length_nil, hl] at *
    omega
  cases bs with
  | nil => exact ⟨_, rfl, hrd, rfl⟩
  | cons b0 bs =>
    obtain ⟨block', e1, e2, e3, e4, e5⟩ := fillBlock_ok (bytes := b0 :: bs) hr.len
      (m := (byteAt w.block 1).toNat) hr.tail1 (by omega)
    refine ⟨{ w with dirty := true, block := block' }, ?_,
      by simpa using hrd.fill rfl (bytes := b0 :: bs) e2 e3 e4 e5, rfl⟩
    unfold ChainWriter.write
    rw [M.bind_of_ok (m := ChainWriter.modW _) (s := (⟨w, st⟩ : WSt))
      (s' := ⟨{ w with dirty := true }, st⟩) (a := ()) rfl]
    have hroom : ChainWriter.room (⟨{ w with dirty := true }, st⟩ : WSt) =
        (.ok (2, 254), ⟨{ w with dirty := true }, st⟩) := by
      have hlk := chainLink_new w.block (by have := hr.len; omega)
      rw [if_pos hr.tail0, if_neg (by intro e; rw [e] at h1; cases h1), h1] at hlk
      unfold ChainWriter.room
      rw [M.bind_of_ok (m := M.get) (s := (⟨{ w with dirty := true }, st⟩ : WSt)) rfl]
      rw [M.bind_of_ok (m := M.lift _) (s := (⟨{ w with dirty := true }, st⟩ : WSt))
        (s' := ⟨{ w with dirty := true }, st⟩) (a := ChainLink.tail 2)
        (by rw [M.run_lift]; exact congrArg (·, _) hlk)]
      rfl
    have hloop : ChainWriter.writeLoop (b0 :: bs).length (b0 :: bs) (⟨{ w with dirty := true }, st⟩ : WSt) =
        (.ok (), ⟨{ w with dirty := true, block := block' }, st⟩) := by
      rw [List.length_cons, writeLoop_succ, M.bind_of_ok hroom]
      unfold afterRoom
      have hmin : min 254 (b0 :: bs).length = (b0 :: bs).length := by omega
      simp only [hmin]
      rw [M.bind_of_ok (m := M.get) (s := (⟨{ w with dirty := true }, st⟩ : WSt)) rfl]
      rw [List.take_of_length_le (Nat.le_refl _), List.drop_of_length_le (Nat.le_refl _)]
      rw [M.bind_of_ok (m := M.lift _) (s := (⟨{ w with dirty := true }, st⟩ : WSt))
        (s' := ⟨{ w with dirty := true }, st⟩) (a := block')
        (by rw [M.run_lift, h1] at *; exact congrArg (·, _) e1)]
      rw [M.bind_of_ok (m := ChainWriter.modW _) (s := (⟨{ w with dirty := true }, st⟩ : WSt))
        (s' := ⟨{ w with dirty := true, block := block' }, st⟩) (a := ()) rfl]
      cases bs.length <;> rfl
    rw [M.bind_of_ok hloop]
    rfl

/-- A writer stays a writer of whatever file takes the slot and the sector. -/
theorem WRel.stale {w : ChainWriter} {content : List Byte} {g : FileRec}
    (h : WRel w (v.set i (some f)) i f content) (hd : w.dirty = true)
    (hi : i < v.slots.length) (hl : g.locs = f.locs) (hg : g.data = []) :
    WRel w (v.set i (some g)) i g content :=
  ⟨by simp [Volume.set, hi], h.pos, by rw [hl]; exact h.last, h.len, h.tail0, h.tail1,
    by rw [hl]; exact h.size, by rw [hl]; exact h.rest, by rw [hg]; exact List.nil_prefix,
    by rw [hd]; nofun⟩

/-- The same volume and BAM on another device. -/
theorem Rep.redo {x : Session} {a : Store} {files : List (File × Nat)} (h : Rep x s v r b a)
    (hr : ReadyAt disk s v r b) (hl : files.length = x.files.length)
    (hf : ∀ (k i : Nat), a.handles[k]? = some (some i) → files[k]? = x.files[k]?) :
    Rep { x with disk := disk, files := files } s v r b { a with saved := false } where
  ready := hr
  type := h.type
  label := h.label
  slots := h.slots
  settled := h.settled
  filesLen := by rw [← h.filesLen]; exact hl
  handles := fun k i hk => by
    obtain ⟨file, f, h1, h2⟩ := h.handles k i hk
    exact ⟨file, f, by rw [← h1]; exact hf k i hk, h2⟩
  writersLen := h.writersLen
  writers := h.writers
  nodup := h.nodup
  saved := nofun

/-- A second deletion through the same handle, right after the first. -/
theorem delete_twice {x : Session} {a : Store} {k : Nat} (h : Rep x s v r b a)
    (hk : a.handles[k]? = some (some i)) (hnw : ¬a.writing i = true) :
    ∃ x2, runs [.delete k, .delete k] x = ([.ok (), .ok ()], x2) ∧ Shows x2 { a.put i none with
      handles := a.handles.map fun q => if q = some i then none else q, saved := true } := by
  obtain ⟨file, f, hfile, hh⟩ := h.handles k i hk
  obtain ⟨hs0, e, y, he, hp, hfs, hfn, hx, hxl⟩ := id hh
  cases he
  have hon := h.ready.onDisk
  have hm : Mounted ⟨x.disk.dev, b⟩ s v := h.ready.mounted
  have hlt := slot_lt hs0
  have hc := hon.chains f (mem_files.2 ⟨i, hs0⟩)
  have hdl : ∀ l ∈ f.locs, DataLoc s.type l := fun l hl =>
    hon.dataLocs l (List.mem_flatMap.2 ⟨f, mem_files.2 ⟨i, hs0⟩, hl⟩)
  have hhead : f.locs.head? = some e.firstSector := by
    rw [hfs]
    obtain ⟨init, t, hl, -⟩ := hc.last
    unfold FileRec.first
    rw [hl]
    cases init <;> rfl
  obtain ⟨d', b', j1, j2, j3, j4, j5, j6, j7, -⟩ := delete_gen (e := e) (x := y) (st := ⟨x.disk.dev, b⟩)
    hon hm.recorded.consistent hm.writable hlt hp hfn hx hxl hc hhead (fun l hl => (hdl l hl).1)
  obtain ⟨z, z1, z2, z3, z4, -, -⟩ := delete_spec hm hh
  rw [j1] at z1
  cases z1
  have hrep1 := delete_rep (z := ⟨.linear e.scratch, ⟨d', b'⟩⟩) h hk hnw hh z2 z3 z4
  have hkl := (List.getElem?_eq_some_iff.1 hfile).1
  have hm1 : Mounted ⟨d', b'⟩ s (v.set i none) := z2
  have hv := fun l hl => (hdl l hl).valid hon.wf.shape
  obtain ⟨d2, k1, k2⟩ := delete_stale (st := ⟨d', b'⟩) (e := e.scratch) (x := y) (i := i)
    (locs := f.locs) (content := f.data) hm1 (by simp [Volume.set, hlt]) hp hfn hx hxl
    (hc.frame fun l hl => j7 l (hdl l hl)) hhead (fun l hl => ⟨hdl l hl, fun hu =>
      not_mem_others hon hs0 hl (by
        have := (used_set_perm (i := i) (v := v) (y := none) hlt).mem_iff.1 hu
        simpa [slotLocs] using this)⟩)
  have s1 := onFile_run hfile h.ready.cell j1
  have s2 := onFile_run (x := { x with
      disk := x.disk.withSt r ⟨d', b'⟩, files := x.files.set k (.linear e.scratch, r) })
    (k := k) (by simp [hkl]) hrep1.ready.cell k1
  refine ⟨{ x with
    disk := (x.disk.withSt r ⟨d', b'⟩).withSt r ⟨d2, b'⟩
    files := (x.files.set k (.linear e.scratch, r)).set k (.linear e.scratch.scratch, r) }, ?_, ?_⟩
  · rw [runs_cons (.delete k) _ s1, runs_cons (.delete k) _ s2]
    rfl
  · have hr2 : ReadyAt ((x.disk.withSt r ⟨d', b'⟩).withSt r ⟨d2, b'⟩) s (v.set i none) r b' :=
      hrep1.ready.update (st := ⟨d2, b'⟩) k2 rfl rfl hrep1.ready.exact
    have := (hrep1.redo (files := (x.files.set k (.linear e.scratch, r)).set k
      (.linear e.scratch.scratch, r)) hr2 (by simp) (fun k' i' hk' => by
        have hne := (getElem?_map_handle hk')
        have : k' ≠ k := by
          rintro rfl
          rw [hk] at hne
          exact hne.2 (Option.some.inj (Option.some.inj hne.1)).symm
        show ((x.files.set k (.linear e.scratch, r)).set k _)[k']? = _
        rw [List.getElem?_set_ne (Ne.symm this)])).shows
    exact ⟨this.name, this.id, this.lists, this.blocksFree, this.absent, this.reads,
      this.readsHandle, this.valid⟩

end Cbm
