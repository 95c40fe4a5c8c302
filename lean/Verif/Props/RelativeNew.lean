import Verif.Props.Listing
import Verif.Props.Names
import Verif.Props.Relative
/-!
# C75: files that can be created but not opened
-/

namespace Cbm
open Spec

variable {d : Device} {s : Shape} {v : Volume} {st : St} {i : Nat} {name : Petscii}
  {type : FileType} {slot : DirectoryEntry} {disk : Disk} {r : Nat} {b : Bam}

/-- `create_file` after the slot is chosen, for any file type. -/
theorem createIn_any (hm : Mounted st s v) (hi : v.slots[i]? = some none)
    (hp : slot.position = some (slotPos v.dir i)) (hn : name.length ≤ 16)
    (hroom : 0 < v.room s.type) :
    ∃ d1 b' first, OnDisk d1 s v ∧
      createIn slot name type st = (.ok (newFileEntry slot name type first),
        ⟨putSlot d1 s v i (rendered (newFileEntry slot name type first) (List.replicate 9 0)
          (slotAt d1 s v.dir i)), b'⟩) := by
  have h := hm.onDisk
  have hlt := slot_lt hi
  rcases nextFreeBlock_volume hm.recorded h with ⟨-, first, hnf, hdl, hnu⟩ | ⟨h0, -⟩
  · have hv := hdl.valid h.wf.shape
    obtain ⟨b', hb', hr', hbf⟩ := hm.recorded.allocate (f := newFile name type first) hi hdl.1
      (fun m => by simp [slotLocs, newFile])
    have hlen := h.wf.blk_length hv
    have hl1 : (splice (st.dev.blk s first) 0 [(0 : Byte), 1]).length = 256 := by
      rw [length_splice _ _ _ (by simp; omega), hlen]
    have hz : CHAIN_LINK_ZERO.toBytes (st.dev.blk s first) =
        .ok (splice (st.dev.blk s first) 0 [0, 1]) := by
      unfold ChainLink.toBytes CHAIN_LINK_ZERO
      rw [if_neg (by omega)]
      rfl
    generalize hd1 : st.dev.put s first (splice (st.dev.blk s first) 0 [0, 1]) = d1
    have w1 : Wf d1 s := hd1 ▸ h.wf.put hv hl1
    have h1 : OnDisk d1 s v := by
      refine h.frame w1 (hd1 ▸ header_put h.wf hv hl1 hdl.not_system) ?_ ?_
      · intro l hl
        rw [← hd1]
        refine h.wf.blk_put_other hv (h.dir_valid hl) ?_ hl1
        rintro rfl
        exact hdl.not_directory (h.dirTrack _ hl).1
      · intro l hl
        rw [← hd1]
        exact h.wf.blk_put_other hv (h.used_valid hl) (fun e => hnu (e ▸ hl)) hl1
    have hwr1 : Writable d1 := hd1 ▸ hm.writable.put _
    obtain ⟨t1, -⟩ := toBytes_linear (e := newFileEntry slot name type first)
      (x := List.replicate 9 0) (slotAt_length h1 hlt) hn rfl (by simp)
    have e1 := writeEntry_slot (e := newFileEntry slot name type first) h1 hwr1 hlt hp t1
    refine ⟨d1, b', first, h1, ?_⟩
    unfold createIn
    rw [M.bind_of_ok (s := st) (s' := st) (a := first) (by rw [readBam_run, hnf])]
    rw [M.bind_of_ok (a := ()) (updBam_ok hb')]
    rw [M.bind_of_ok (a := ()) (updDev_ok (st := { st with bam := b' })
      (h.wf.sectorMut_ok hm.writable hv hz))]
    rw [M.bind_of_ok (s' := ⟨_, b'⟩) (a := ())
      (by
        unfold writeNewEntry
        rw [hd1, updDev_ok (st := ⟨d1, b'⟩) e1])]
    rfl
  · omega

/-- `create_file`, for any file type, where it succeeds. -/
theorem createFile_any (h : ReadyAt disk s v r b) (hlen : name.length ≤ 16)
    (hno : ∀ g ∈ v.files, g.name ≠ name) (hroom : 0 < v.room s.type)
    (hslot : none ∈ v.slots ∨ v.slots.length < maxSlots s.type) :
    ∃ v₁ i d1 b' slot first, Reserve s v v₁ i ∧ OnDisk d1 s v₁ ∧
      Disk.createFile name type .linear disk = (.ok (newFileEntry slot name type first, r),
        disk.withSt r ⟨putSlot d1 s v₁ i (rendered (newFileEntry slot name type first)
          (List.replicate 9 0) (slotAt d1 s v₁.dir i)), b'⟩) := by
  have hv : checkFilenameValidity name = .ok () := by
    unfold checkFilenameValidity
    rw [if_neg (Nat.not_lt.2 hlen)]
  rcases available_ready h name with ⟨⟨g, hg, hgn⟩, -⟩ | ⟨-, ha⟩
  · exact absurd hgn (hno g hg)
  rcases nextFreeDirectoryEntry_ready h with ⟨v₁, i, st, hres, hn, hm, hf, -, -, -⟩ | ⟨hnone, hmax, -⟩
  · have h1 : ReadyAt (disk.withSt r st) s v₁ r st.bam :=
      h.update hm hf hres.header (hres.exact h.exact)
    obtain ⟨d1, b', first, ho, hc⟩ := createIn_any (slot := DirectoryEntry.parse32
      (slotAt st.dev s v₁.dir i) (some (slotPos v₁.dir i))) (name := name) (type := type) hm hres.slot rfl
      hlen (by rw [hres.room]; exact hroom)
    refine ⟨v₁, i, d1, b', DirectoryEntry.parse32 (slotAt st.dev s v₁.dir i) (some (slotPos v₁.dir i)),
      first, hres, ho, ?_⟩
    unfold Disk.createFile
    rw [if_neg (by simp)]
    rw [M.bind_of_ok (s := disk) (s' := disk) (a := ()) (by rw [M.run_lift, hv]),
      M.bind_of_ok (s := disk) (s' := disk) (a := ()) (by rw [M.run_read, ha]),
      M.bind_of_ok hn,
      M.bind_of_ok (s := disk.withSt r st) (s' := disk.withSt r st) (a := r)
        (by rw [M.run_read]; unfold Disk.bamRef; rw [h1.bam]),
      M.bind_of_ok (withBam_run h1.cell hc), withSt_withSt,
      M.bind_of_ok (s := disk.withSt r _) (s' := disk.withSt r _) (a := r)
        (by rw [M.run_read]; unfold Disk.bamRef Disk.withSt; rw [h.bam])]
    rfl
  · rcases hslot with hs | hs
    · obtain ⟨k, hk⟩ := List.mem_iff_getElem?.1 hs
      exact absurd hk (hnone k)
    · omega

/-- The directory after a slot has been overwritten: the new entry, and the old ones. -/
theorem listed_putSlot (h : OnDisk d s v) (hi : i < v.slots.length) {new : List Byte}
    (hn : new.length = 32) (h0 : byteAt new 0 = byteAt (slotAt d s v.dir i) 0)
    (h1 : byteAt new 1 = byteAt (slotAt d s v.dir i) 1) (h2 : byteAt new 2 &&& 0x8F ≠ 0)
    (hf : disk.format = some s.type.format) {hd : Header} (hh : disk.header = some hd)
    (hg : hd.geos = none) (hdev : disk.dev = putSlot d s v i new) :
    ∃ es : List DirectoryEntry, disk.items = es.map .ok ∧ DirectoryEntry.parse32 new (some (slotPos v.dir i)) ∈ es ∧
      ∀ e ∈ es, e = DirectoryEntry.parse32 new (some (slotPos v.dir i)) ∨
        ∃ f ∈ v.files, e.filename = f.name := by
  have hw : Wf disk.dev s := hdev ▸ putSlot_wf h hi hn
  obtain ⟨c, hc⟩ := h.dirChain
  have hlk : ∀ l ∈ v.dir, ∀ k, k < 2 → byteAt (disk.dev.blk s l) k = byteAt (d.blk s l) k := by
    intro l hl k hk
    rw [hdev]
    exact putSlot_link h hi hn h0 h1 (h.dir_valid hl) k hk
  have hlink : ∀ l ∈ v.dir, linkBytes (disk.dev.blk s l) = linkBytes (d.blk s l) := by
    intro l hl
    unfold linkBytes
    rw [hlk l hl 0 (by omega), hlk l hl 1 (by omega)]
  have hchain : ∃ c', IsChain disk.dev s v.dir c' := by
    obtain ⟨init, t, ht, l0, l1, _⟩ := hc.last
    have htm : t ∈ v.dir := by rw [ht]; simp
    exact ⟨_, hc.valid, hc.nodup, Linked.ofLinks hc.linked hlink, init, t, ht,
      by rw [hlk t htm 0 (by omega)]; exact l0, by rw [hlk t htm 1 (by omega)]; exact l1, rfl⟩
  obtain ⟨c', hc'⟩ := hchain
  have hdir := C30_listing hw hf hh hg (by rw [firstDirectory_format]; exact h.dirFirst) hc'
  have hused : ∀ l ∈ v.dir, usedBytes (disk.dev.blk s l) = 256 := by
    intro l hl
    unfold usedBytes
    rw [hlk l hl 0 (by omega), hlk l hl 1 (by omega)]
    split
    · rename_i h00
      obtain ⟨init, t, ht, l0, -, -⟩ := hc.last
      have hlast : v.dir.getLast? = some t := by rw [ht]; simp
      have hlt : l = t := by
        rw [ht] at hl
        rcases List.mem_append.1 hl with hl | hl
        · exact absurd h00 (chain_init (ht ▸ hc) l hl)
        · exact List.mem_singleton.1 hl
      rw [hlt, h.dirFull t hlast]
      rfl
    · rfl
  -- the bytes of slot `j`
  have hdata : ∀ q k, q < v.dir.length → k < 8 →
      slotData disk.dev s ⟨v.dir.getD q ⟨0, 0⟩, UInt8.ofNat (32 * k), 32⟩ =
        slotAt disk.dev s v.dir (8 * q + k) := by
    intro q k _ hk
    unfold slotData slotAt
    have e1 : (8 * q + k) / 8 = q := by omega
    have e2 : (8 * q + k) % 8 = k := by omega
    have e3 : (UInt8.ofNat (32 * k)).toNat = 32 * k := by
      rw [UInt8.toNat_ofNat']
      omega
    rw [e1, e2]
    simp only [e3]
  have hat : ∀ j, j < v.slots.length →
      slotAt disk.dev s v.dir j = if j = i then new else slotAt d s v.dir j := by
    intro j hj
    rw [hdev]
    exact putSlot_slotAt h hi hj hn
  refine ⟨_, collectRes_inv hdir, ?_, ?_⟩
  · unfold listed
    refine List.mem_map.2 ⟨slotPos v.dir i, List.mem_filter.2 ⟨?_, ?_⟩, ?_⟩
    · unfold dirSlots
      refine List.mem_flatMap.2 ⟨_, slot_dir_mem h hi, ?_⟩
      rw [hused _ (slot_dir_mem h hi)]
      exact List.mem_map.2 ⟨i % 8, List.mem_range.2 (by omega), rfl⟩
    · have : slotData disk.dev s (slotPos v.dir i) = new := by
        have e := hdata (i / 8) (i % 8) (slot_dir_lt h hi) (by omega)
        have e3 : 8 * (i / 8) + i % 8 = i := by omega
        rw [e3, hat i hi, if_pos rfl] at e
        exact e
      unfold slotFree
      rw [this, beq_eq_false_iff_ne.2 h2]
      rfl
    · have : slotData disk.dev s (slotPos v.dir i) = new := by
        have e := hdata (i / 8) (i % 8) (slot_dir_lt h hi) (by omega)
        have e3 : 8 * (i / 8) + i % 8 = i := by omega
        rw [e3, hat i hi, if_pos rfl] at e
        exact e
      unfold entryAt
      rw [this]
  · intro e he
    obtain ⟨p, hp, rfl⟩ := List.mem_map.1 he
    obtain ⟨hp, hfr⟩ := List.mem_filter.1 hp
    obtain ⟨l, hl, hp⟩ := List.mem_flatMap.1 hp
    obtain ⟨k, hk, rfl⟩ := List.mem_map.1 hp
    rw [hused l hl] at hk
    have hk : k < 8 := List.mem_range.1 hk
    obtain ⟨q, hq, rfl⟩ := List.getElem_of_mem hl
    rw [← getD_getElem v.dir ⟨0, 0⟩ hq] at hfr ⊢
    have hj : 8 * q + k < v.slots.length := by rw [h.slotCount]; omega
    have hsl := hdata q k hq hk
    have hpos : slotPos v.dir (8 * q + k) = ⟨v.dir.getD q ⟨0, 0⟩, UInt8.ofNat (32 * k), 32⟩ := by
      unfold slotPos
      have e1 : (8 * q + k) / 8 = q := by omega
      have e2 : (8 * q + k) % 8 = k := by omega
      rw [e1, e2]
    rw [hat _ hj] at hsl
    unfold entryAt
    unfold slotFree at hfr
    rw [hsl] at hfr ⊢
    rw [← hpos]
    by_cases hji : 8 * q + k = i
    · left
      rw [if_pos hji, hji]
    · right
      rw [if_neg hji] at hfr ⊢
      obtain ⟨y, hy⟩ : ∃ y, v.slots[8 * q + k]? = some y := ⟨_, List.getElem?_eq_getElem hj⟩
      have hs := h.slots _ _ hy
      cases y with
      | none =>
        exfalso
        have hs : (FileAttributes.fromByte (byteAt (slotAt d s v.dir (8 * q + k)) 2)).isScratched = true := hs
        rw [scratched_iff] at hs
        rw [hs] at hfr
        cases hfr
      | some f =>
        refine ⟨f, mem_files.2 ⟨_, hy⟩, ?_⟩
        rw [hs.2]
        rfl

/-- A relative file without side sectors cannot be opened. -/
theorem relative_no_sides (hw : Wf d s) {entry : DirectoryEntry} {ex : RelativeExtra}
    (hx : entry.extra = .relative ex) (h0 : ex.firstSideSector = ⟨0, 0⟩) :
    RelativeFile.new d entry = fail .invalidLocation := by
  have hnv : ¬ s.Valid ⟨0, 0⟩ := fun h => absurd h.1 (by decide)
  obtain ⟨ls, e, hp, hst, hnew⟩ := relative_new hw hx
  obtain ⟨rfl, rfl⟩ := path_unique hp hst (ls' := []) (e' := ⟨0, 0⟩)
    ⟨by simp, by simp, by simp, trivial, by rw [h0]; rfl⟩ (.inr (.inl hnv))
  rw [hnew, if_neg (by simp), if_pos hnv]

theorem relative_attr (x : Byte) (h : x &&& 0x0F = 4) :
    (FileAttributes.fromByte (x ||| 0x80)).fileType = .REL ∧ (x ||| 0x80) &&& 0x8F ≠ 0 := by
  revert h
  revert x
  apply forall_byte
  decide +kernel

variable {x x' : Session} {a : Store}

/-- **C75, refuted.** A file of type REL can be created wherever a file of another type can, and
is then in the directory under its name, but opening it fails: it can be neither read nor deleted. -/
theorem C75_relative_refuted (h : Reaches x a) (ht : type.toByte &&& 0x0F = 4)
    (hlen : name.length ≤ 16) (hname : name.getLast? ≠ some 0xA0) (hnew : a.find name = none)
    (hslot : none ∈ a.slots ∨ a.slots.length < maxSlots a.type) (hroom : 0 < a.room) :
    ∃ x' e, Session.step (.create name type .linear) x = (.ok (), x') ∧
      x'.disk.findDirectoryEntry name = .ok e ∧ e.filename = name ∧
      x'.disk.openFile name = fail .invalidLocation := by
  obtain ⟨s, v, r, b, hrep⟩ := h.rep
  have hfiles : ∀ g ∈ v.files, g.name ≠ name := fun g hg hgn => by
    have := (hrep.available name).2 ⟨g, hg, hgn⟩
    rw [hnew] at this
    cases this
  have hslot' : none ∈ v.slots ∨ v.slots.length < maxSlots s.type := by
    rcases hslot with h1 | h1
    · obtain ⟨k, hk⟩ := List.mem_iff_getElem?.1 h1
      exact .inl (List.mem_of_getElem? (hrep.slots.none_iff.2 hk))
    · rw [hrep.type] at h1
      have : v.slots.length = a.slots.length := hrep.slots.1
      exact .inr (by omega)
  obtain ⟨v₁, i, d1, b', slot, first, hres, ho, hrun⟩ := createFile_any (type := type) hrep.ready hlen
    hfiles (by rw [← hrep.room]; exact hroom) hslot'
  have hlt := slot_lt hres.slot
  have hsl := slotAt_length ho hlt
  obtain ⟨-, t2, t3, t4, t5, -⟩ := toBytes_linear (e := newFileEntry slot name type first)
    (x := List.replicate 9 0) hsl hlen rfl (by simp)
  obtain ⟨hrel, hne⟩ := relative_attr _ ht
  obtain ⟨-, -, -, hparse⟩ := parse32_slotBytes (e := newFileEntry slot name type first)
    (out := rendered (newFileEntry slot name type first) (List.replicate 9 0) (slotAt d1 s v₁.dir i))
    (x := List.replicate 9 0) hsl hlen (by simp) (some (slotPos v₁.dir i)) rfl
  have hsch : entryScheme (rendered (newFileEntry slot name type first) (List.replicate 9 0)
      (slotAt d1 s v₁.dir i)) = .relative := by
    unfold entryScheme
    rw [t5]
    exact if_pos hrel
  generalize hnewb : rendered (newFileEntry slot name type first) (List.replicate 9 0)
    (slotAt d1 s v₁.dir i) = new at *
  obtain ⟨es, hitems, hmem, hall⟩ := listed_putSlot (disk := x.disk.withSt r ⟨putSlot d1 s v₁ i new, b'⟩)
    ho hlt t2 t3 t4 (by rw [t5]; exact hne) hrep.ready.format hrep.ready.header hrep.ready.noGeos rfl
  have hfn : (DirectoryEntry.parse32 new (some (slotPos v₁.dir i))).filename = name := by
    rw [hparse]
    exact fromPadded_of_last _ _ hname
  have hfind : (x.disk.withSt r ⟨putSlot d1 s v₁ i new, b'⟩).findDirectoryEntry name =
      .ok (DirectoryEntry.parse32 new (some (slotPos v₁.dir i))) := by
    unfold Disk.findDirectoryEntry
    rw [hitems, findItem_ok]
    cases hf : es.find? fun e => decide (e.filename = name) with
    | none =>
      have := List.find?_eq_none.1 hf _ hmem
      simp [hfn] at this
    | some e =>
      have he : e.filename = name := by simpa using List.find?_some hf
      rcases hall e (List.mem_of_find?_eq_some hf) with rfl | ⟨f, hfm, hfe⟩
      · rfl
      · rw [hres.files] at hfm
        exact absurd (hfe.symm.trans he) (hfiles f hfm)
  refine ⟨⟨x.disk.withSt r ⟨putSlot d1 s v₁ i new, b'⟩, x.files ++ [(.linear (newFileEntry slot name type first), r)],
    x.writers⟩, _, ?_, hfind, hfn, ?_⟩
  · simp only [Session.step]
    rw [M.bind_of_ok (onDisk_run hrun)]
    rfl
  · unfold Disk.openFile
    show (_ >>= _) = _
    rw [hfind, res_bind_ok]
    unfold Disk.openFileFromEntry
    have hbr : (x.disk.withSt r ⟨putSlot d1 s v₁ i new, b'⟩).bamRef = .ok r := by
      unfold Disk.bamRef Disk.withSt
      rw [hrep.ready.bam]
    rw [hbr, res_bind_ok]
    have hfe : File.fromEntry (x.disk.withSt r ⟨putSlot d1 s v₁ i new, b'⟩).dev
        (DirectoryEntry.parse32 new (some (slotPos v₁.dir i))) = fail .invalidLocation := by
      unfold File.fromEntry
      rw [hparse]
      simp only [hsch]
      rw [relative_no_sides (d := (x.disk.withSt r ⟨putSlot d1 s v₁ i new, b'⟩).dev)
        (putSlot_wf ho hlt t2) rfl rfl]
      rfl
    rw [hfe]
    rfl

/-- **C75, partial** (every type but REL).  A file that has been created can be opened by its name
and deleted, and is gone then. -/
theorem C75_reopens_partial (h : Reaches x a) (ht : type.toByte &&& 0x0F ≠ 4)
    (hname : name.getLast? ≠ some 0xA0)
    (hrun : Session.step (.create name type .linear) x = (.ok (), x')) :
    ∃ x'', runs [.openFile name, .delete x'.files.length] x' = ([.ok (), .ok ()], x'') ∧
      ReadsName x'.disk name [] ∧ x''.disk.openFile name = fail .notFound := by
  obtain ⟨res, a', hs⟩ := create_total (type := type) ht name a
  obtain ⟨x₁, hx₁, hr₁⟩ := h.one hs
  rw [hrun] at hx₁
  cases hx₁
  obtain ⟨-, -, -, -, -, -, -, -, -, hread⟩ := C25_created_is_found h ht hname hrun
  obtain ⟨i, hc⟩ := created h.good.quota hs
  have hst := storedName_plain hname
  have hfind : a'.find name = some i := by
    refine find_of hc.slot hst ?_
    intro j g' hj hg'
    exact hc.absent j g' ((hc.others j g' hj).1 hg')
  have hk : x'.files.length = a'.handles.length := hr₁.files
  have hrun' : Store.run [.openFile name, .delete x'.files.length] a' = some ([.ok (), .ok ()],
      { { a' with handles := a'.handles ++ [some i] }.put i none with
        handles := (a'.handles ++ [some i]).map fun k => if k = some i then none else k
        saved := true }) := by
    have hget : (a'.handles ++ [some i])[x'.files.length]? = some (some i) := by
      rw [hk, List.getElem?_concat_length]
    have hwr : ({ a' with handles := a'.handles ++ [some i] } : Store).writing i = false :=
      hc.writing h.good
    simp only [Store.run, Store.step, hfind, Option.bind_eq_bind, Option.bind_some, hget, hwr]
    rfl
  obtain ⟨x'', hx'', hr''⟩ := hr₁.run hrun'
  refine ⟨x'', hx'', hread, hr''.shows.absent name ?_⟩
  refine find_none_iff.2 fun j g hg => ?_
  have hg : (a'.slots.set i none)[j]? = some (some g) := hg
  by_cases hji : j = i
  · subst hji
    rw [List.getElem?_set_self (List.getElem?_eq_some_iff.1 hc.slot).1] at hg
    cases hg
  · rw [List.getElem?_set_ne (Ne.symm hji)] at hg
    exact hc.absent j g ((hc.others j g hji).1 hg)

/-- A disk with two files, and a third of type REL. -/
example (ty : DiskType) : ∃ x a x', Reaches x a ∧
    Session.step (.create [0x43] .REL .linear) x = (.ok (), x') ∧
    x'.disk.openFile [0x43] = fail .invalidLocation := by
  obtain ⟨x, a, h, hty, -, -, -, hs⟩ := two_files ty
  obtain ⟨x', e, h1, -, -, h2⟩ := C75_relative_refuted (name := [0x43]) (type := .REL) h (by decide) (by decide)
    (by decide) (by unfold Store.find; rw [hs]; rfl) (by rw [hs]; simp)
    (by
      unfold Store.room Store.used Store.files
      rw [hs, hty]
      cases ty <;> decide)
  exact ⟨x, a, x', h, h1, h2⟩

/-- The same with type PRG. -/
example (ty : DiskType) : ∃ x a x' x'', Reaches x a ∧
    Session.step (.create [0x43] .PRG .linear) x = (.ok (), x') ∧
    runs [.openFile [0x43], .delete x'.files.length] x' = ([.ok (), .ok ()], x'') := by
  obtain ⟨x, a, h, hty, hh, hw, hsv, hs⟩ := two_files ty
  obtain ⟨a', ha'⟩ : ∃ a', Store.step (.create [0x43] .PRG .linear) a = some (.ok (), a') := by
    obtain ⟨type, label, slots, handles, writers, saved⟩ := a
    cases hty
    cases hh
    cases hw
    cases hs
    cases type <;> exact ⟨_, rfl⟩
  obtain ⟨x', hx', -⟩ := h.one ha'
  obtain ⟨x'', hx'', -⟩ := C75_reopens_partial h (by decide) (by decide) hx'
  exact ⟨x, a, x', x'', h, hx', hx''⟩

end Cbm
