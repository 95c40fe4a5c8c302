import Verif.Props.Commands
import Verif.Props.Durable
/-!
# C63: the runs of `cdisk` that leave a damaged image
-/

namespace Cbm
open Spec

variable {ext : Option (List Char)} {bytes bytes' : List Byte} {c c' : Contents} {disk : Disk}
  {s : Shape} {v : Volume} {r : Nat} {b b' : Bam} {l : Location}

/-- Opening an image whose BAM marks a directory sector as free: `validate` says so. -/
theorem validate_directory_free (hr : ReadyAt disk s v r b) (hb : BamOf b' s.type)
    (hv : ValidLoc s.type (bamTracks s.type) l) (hfree : isFree b' l = true)
    (hown : ownSector s.type l = false) (hd : l ∈ v.dir) :
    ∃ errs, (reopened disk s v b').validate = .ok errs ∧
      .sectorMisoccupied l systemName ∈ errs := by
  obtain ⟨hro, -⟩ := reopen_any hr
  have hcan : CanValidate (reopened disk s v b') s.type b' v.header v.dir v.listing := by
    have hdir := dir_ready hro
    have hlist := directory_ready hro
    refine ⟨⟨s.type.format.geos, rfl⟩, rfl, rfl, hb, hdir, hlist, ?_⟩
    intro e he
    obtain ⟨j, f, hf, rfl⟩ := mem_listing.1 he
    have hsc := scan_entry hro (mem_files.2 ⟨j, hf⟩) (slotPos v.dir j)
    have hsc : scanFile (reopened disk s v b') _ = _ := hsc
    rw [hsc]
    exact ⟨by simp, by simp⟩
  obtain ⟨errs, hval, herrs⟩ := C32_reports_exactly_the_violations hcan
  refine ⟨errs, hval, (herrs _).2 (.misoccupied hv hfree hown ?_)⟩
  unfold owner claims
  rw [List.find?_cons_of_pos (by simp [hd])]
  rfl

/-- **C63, refuted.** On a disk without a free block whose directory has no free slot but may grow,
`cdisk write` fails, as it should, but leaves an image with one more directory sector, which its
BAM marks as free: from then on `cdisk validate` finds an error. -/
theorem C63_full_directory_refuted (h : HoldsFiles ext bytes c) {name : List Nat} {type : FileType}
    (pieces : List (List Byte)) (ht : type.toByte &&& 0x0F ≠ 4)
    (hname : (fromStrLossy name).length ≤ 16) (hnew : c.map.find (fromStrLossy name) = none)
    (hfull : c.map.free = 0) (hslots : none ∉ c.map.slots)
    (hmore : c.map.slots.length < maxSlots c.map.type) :
    ∃ bytes' l errs, cmdWrite ext name type pieces bytes = (fail .diskFull, bytes') ∧
      cmdValidate ext bytes' = (.ok errs, bytes') ∧ .sectorMisoccupied l systemName ∈ errs := by
  obtain ⟨disk, he, hsz, hn, ho, hreach, hi⟩ := holds_inv h
  obtain ⟨s, v, r, b, hrep⟩ := hreach.rep
  have hty : c.map.type = s.type := hrep.type
  have hno : ∀ k : Nat, v.slots[k]? ≠ some none := fun k hk =>
    hslots (List.mem_of_getElem? (hrep.slots.none_iff.1 hk))
  have hfind : (storeFor c).find (fromStrLossy name) = none := by
    rcases map_find (storeFor c) (fromStrLossy name) with ⟨h1, -⟩ | ⟨i, g, -, -, -, h2⟩
    · exact h1
    · rw [storeFor_map, hnew] at h2
      cases h2
  have hfiles : ∀ g ∈ v.files, g.name ≠ fromStrLossy name := fun g hg hgn => by
    have := (hrep.available (fromStrLossy name)).2 ⟨g, hg, hgn⟩
    rw [hfind] at this
    cases this
  have hroom : v.room s.type = 0 := by
    rw [← hrep.room]
    exact hfull
  have hout := createFile_ready hrep.ready (fromStrLossy name) type ht
  generalize hrun : Disk.createFile (fromStrLossy name) type .linear disk = out at hout
  cases hout with
  | tooLong h1 => omega
  | «exists» _ h1 =>
    obtain ⟨g, hg, hgn⟩ := h1
    exact absurd hgn (hfiles g hg)
  | dirFull _ _ _ h1 =>
    have : v.slots.length = c.map.slots.length := hrep.slots.1
    rw [hty] at hmore
    omega
  | created _ _ _ _ _ h1 _ _ _ _ _ _ => omega
  | @full v₁ i st _ _ hres _ hr1 _ _ hsys =>
    cases hres with
    | free h1 _ => exact absurd h1 (hno _)
    | @fresh new _ _ hnv =>
      have hwf := hrep.ready.mounted.onDisk.wf
      have hod := hr1.mounted.onDisk
      have hsy : Synced st.dev s b := (hrep.saved rfl).frame hwf hod.wf hsys
      obtain ⟨hro, hopen⟩ := reopen_any hr1
      have hst : storedEntries (disk.withSt r st).dev s = b.entries := synced_entries hsy hod.wf
      rw [hst, bam_eta hrep.ready.bamFormat hrep.ready.mounted.recorded.consistent.live] at hopen
      have hmem : new ∈ (v.extend new).dir := List.mem_append.2 (.inr (by simp))
      obtain ⟨htrack, hsysn⟩ := hod.dirTrack new hmem
      have hnd : new ∉ v.dir := fun hd => by
        obtain ⟨content, hc⟩ := hod.dirChain
        have := hc.nodup
        have : (v.dir ++ [new]).Nodup := this
        exact (List.nodup_append.1 this).2.2 new hd new (by simp) rfl
      have hfree : isFree b new = true := by
        cases hf : isFree b new with
        | true => rfl
        | false =>
          rcases (hrep.ready.mounted.recorded.exact new hnv).1 hf with h1 | h1 | h1
          · rw [hsysn] at h1; cases h1
          · exact absurd h1 hnd
          · have := (hrep.ready.mounted.onDisk.dataLocs new h1).2
            rw [htrack] at this
            revert this
            cases s.type <;> decide
      have hown : ownSector s.type new = false := by
        unfold ownSector
        rw [hsysn, Bool.false_or]
        refine beq_eq_false_iff_ne.2 fun hf => hnd ?_
        rw [hf]
        exact List.mem_of_mem_head? hrep.ready.mounted.onDisk.dirFirst
      obtain ⟨errs, hval, herr⟩ := validate_directory_free hr1
        hrep.ready.mounted.recorded.consistent.toBamOf hnv hfree hown hmem
      have hstep : Session.step (.create (fromStrLossy name) type .linear) ⟨disk, [], []⟩ =
          (fail .diskFull, ⟨disk.withSt r st, [], []⟩) := M.bind_of_error (onDisk_run hrun)
      have hkind : (disk.withSt r st).dev.image.kind = .readWriteMap := by
        have := step_kind (.create (fromStrLossy name) type .linear) ⟨disk, [], []⟩
        rw [hstep] at this
        rw [this]
        show disk.dev.image.kind = _
        rw [hi]
        rfl
      have himg : (disk.withSt r st).dev.image = pathImage true (disk.withSt r st).dev.image.bytes := by
        unfold pathImage
        rw [← hkind]
        rfl
      have hsz' : (disk.withSt r st).dev.image.bytes.length ∈ imageSizes c.map.type := by
        rw [hty]
        exact (C05_accepts_exactly s.type _).1.1 ⟨_, hopen⟩
      have ho' : Disk.openPath ext true (disk.withSt r st).dev.image.bytes =
          .ok (reopened (disk.withSt r st) s (v.extend new) b) := by
        rw [openPath_of he true hsz', ← himg, hty]
        exact hopen
      refine ⟨(disk.withSt r st).dev.image.bytes, new, errs,
        inSession_run (x := ⟨disk.withSt r st, [], []⟩) ho ?_, ?_, herr⟩
      · rw [M.bind_of_error hstep]
      · exact inSession_run (x := ⟨reopened (disk.withSt r st) s (v.extend new) b, [], []⟩) ho' (by
          rw [M.run_read]
          exact congrArg (·, _) hval)

/-- Seven empty files. -/
def sevenFiles : List Command :=
  [97, 98, 99, 100, 101, 102, 103].map fun n => .write [n] .PRG []

/-- The directory with them. -/
def sevenSlots : List (Option StoredFile) :=
  ([0x41, 0x42, 0x43, 0x44, 0x45, 0x46, 0x47] : List Byte).map fun n => some ⟨[n], 0x82, []⟩

/-- Eight files that take all 664 blocks of a 1541 image: writing a ninth damages the image. -/
example : ∃ bytes c bytes' l errs, HoldsFiles (some "d64".toList) bytes c ∧ c.map.files.length = 8 ∧
    cmdWrite (some "d64".toList) [105] .PRG [[1]] bytes = (fail .diskFull, bytes') ∧
    cmdValidate (some "d64".toList) bytes' = (.ok errs, bytes') ∧
    .sectorMisoccupied l systemName ∈ errs := by
  obtain ⟨bytes, h⟩ := exists_holds (some "d64".toList) [] [] (by decide)
  have h7 : (Command.steps sevenFiles ⟨(paddedName (fromStrLossy []), idFromBytes (fromStrLossy [])),
      FileMap.empty (namedType (some "d64".toList))⟩).map (fun p => (p.2.map.type, p.2.map.slots)) =
        some (.d64, sevenSlots ++ [none]) := by
    decide +kernel
  obtain ⟨⟨rs, c⟩, h1, h2⟩ := Option.map_eq_some_iff.1 h7
  obtain ⟨b1, -, k1⟩ := C63_commands_partial _ h h1
  obtain ⟨label, type, slots⟩ := c
  obtain ⟨rfl, rfl⟩ := Prod.mk.inj h2
  obtain ⟨D, hD⟩ : ∃ D : List Byte, D.length = 254 * 657 := ⟨List.replicate (254 * 657) 0, List.length_replicate ..⟩
  have h8 : (Command.write [104] .PRG [D]).step ⟨label, .d64, sevenSlots ++ [none]⟩ =
      some (.ok .done, ⟨label, .d64, sevenSlots ++ [some ⟨[0x48], 0x82, D⟩]⟩) := by
    have e1 : FileMap.find ⟨.d64, sevenSlots ++ [none]⟩ (fromStrLossy [104]) = none := by decide +kernel
    have e2 : FileMap.reserve ⟨.d64, sevenSlots ++ [none]⟩ = some (⟨.d64, sevenSlots ++ [none]⟩, 7) := rfl
    have e3 : FileMap.free ⟨.d64, sevenSlots ++ [none]⟩ = 657 := by decide +kernel
    have e4 : storedName (fromStrLossy [104]) = [0x48] := by decide +kernel
    simp only [Command.step, e1, e2, e3, e4]
    rw [if_neg (by decide), if_neg (by decide), if_neg (by decide), if_neg (by decide)]
    rw [if_pos (by simp [hD])]
    rw [List.take_of_length_le (by simp [hD])]
    simp only [List.flatten_cons, List.flatten_nil, List.append_nil]
    rfl
  obtain ⟨b2, -, k2⟩ := C63_command_partial k1 _ _ h8
  have hfree : FileMap.free ⟨.d64, sevenSlots ++ [some ⟨[0x48], 0x82, D⟩]⟩ = 0 := by
    unfold FileMap.free FileMap.files
    rw [List.filterMap_append, List.map_append, List.sum_append]
    show 664 - (7 + (max 1 ((D.length + 253) / 254) + 0)) = 0
    rw [hD]
    rfl
  have hfind : FileMap.find ⟨.d64, sevenSlots ++ [some ⟨[0x48], 0x82, D⟩]⟩ (fromStrLossy [105]) = none := by
    rfl
  obtain ⟨bytes', l, errs, r1, r2, r3⟩ := C63_full_directory_refuted k2 (name := [105]) (type := .PRG) [[1]]
    (by decide) (by decide) hfind hfree (by simp [sevenSlots]) (by show _ < 144; simp [sevenSlots])
  exact ⟨b2, _, bytes', l, errs, k2, rfl, r1, r2, r3⟩

end Cbm
