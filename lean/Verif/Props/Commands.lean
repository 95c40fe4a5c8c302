import Verif.Lemmas.Append
import Verif.Props.Cdisk
/-!
# The `cdisk` program

Properties C62 (create and format an image), C63 (commands one after the other) and C64
(append).
-/

namespace Cbm
open Spec

variable {ext : Option (List Char)} {bytes bytes' : List Byte} {c c' : Contents}

/-! ## C62 -/

theorem plain_size (ty : DiskType) : ty.plainGeometry.size = newSize ty := by
  cases ty <;> decide +kernel

/-- **C62** `cdisk create` makes a file of zeros that has the size of the named type,
however the copying is cut into pieces; and that file can be opened as an image of that
type. -/
theorem C62_create (ext : Option (List Char)) (sizes : List Nat) (hpos : ∀ n ∈ sizes, 0 < n)
    (hlen : newSize (namedType ext) < sizes.length) (w : Bool) :
    cmdCreate ext sizes = some (List.replicate (newSize (namedType ext)) 0) ∧
    ∃ disk, Disk.openPath ext w (List.replicate (newSize (namedType ext)) 0) = .ok disk ∧
      disk.native = (namedType ext).format := by
  have hg : cmdCreate ext sizes = (FillReader.mk 0x00 (newSize (namedType ext))).copy sizes := by
    unfold cmdCreate
    rw [namedType_eq, ← plain_size]
    cases DiskType.fromExtension ext <;> rfl
  refine ⟨by rw [hg, C57_copy _ _ _ hpos hlen], ?_⟩
  have hm : newSize (namedType ext) ∈ imageSizes (namedType ext) := by
    cases namedType ext <;> decide
  have hn : (List.replicate (newSize (namedType ext)) (0 : Byte)).length ∈ imageSizes (namedType ext) := by
    rw [List.length_replicate]; exact hm
  have hext : ExtFor ext (namedType ext) := by
    unfold ExtFor
    rw [namedType_eq]
    cases DiskType.fromExtension ext
    · exact .inr rfl
    · exact .inl rfl
  rw [openPath_of hext w hn]
  obtain ⟨disk, hd⟩ := (C05_accepts_exactly (namedType ext)
    (pathImage w (List.replicate (newSize (namedType ext)) 0))).1.2 hn
  obtain ⟨_, -, -, h2, -⟩ := new_ok hd
  exact ⟨disk, hd, h2⟩

/-- **C62** `cdisk format` on any file that opens as an image, whatever it holds, makes it
an empty disk with that label; the file keeps its size. -/
theorem C62_format {disk : Disk} (ho : Disk.openPath ext true bytes = .ok disk) (name id : List Nat)
    (hname : (fromStrLossy name).length ≤ 16) :
    ∃ ty bytes', disk.native = ty.format ∧ cmdFormat ext name id bytes = (.ok (), bytes') ∧
      bytes'.length = bytes.length ∧
      HoldsFiles ext bytes' ⟨(paddedName (fromStrLossy name), idFromBytes (fromStrLossy id)),
        FileMap.empty ty⟩ := by
  obtain ⟨ty, he, hsz, hn⟩ := openPath_inv ho
  obtain ⟨s, rfl, -, hnat, hi, -⟩ := new_ok hn
  obtain ⟨x, hx, hr⟩ := reaches_new hn (by simp [pathImage]) hname (idFromBytes (fromStrLossy id))
  have hkind : x.disk.dev.image.kind = .readWriteMap := by
    have := step_kind (.format (fromStrLossy name) (idFromBytes (fromStrLossy id))) ⟨disk, [], []⟩
    rw [hx] at this
    rw [this]
    show disk.dev.image.kind = _
    rw [hi]; rfl
  have hsize : x.disk.dev.image.bytes.length = disk.dev.image.bytes.length := by
    have := (keep_step (R := SameShape)
      (.format (fromStrLossy name) (idFromBytes (fromStrLossy id))) ⟨disk, [], []⟩).size
    rw [hx] at this
    exact this
  refine ⟨s.type, _, hnat, inSession_run ho hx, ?_, ?_⟩
  · rw [hsize, hi]; rfl
  · exact holds_of hr rfl rfl hkind he

/-- An image exists for every type: create it, then format it. -/
theorem exists_holds (ext : Option (List Char)) (name id : List Nat)
    (hname : (fromStrLossy name).length ≤ 16) :
    ∃ bytes, HoldsFiles ext bytes ⟨(paddedName (fromStrLossy name), idFromBytes (fromStrLossy id)),
        FileMap.empty (namedType ext)⟩ := by
  obtain ⟨-, disk, ho, hnat⟩ := C62_create ext (List.replicate 819201 1)
    (by intro n hn; rw [List.eq_of_mem_replicate hn]; omega)
    (by rw [List.length_replicate]; cases namedType ext <;> decide) true
  obtain ⟨ty, bytes', h1, -, -, h4⟩ := C62_format ho name id hname
  have : ty = namedType ext := format_inj (h1.symm.trans hnat)
  subst this
  exact ⟨bytes', h4⟩

example : cmdCreate (some "d81".toList) (List.replicate 819201 8192) =
    some (List.replicate 819200 0) :=
  (C62_create (some "d81".toList) (List.replicate 819201 8192)
    (by intro n hn; rw [List.eq_of_mem_replicate hn]; omega)
    (by rw [List.length_replicate]; decide) true).1

/-! ## C63 -/

/-- **C63, partial.** One command on an image that holds some files does what the command should
do, and the image holds the resulting files.  Missing are the commands on which `Command.step` is
undefined: a `write` on a full disk whose directory would have to grow leaves a damaged image
(`C63_full_directory_refuted`), a file of type REL cannot be opened again, a `format` with a name
that is too long erases the disk (C54), and a `read` whose buffers end before the file does. -/
theorem C63_command_partial (h : HoldsFiles ext bytes c) (k : Command) (res : Res Answer)
    (hk : k.step c = some (res, c')) :
    ∃ bytes', k.exec ext bytes = (res, bytes') ∧ HoldsFiles ext bytes' c' := command_ok h hk

/-- **C63, partial** (as above). Commands one after the other, each a run of the program of its own that only
shares the bytes of the image file with the others. -/
theorem C63_commands_partial : ∀ (ks : List Command) {bytes : List Byte} {c c' : Contents}
    {rs : List (Res Answer)}, HoldsFiles ext bytes c → Command.steps ks c = some (rs, c') →
    ∃ bytes', execs ext ks bytes = (rs, bytes') ∧ HoldsFiles ext bytes' c'
  | [], bytes, c, c', rs, h, hs => by
    cases hs
    exact ⟨bytes, rfl, h⟩
  | k :: ks, bytes, c, c', rs, h, hs => by
    simp only [Command.steps] at hs
    cases hk : k.step c with
    | none => rw [hk] at hs; cases hs
    | some p =>
      obtain ⟨r, c₁⟩ := p
      rw [hk] at hs
      cases hks : Command.steps ks c₁ with
      | none => simp [hks] at hs
      | some q =>
        obtain ⟨rs', c₂⟩ := q
        simp [hks] at hs
        obtain ⟨rfl, rfl⟩ := hs
        obtain ⟨b₁, h1, h2⟩ := command_ok h hk
        obtain ⟨b₂, h3, h4⟩ := C63_commands_partial ks h2 hks
        exact ⟨b₂, by simp only [execs, h1, h3], h4⟩

/-- **C63, partial** (as above). From a newly created image on. -/
theorem C63_from_scratch_partial (ext : Option (List Char)) (sizes : List Nat) (hpos : ∀ n ∈ sizes, 0 < n)
    (hlen : newSize (namedType ext) < sizes.length) (name id : List Nat)
    (hname : (fromStrLossy name).length ≤ 16) (ks : List Command) (rs : List (Res Answer))
    (hs : Command.steps ks ⟨(paddedName (fromStrLossy name), idFromBytes (fromStrLossy id)),
        FileMap.empty (namedType ext)⟩ = some (rs, c')) :
    ∃ bytes bytes', cmdCreate ext sizes = some bytes ∧
      execs ext (.format name id :: ks) bytes = (.ok .done :: rs, bytes') ∧
      HoldsFiles ext bytes' c' := by
  obtain ⟨hc, disk, ho, hnat⟩ := C62_create ext sizes hpos hlen true
  obtain ⟨ty, b₁, h1, h2, -, h4⟩ := C62_format ho name id hname
  have : ty = namedType ext := format_inj (h1.symm.trans hnat)
  subst this
  obtain ⟨b₂, h5, h6⟩ := C63_commands_partial ks h4 hs
  refine ⟨_, b₂, hc, ?_, h6⟩
  simp only [execs, Command.exec, h2, h5]
  rfl

/-- **C63, partial** (as above). A file written by one run of the program is read back by a later run. -/
theorem C63_write_then_read_partial (h : HoldsFiles ext bytes c) {name : List Nat} {type : FileType}
    {pieces : List (List Byte)} {m : FileMap} {i : Nat} {sizes : List Nat}
    (ht : type.toByte &&& 0x0F ≠ 4) (hname : (fromStrLossy name).length ≤ 16)
    (hpad : (fromStrLossy name).getLast? ≠ some 0xA0)
    (hnew : c.map.find (fromStrLossy name) = none) (hres : c.map.reserve = some (m, i))
    (hroom : 0 < m.free) (hfit : pieces.flatten.length ≤ 254 * m.free)
    (hpos : ∀ n ∈ sizes, 0 < n) (hsizes : pieces.flatten.length < sizes.length) :
    ∃ bytes', cmdWrite ext name type pieces bytes = (.ok (), bytes') ∧
      cmdRead ext name sizes bytes' = (.ok pieces.flatten, bytes') := by
  have hw : (Command.write name type pieces).step c = some (.ok .done, { c with
      map := m.put i (some ⟨storedName (fromStrLossy name), type.toByte ||| 0x80,
        pieces.flatten.take (254 * m.free)⟩) }) := by
    simp only [Command.step]
    rw [if_neg ht, if_neg (by omega), hnew, hres]
    simp only [Option.isSome_none, Bool.false_eq_true, if_false]
    rw [if_neg (by omega), if_pos hfit]
  obtain ⟨bytes', h1, h2⟩ := command_ok h hw
  rw [storedName_plain hpad, List.take_of_length_le hfit] at h2
  -- the new file is the one found
  have hr2 := map_reserve (storeFor c)
  rw [storeFor_map, hres] at hr2
  obtain ⟨a₁, j, hr, hmap, hij⟩ : ∃ a₁ j, (storeFor c).reserve = some (a₁, j) ∧ m = mapOf a₁ ∧ i = j := by
    cases hr : (storeFor c).reserve with
    | none => rw [hr] at hr2; cases hr2
    | some p =>
      rw [hr] at hr2
      obtain ⟨h1, h2⟩ := Prod.mk.inj (Option.some.inj hr2)
      exact ⟨p.1, p.2, rfl, h1, h2⟩
  subst hij hmap
  have hcs := reserve_cases hr
  have hil := (List.getElem?_eq_some_iff.1 hcs.2.1).1
  have hfind : FileMap.find ((mapOf a₁).put i (some ⟨fromStrLossy name, type.toByte ||| 0x80,
      pieces.flatten⟩)) (fromStrLossy name) =
      some (i, ⟨fromStrLossy name, type.toByte ||| 0x80, pieces.flatten⟩) := by
    have hf := find_of (a := a₁.put i (some ⟨fromStrLossy name, type.toByte ||| 0x80, pieces.flatten⟩))
      (i := i) (g := ⟨fromStrLossy name, type.toByte ||| 0x80, pieces.flatten⟩)
      (name := fromStrLossy name)
      (by show (a₁.slots.set i _)[i]? = _; rw [List.getElem?_set_self hil]) rfl (by
        intro j g' hji hg' hn
        have hg' : (a₁.slots.set i _)[j]? = some (some g') := hg'
        rw [List.getElem?_set_ne (fun e => hji e.symm)] at hg'
        have hold := hcs.2.2.2.1 j g' hg'
        rcases map_find (storeFor c) (fromStrLossy name) with ⟨k1, -⟩ | ⟨_, _, -, -, -, k2⟩
        · exact find_none_iff.1 k1 j g' hold hn
        · rw [storeFor_map, hnew] at k2; cases k2)
    rcases map_find (a₁.put i (some ⟨fromStrLossy name, type.toByte ||| 0x80, pieces.flatten⟩))
      (fromStrLossy name) with ⟨k1, -⟩ | ⟨i', g', k1, k2, -, k4⟩
    · rw [hf] at k1; cases k1
    · rw [hf] at k1
      cases k1
      have k2 : (a₁.slots.set i _)[i]? = some (some g') := k2
      rw [List.getElem?_set_self hil] at k2
      cases k2
      exact k4
  have hrd : (Command.read name sizes).step { c with
      map := (mapOf a₁).put i (some ⟨fromStrLossy name, type.toByte ||| 0x80, pieces.flatten⟩) } =
      some (.ok (.content pieces.flatten), { c with
      map := (mapOf a₁).put i (some ⟨fromStrLossy name, type.toByte ||| 0x80, pieces.flatten⟩) }) := by
    simp only [Command.step]
    rw [hfind]
    simp only
    rw [if_pos ⟨hpos, hsizes⟩]
  obtain ⟨h3, -⟩ := read_ok h2 hrd
  refine ⟨bytes', ?_, ?_⟩
  · simp only [Command.exec] at h1
    obtain ⟨k1, k2⟩ := Prod.mk.inj h1
    refine Prod.ext ?_ k2
    cases hx : (cmdWrite ext name type pieces bytes).1 with
    | ok u => rfl
    | error e => rw [hx] at k1; cases k1
  · simp only [Command.exec] at h3
    obtain ⟨k1, k2⟩ := Prod.mk.inj h3
    refine Prod.ext ?_ k2
    cases hx : (cmdRead ext name sizes bytes').1 with
    | ok u => rw [hx] at k1; cases k1; rfl
    | error e => rw [hx] at k1; cases k1

/-! ## C64 -/

/-- **C64** (refuted) `cdisk append` never appends: whatever the image holds, the file it
names and the data are, it ends with an error, because it opens the image read-only. -/
theorem C64_refuted (ext : Option (List Char)) (name : List Nat) (pieces : List (List Byte))
    (bytes : List Byte) : ∃ e, cmdAppend ext name pieces bytes = (.error e, bytes) := by
  obtain ⟨e, h⟩ := append_not_ok ext name pieces bytes
  refine ⟨e, Prod.ext h ?_⟩
  exact inSession_readOnly (Keeps.bind (keep_step _) fun _ => Keeps.bind (keep_step _) fun _ =>
    keep_copyInto 0 pieces) ext bytes

/-- **C64** (partial: that the image is left alone and why) On an image that holds files,
it says that the file does not exist, or that the image is read-only; the image keeps its
files. -/
theorem C64_reported_partial (h : HoldsFiles ext bytes c) (name : List Nat)
    (pieces : List (List Byte)) :
    cmdAppend ext name pieces bytes =
      (if (c.map.find (fromStrLossy name)).isSome then fail .readOnly else fail .notFound, bytes) := by
  obtain ⟨e, hc⟩ := C64_refuted ext name pieces bytes
  obtain ⟨disk, s, v, b, ho, hl, hb, -, hs, -, hd⟩ := holds_locked h
  refine Prod.ext ?_ (by rw [hc])
  simp only
  rcases locked_find hl hs hd (fromStrLossy name) with ⟨h1, h2⟩ | ⟨i, g, f, r, h1, h2, -, rd, h3, -⟩
  · rw [h1]
    unfold cmdAppend inSession
    rw [ho]
    simp only
    rw [M.bind_of_error (s' := ⟨disk, [], []⟩) (e := .err .notFound) (by
      simp only [Session.step]
      rw [M.bind_of_error (s' := ⟨disk, [], []⟩) (e := .err .notFound) (by
        rw [M.run_read, h2])])]
    rfl
  · rw [append_run pieces ho h2, h1]
    obtain ⟨w, hw⟩ : ∃ w, f.writer disk.dev = .ok w := by
      rcases hl.opened.find (fromStrLossy name) with ⟨j, fr, hj, -, -, r', h4⟩ | ⟨-, h4⟩
      · rw [h2] at h4
        cases h4
        obtain ⟨w, hw, -⟩ := writer_new hl.opened.onDisk hj (e := fr.entry (slotPos v.dir j)) rfl
        exact ⟨w, hw⟩
      · rw [h2] at h4; cases h4
    rw [hw]
    rfl

/-! ## Witnesses -/

/-- A program that writes, lists, renames and reads. -/
def sampleCommands : List Command :=
  [.write [104, 105] .PRG [[1, 2, 3], [4]], .write [104, 105] .SEQ [], .dir,
    .rename [104, 105] [111, 107], .read [111, 107] [1, 2, 8, 8, 8],
    .read [104, 105] [8], .validate, .delete [111, 107], .dir]

def sampleResults : List (Res Answer) :=
  [.ok .done, fail .fileExists, .ok (.listing [([72, 73], 130, 1)] 663), .ok .done,
    .ok (.content [1, 2, 3, 4]), fail .notFound, .ok (.errors []), .ok .done, .ok (.listing [] 664)]

example : ∃ bytes bytes', cmdCreate (some "d64".toList) (List.replicate 174849 512) = some bytes ∧
    execs (some "d64".toList) (.format [] [] :: sampleCommands) bytes =
      (.ok .done :: sampleResults, bytes') := by
  have h : (Command.steps sampleCommands ⟨(paddedName (fromStrLossy []), idFromBytes (fromStrLossy [])),
      FileMap.empty (namedType (some "d64".toList))⟩).map (·.1) = some sampleResults := by
    decide +kernel
  obtain ⟨⟨rs, c'⟩, h1, h2⟩ := Option.map_eq_some_iff.1 h
  simp only at h2
  subst h2
  obtain ⟨b, b', k1, k2, -⟩ := C63_from_scratch_partial (some "d64".toList) (List.replicate 174849 512)
    (by intro n hn; rw [List.eq_of_mem_replicate hn]; omega)
    (by rw [List.length_replicate]; decide) [] [] (by decide) sampleCommands _ h1
  exact ⟨b, b', k1, k2⟩

example : ∃ bytes c, HoldsFiles (some "d71".toList) bytes c ∧ c.map.type = .d71 ∧
    ∃ m i, c.map.find (fromStrLossy [104, 105]) = none ∧ c.map.reserve = some (m, i) ∧
      0 < m.free ∧ ([[1, 2], [3]] : List (List Byte)).flatten.length ≤ 254 * m.free := by
  obtain ⟨bytes, h⟩ := exists_holds (some "d71".toList) [] [] (by decide)
  exact ⟨bytes, _, h, by decide +kernel, _, 0, by decide +kernel, rfl, by decide +kernel, by decide +kernel⟩

/-- An image with a file that has room for more: appending to it fails. -/
example : ∃ bytes bytes', cmdWrite (some "d64".toList) [104, 105] .PRG [[1]] bytes = (.ok (), bytes') ∧
    cmdAppend (some "d64".toList) [104, 105] [[2]] bytes' = (fail .readOnly, bytes') := by
  obtain ⟨bytes, h⟩ := exists_holds (some "d64".toList) [] [] (by decide)
  have hs : ((Command.write [104, 105] .PRG [[1]]).step ⟨(paddedName (fromStrLossy []),
      idFromBytes (fromStrLossy [])), FileMap.empty (namedType (some "d64".toList))⟩).map
        (fun p => (p.1, (p.2.map.find (fromStrLossy [104, 105])).isSome)) = some (.ok .done, true) := by
    decide +kernel
  obtain ⟨⟨r, c'⟩, h1, h2⟩ := Option.map_eq_some_iff.1 hs
  obtain ⟨rfl, h3⟩ := Prod.mk.inj h2
  obtain ⟨bytes', k1, k2⟩ := command_ok h h1
  have := C64_reported_partial k2 [104, 105] [[2]]
  rw [if_pos h3] at this
  refine ⟨bytes, bytes', ?_, this⟩
  simp only [Command.exec] at k1
  obtain ⟨e1, e2⟩ := Prod.mk.inj k1
  refine Prod.ext ?_ e2
  cases hx : (cmdWrite (some "d64".toList) [104, 105] .PRG [[1]] bytes).1 with
  | ok u => rfl
  | error e => rw [hx] at e1; cases e1

end Cbm
