import Verif.Spec.Host
import Verif.Props.Format
import Verif.Props.Durable
import Verif.Lemmas.Commands
/-!
# C80, C81, C82: image files of the host
-/

namespace Cbm
open Spec

variable {ty : DiskType} {p q : Path} {h : Host} {g : Geometry} {bytes : List Byte} {disk : Disk}

/-! ## Opening an image -/

theorem openedAs_new {image : Image} (hnew : Disk.new ty image = .ok disk) :
    OpenedAs ty image.kind image.bytes disk := by
  obtain ⟨s, rfl, hw, hn, hi, -⟩ := new_ok hnew
  refine ⟨hn, by rw [hi], hw.geometry, ?_⟩
  have hl : image.bytes.length ∈ imageSizes s.type := (C05_accepts_exactly s.type image).1.1 ⟨disk, hnew⟩
  unfold Disk.new Disk.fromImage at hnew
  cases hf : Geometry.findBySize image.len s.type.geometries with
  | none => rw [hf] at hnew; cases hnew
  | some g =>
    rw [hf] at hnew
    simp only at hnew
    obtain ⟨hg, hs⟩ := findBySize_some hf
    have := keep_initialize (R := SameShape) ⟨s.type.format, ⟨image, g, []⟩, none, none, none, []⟩
    rw [M.run_update, hnew] at this
    rw [this.geometry]
    exact hs

theorem size_mem (hg : g ∈ ty.geometries) : g.size ∈ imageSizes ty := (mem_sizes ty _).2 ⟨g, hg, rfl⟩

theorem sizes_pos {n : Nat} (hn : n ∈ imageSizes ty) : 0 < n := by
  cases ty <;> simp only [imageSizes, List.mem_cons, List.not_mem_nil, or_false] at hn <;> omega

theorem ne_nil_of_size (hn : bytes.length ∈ imageSizes ty) : bytes ≠ [] := by
  have := sizes_pos hn
  intro e
  rw [e] at this
  cases this

theorem diskFrom_mapped (kind : ImageKind) (hn : bytes.length ∈ imageSizes ty) :
    ∃ disk, diskFrom ty (mapped kind bytes) = .ok disk ∧ OpenedAs ty kind bytes disk := by
  obtain ⟨disk, hd⟩ := (C05_accepts_exactly ty ⟨kind, bytes⟩).1.2 hn
  refine ⟨disk, ?_, openedAs_new hd⟩
  unfold mapped
  rw [if_neg (ne_nil_of_size hn)]
  unfold diskFrom
  simp only
  rw [hd]

theorem diskFrom_refused (kind : ImageKind) (hne : bytes ≠ []) (hn : bytes.length ∉ imageSizes ty) :
    diskFrom ty (mapped kind bytes) = .error (.lib (.err .invalidLayout)) := by
  unfold mapped
  rw [if_neg hne]
  unfold diskFrom
  simp only
  rw [(C05_accepts_exactly ty ⟨kind, bytes⟩).2 hn]

theorem setLen_length (n : Nat) : (setLen n bytes).length = n := by
  unfold setLen
  rw [List.length_append, List.length_take, List.length_replicate]
  omega

theorem setLen_same : setLen bytes.length bytes = bytes := by
  unfold setLen
  rw [List.take_length, Nat.sub_self]
  simp

theorem put_same (hp : h p = some bytes) : h.put p bytes = h := by
  funext q
  unfold Host.put
  split
  · rename_i e; rw [e, hp]
  · rfl

/-! ## C80: creating an image file -/

/-- **C80** With `create_new`, if there is no file at the path: a file of zeros with exactly the size of the
geometry is made, nothing else changes, and the disk is open for writing on it. -/
theorem C80_new_file_partial (hp : h p = none) (hg : g ∈ ty.geometries) :
    ∃ disk, Disk.create ty p g true h = (.ok disk, h.put p (List.replicate g.size 0)) ∧
      OpenedAs ty .readWriteMap (List.replicate g.size 0) disk := by
  have hz : setLen g.size [] = List.replicate g.size 0 := by
    unfold setLen
    rw [List.take_nil]
    rfl
  have hl : (List.replicate g.size (0 : Byte)).length ∈ imageSizes ty := by
    rw [List.length_replicate]; exact size_mem hg
  obtain ⟨disk, hd, ho⟩ := diskFrom_mapped .readWriteMap hl
  refine ⟨disk, ?_, ho⟩
  unfold Disk.create Image.create
  simp only [hp, hz, hd]

/-- **C80** With `create_new`, if there is a file at the path, it is refused and left as it is. -/
theorem C80_existing_file_partial (hp : h p = some bytes) :
    Disk.create ty p g true h = (.error .alreadyExists, h) := by
  unfold Disk.create Image.create diskFrom
  simp only [hp]

/-- **C80, refuted** Without `create_new` the documentation promises that "any existing file will be
overwritten".  A file of the right size is not changed at all, and the disk that is opened is the old one. -/
theorem C80_not_overwritten_refuted (hp : h p = some bytes) (hg : g ∈ ty.geometries)
    (hl : bytes.length = g.size) :
    ∃ disk, Disk.create ty p g false h = (.ok disk, h) ∧ Disk.openTyped ty p true h = .ok disk ∧
      OpenedAs ty .readWriteMap bytes disk := by
  have hm : bytes.length ∈ imageSizes ty := by rw [hl]; exact size_mem hg
  obtain ⟨disk, hd, ho⟩ := diskFrom_mapped .readWriteMap hm
  refine ⟨disk, ?_, ?_, ho⟩
  · unfold Disk.create Image.create
    simp only [hp]
    rw [← hl, setLen_same, put_same hp, hd]
  · unfold Disk.openTyped Image.openReadWrite
    simp only [hp, if_true, hd]

/-- **C80, refuted** Without `create_new` nothing can be created: if there is no file, the call fails. -/
theorem C80_missing_refuted (hp : h p = none) : Disk.create ty p g false h = (.error .notFound, h) := by
  unfold Disk.create Image.create diskFrom
  simp only [hp]

/-- **C80** What `create` without `create_new` does to a file: it is cut off or filled up with zeros to the
size of the geometry, and nothing else changes. -/
theorem C80_resized_partial (hp : h p = some bytes) (hg : g ∈ ty.geometries) :
    ∃ disk bytes', Disk.create ty p g false h = (.ok disk, h.put p bytes') ∧
      OpenedAs ty .readWriteMap bytes' disk ∧ bytes'.length = g.size ∧
      ∀ i, i < g.size → bytes'.getD i 0 = bytes.getD i 0 := by
  have hm : (setLen g.size bytes).length ∈ imageSizes ty := by rw [setLen_length]; exact size_mem hg
  obtain ⟨disk, hd, ho⟩ := diskFrom_mapped .readWriteMap hm
  refine ⟨disk, setLen g.size bytes, ?_, ho, setLen_length _, fun i hi => ?_⟩
  · unfold Disk.create Image.create
    simp only [hp, hd]
  · unfold setLen
    rw [List.getD_eq_getElem?_getD, List.getD_eq_getElem?_getD]
    rcases Nat.lt_or_ge i bytes.length with hlt | hge
    · rw [List.getElem?_append_left (by rw [List.length_take]; omega), List.getElem?_take_of_lt hi]
    · rw [List.getElem?_append_right (by rw [List.length_take]; omega), List.getElem?_eq_none hge,
        List.getElem?_replicate]
      split <;> rfl

/-- **C80** However the disk was created, and whatever was in the file: after `write_format` it is an empty
disk, and so it is when the file is opened again. -/
theorem C80_formatted_partial {createNew : Bool} {h' : Host} (hc : Disk.create ty p g createNew h = (.ok disk, h'))
    {name : Petscii} (hname : name.length ≤ 16) (id : Byte × Byte) :
    ∃ x, Session.step (.format name id) ⟨disk, [], []⟩ = (.ok (), x) ∧ EmptyDisk ty name id x.disk ∧
      ∃ disk', Disk.openTyped ty p true (h'.during p x.disk) = .ok disk' ∧ EmptyDisk ty name id disk' := by
  have hnew : ∃ bs, Disk.new ty ⟨.readWriteMap, bs⟩ = .ok disk := by
    have key : ∀ bs, diskFrom ty (mapped .readWriteMap bs) = .ok disk → Disk.new ty ⟨.readWriteMap, bs⟩ = .ok disk := by
      intro bs hb
      unfold mapped diskFrom at hb
      split at hb
      · cases hb
      · rename_i image hi
        split at hi
        · cases hi
        · cases hi
          cases hn : Disk.new ty ⟨.readWriteMap, bs⟩ with
          | ok d => rw [hn] at hb; cases hb; rfl
          | error f => rw [hn] at hb; cases hb
    unfold Disk.create Image.create at hc
    cases createNew <;> cases hp : h p <;> simp only [hp] at hc
    · cases hc
    · exact ⟨_, key _ (congrArg Prod.fst hc)⟩
    · exact ⟨_, key _ (congrArg Prod.fst hc)⟩
    · cases hc
  obtain ⟨bs, hnew⟩ := hnew
  obtain ⟨x, disk', h1, h2, h3, h4, -⟩ := C13_format hnew (by nofun) [] hname id
  refine ⟨x, h1, h2, disk', ?_, h4⟩
  have hk : x.disk.dev.image.kind = .readWriteMap := by
    have h5 := (C58_shape_is_fixed ⟨disk, [], []⟩ [.format name id]).2.1
    obtain ⟨-, hi, -⟩ := openedAs_new hnew
    have h6 : Session.run [.format name id] ⟨disk, [], []⟩ = x := congrArg Prod.snd h1
    rw [h6] at h5
    rw [h5]
    show disk.dev.image.kind = _
    rw [hi]
  have himg : x.disk.dev.image = ⟨.readWriteMap, x.disk.dev.image.bytes⟩ := by rw [← hk]
  have hsz : x.disk.dev.image.bytes.length ∈ imageSizes ty :=
    (C05_accepts_exactly ty x.disk.dev.image).1.1 ⟨disk', h3⟩
  unfold Disk.openTyped Image.openReadWrite Host.during
  rw [hk]
  simp only [Host.put, if_true]
  unfold mapped
  rw [if_neg (ne_nil_of_size hsz), ← himg]
  unfold diskFrom
  simp only [h3]

/-- **C80** A geometry of another type is refused, but the file has been made by then. -/
theorem C80_foreign_geometry_refuted (hp : h p = none) (hg : g.size ∉ imageSizes ty) (h0 : 0 < g.size) :
    Disk.create ty p g true h =
      (.error (.lib (.err .invalidLayout)), h.put p (List.replicate g.size 0)) := by
  have hz : setLen g.size [] = List.replicate g.size 0 := by
    unfold setLen
    rw [List.take_nil]
    rfl
  have hne : List.replicate g.size (0 : Byte) ≠ [] := by
    intro e
    have := congrArg List.length e
    rw [List.length_replicate] at this
    simp at this
    omega
  have := diskFrom_refused (ty := ty) (bytes := List.replicate g.size 0) .readWriteMap hne
    (by rw [List.length_replicate]; exact hg)
  unfold Disk.create Image.create
  simp only [hp, hz, this]

/-! ## C81: the type of an image by its name -/

theorem splitSlash_last (name : List Char) (hn : '/' ∉ name) : splitSlash name = [name] := by
  induction name with
  | nil => rfl
  | cons c cs ih =>
    unfold splitSlash
    rw [if_neg (fun e => hn (by simp [e])), ih fun hm => hn (List.mem_cons_of_mem _ hm)]

theorem splitSlash_cons (c : Char) (cs : List Char) : splitSlash (c :: cs) = if c = '/' then [] :: splitSlash cs
    else match splitSlash cs with
      | [] => [[c]]
      | w :: ws => (c :: w) :: ws := rfl

theorem splitSlash_append (name : List Char) : ∀ dir : List Char,
    ∃ w ws, splitSlash (dir ++ '/' :: name) = (w :: ws) ++ splitSlash name
  | [] => ⟨[], [], rfl⟩
  | c :: cs => by
    obtain ⟨w, ws, hw⟩ := splitSlash_append name cs
    show ∃ w' ws', splitSlash (c :: (cs ++ '/' :: name)) = _
    rw [splitSlash_cons, hw]
    by_cases hc : c = '/'
    · rw [if_pos hc]; exact ⟨[], w :: ws, rfl⟩
    · rw [if_neg hc]; exact ⟨c :: w, ws, rfl⟩

theorem fileName_of_leads {name : List Char} (hl : Leads p name) (h1 : name ≠ []) (h2 : name ≠ ['.'])
    (h3 : name ≠ ['.', '.']) : fileName p = some name := by
  obtain ⟨dir, rfl, hd, hn⟩ := hl
  have : ∃ ws, splitSlash (dir ++ name) = ws ++ [name] := by
    rcases hd with rfl | hd
    · exact ⟨[], by rw [List.nil_append, splitSlash_last name hn]; rfl⟩
    · obtain ⟨dir', rfl⟩ := List.getLast?_eq_some_iff.1 hd
      obtain ⟨w, ws, hw⟩ := splitSlash_append name dir'
      rw [splitSlash_last name hn] at hw
      rw [List.append_assoc]
      exact ⟨w :: ws, hw⟩
  obtain ⟨ws, hw⟩ := this
  unfold fileName
  rw [hw, List.filter_append]
  have hf : [name].filter (fun w => w ≠ [] ∧ w ≠ ['.']) = [name] := by
    rw [List.filter_cons_of_pos (by simp [h1, h2])]
    rfl
  rw [hf, List.getLast?_append]
  simp only [List.getLast?_singleton, Option.some_or]
  rw [if_neg h3]

theorem splitDot_none : ∀ {w : List Char}, splitDot w = none ↔ '.' ∉ w
  | [] => ⟨fun _ => by simp, fun _ => rfl⟩
  | c :: cs => by
    unfold splitDot
    cases hs : splitDot cs with
    | some ab =>
      simp only
      refine ⟨nofun, fun hn => ?_⟩
      have : splitDot cs = none := splitDot_none.2 fun hm => hn (List.mem_cons_of_mem _ hm)
      rw [this] at hs
      cases hs
    | none =>
      simp only
      have := splitDot_none.1 hs
      split
      · rename_i hc; exact ⟨nofun, fun hn => absurd (by simp [hc]) hn⟩
      · rename_i hc
        refine ⟨fun _ hm => ?_, fun _ => rfl⟩
        rcases List.mem_cons.1 hm with hm | hm
        · exact hc hm.symm
        · exact this hm

theorem splitDot_some : ∀ {w a b : List Char}, splitDot w = some (a, b) ↔ w = a ++ '.' :: b ∧ '.' ∉ b
  | [], a, b => by
    refine ⟨nofun, fun h => ?_⟩
    have := congrArg List.length h.1
    simp at this
  | c :: cs, a, b => by
    unfold splitDot
    cases hs : splitDot cs with
    | some ab =>
      obtain ⟨a', b'⟩ := ab
      have h1 := splitDot_some.1 hs
      simp only
      constructor
      · intro h
        cases h
        exact ⟨by rw [h1.1]; rfl, h1.2⟩
      · rintro ⟨h2, h3⟩
        cases a with
        | nil =>
          have : cs = b := by simpa using (List.cons.inj h2).2
          exfalso
          apply h3
          rw [← this, h1.1]
          simp
        | cons x xs =>
          obtain ⟨rfl, h4⟩ := List.cons.inj h2
          have := splitDot_some.2 ⟨h4, h3⟩
          rw [hs] at this
          cases this
          rfl
    | none =>
      have hnd := splitDot_none.1 hs
      simp only
      constructor
      · intro h
        split at h
        · rename_i hc
          cases h
          exact ⟨by rw [hc]; rfl, hnd⟩
        · cases h
      · rintro ⟨h2, h3⟩
        cases a with
        | nil =>
          obtain ⟨rfl, rfl⟩ := List.cons.inj h2
          rw [if_pos rfl]
        | cons x xs =>
          obtain ⟨rfl, h4⟩ := List.cons.inj h2
          exfalso
          apply hnd
          rw [h4]
          simp

theorem fromExtension_some {ext : Option (List Char)} :
    DiskType.fromExtension ext = some ty ↔ ∃ e, ext = some e ∧ e ∈ spellings ty := by
  cases ext with
  | none => exact ⟨nofun, fun ⟨e, he, _⟩ => nomatch he⟩
  | some e =>
    unfold DiskType.fromExtension
    simp only [toLower_twice e (x := '6') (y := '4') (by decide) (by decide),
      toLower_twice e (x := '7') (y := '1') (by decide) (by decide),
      toLower_twice e (x := '8') (y := '1') (by decide) (by decide), Option.some.injEq, exists_eq_left']
    by_cases h1 : e = ['d', '6', '4'] ∨ e = ['D', '6', '4']
    · rw [if_pos h1]
      rcases h1 with rfl | rfl <;> cases ty <;> decide
    rw [if_neg h1]
    by_cases h2 : e = ['d', '7', '1'] ∨ e = ['D', '7', '1']
    · rw [if_pos h2]
      rcases h2 with rfl | rfl <;> cases ty <;> decide
    rw [if_neg h2]
    by_cases h3 : e = ['d', '8', '1'] ∨ e = ['D', '8', '1']
    · rw [if_pos h3]
      rcases h3 with rfl | rfl <;> cases ty <;> decide
    rw [if_neg h3]
    refine ⟨nofun, fun h => ?_⟩
    cases ty <;> simp only [spellings, List.mem_cons, List.not_mem_nil, or_false] at h
    · exact absurd h h1
    · exact absurd h h2
    · exact absurd h h3

/-- The type is found in the name. -/
theorem named_iff (hp : NamesFile p) : DiskType.fromExtension (extension p) = some ty ↔ NamedAs p ty := by
  obtain ⟨name, hl, h1, h2, h3⟩ := hp
  have hx : extension p = match splitDot name with
      | none => none
      | some (before, after) => if before = [] then none else some after := by
    unfold extension
    rw [fileName_of_leads hl h1 h2 h3]
    rfl
  rw [fromExtension_some, hx]
  constructor
  · rintro ⟨e, he, hm⟩
    cases hs : splitDot name with
    | none => rw [hs] at he; cases he
    | some ab =>
      obtain ⟨a, b⟩ := ab
      rw [hs] at he
      simp only at he
      split at he
      · cases he
      · rename_i ha
        cases he
        rw [(splitDot_some.1 hs).1] at hl
        exact ⟨a, e, hl, ha, hm⟩
  · rintro ⟨stem, e, hl', hs, hm⟩
    have hnd : '.' ∉ e := by
      cases ty <;> simp only [spellings, List.mem_cons, List.not_mem_nil, or_false] at hm <;>
        rcases hm with rfl | rfl <;> decide
    have hsd : splitDot (stem ++ '.' :: e) = some (stem, e) := splitDot_some.2 ⟨rfl, hnd⟩
    have hlen : 2 ≤ e.length := by
      cases ty <;> simp only [spellings, List.mem_cons, List.not_mem_nil, or_false] at hm <;>
        rcases hm with rfl | rfl <;> decide
    have hf := fileName_of_leads hl' (by
      intro h; have := congrArg List.length h; simp at this) (by
      intro h; have := congrArg List.length h; simp at this; omega) (by
      intro h; have := congrArg List.length h; simp at this; omega)
    rw [fileName_of_leads hl h1 h2 h3] at hf
    rw [Option.some.inj hf, hsd]
    exact ⟨e, by simp only [if_neg hs], hm⟩

/-- **C81** If the name of a file says which type of image it is, the file is opened as that type: if its size
is one of that type, and not otherwise, even if it is the size of another type. -/
theorem C81_by_name (hp : NamesFile p) (hn : NamedAs p ty) (hf : h p = some bytes) (w : Bool) :
    (bytes.length ∈ imageSizes ty → ∃ disk, Disk.openAt p w h = .ok disk ∧ OpenedAs ty (mapKind w) bytes disk) ∧
    (bytes.length ∉ imageSizes ty → bytes ≠ [] →
      Disk.openAt p w h = .error (.lib (.err .invalidLayout))) := by
  have ho : Disk.openAt p w h = diskFrom ty (mapped (mapKind w) bytes) := by
    unfold Disk.openAt
    rw [(named_iff hp).2 hn]
    unfold Disk.openTyped Image.openReadWrite Image.openReadOnly mapKind
    simp only [hf]
    cases w <;> rfl
  rw [ho]
  exact ⟨fun hm => diskFrom_mapped _ hm, fun hm hne => diskFrom_refused _ hne hm⟩

/-- **C81** If the name does not say it, the size decides. -/
theorem C81_by_size (hp : NamesFile p) (hn : ∀ ty, ¬ NamedAs p ty) (hf : h p = some bytes) (w : Bool) :
    (∀ ty, bytes.length ∈ imageSizes ty →
      ∃ disk, Disk.openAt p w h = .ok disk ∧ OpenedAs ty (mapKind w) bytes disk) ∧
    ((∀ ty, bytes.length ∉ imageSizes ty) → bytes ≠ [] →
      Disk.openAt p w h = .error (.lib (.err .invalidLayout))) := by
  have hx : DiskType.fromExtension (extension p) = none := by
    cases he : DiskType.fromExtension (extension p) with
    | none => rfl
    | some ty => exact absurd ((named_iff hp).1 he) (hn ty)
  have ho : ∀ ty, Disk.openTyped ty p w h = diskFrom ty (mapped (mapKind w) bytes) := by
    intro ty
    unfold Disk.openTyped Image.openReadWrite Image.openReadOnly mapKind
    simp only [hf]
    cases w <;> rfl
  unfold Disk.openAt
  rw [hx]
  simp only [ho]
  constructor
  · intro ty hm
    obtain ⟨disk, hd, hd'⟩ := diskFrom_mapped (mapKind w) hm
    have other : ∀ ty', ty' ≠ ty → diskFrom ty' (mapped (mapKind w) bytes) = .error (.lib (.err .invalidLayout)) :=
      fun ty' hne => diskFrom_refused _ (ne_nil_of_size hm) fun h => hne (C05_unambiguous ty' ty _ h hm).1
    refine ⟨disk, ?_, hd'⟩
    cases ty with
    | d64 => rw [hd]
    | d71 => rw [other .d64 (by simp), hd]
    | d81 => rw [other .d64 (by simp), other .d71 (by simp), hd]
  · intro hm hne
    rw [diskFrom_refused _ hne (hm .d64), diskFrom_refused _ hne (hm .d71), diskFrom_refused _ hne (hm .d81)]

/-- **C81** A file that is not there, or is empty, is not opened. -/
theorem C81_not_opened (w : Bool) :
    (h p = none → Disk.openAt p w h = .error .notFound) ∧ (h p = some [] → Disk.openAt p w h = .error .emptyMap) := by
  have ho : ∀ {e}, (h p = none ∧ e = .notFound) ∨ (h p = some [] ∧ e = .emptyMap) →
      Disk.openAt p w h = .error e := by
    intro e he
    have : ∀ ty, Disk.openTyped ty p w h = .error e := by
      intro ty
      unfold Disk.openTyped Image.openReadWrite Image.openReadOnly mapped diskFrom
      rcases he with ⟨he, rfl⟩ | ⟨he, rfl⟩ <;> simp only [he] <;> cases w <;> rfl
    unfold Disk.openAt
    simp only [this]
    split
    · rfl
    · rcases he with ⟨-, rfl⟩ | ⟨-, rfl⟩ <;> rfl
  exact ⟨fun hp => ho (.inl ⟨hp, rfl⟩), fun hp => ho (.inr ⟨hp, rfl⟩)⟩

/-! ## C82: the file behind a disk -/

theorem openAt_inv {w : Bool} (ho : Disk.openAt p w h = .ok disk) :
    ∃ ty bytes, h p = some bytes ∧ Disk.openTyped ty p w h = .ok disk ∧ Disk.new ty ⟨mapKind w, bytes⟩ = .ok disk := by
  have key : ∀ ty, Disk.openTyped ty p w h = .ok disk →
      ∃ bytes, h p = some bytes ∧ Disk.new ty ⟨mapKind w, bytes⟩ = .ok disk := by
    intro ty ht
    unfold Disk.openTyped Image.openReadWrite Image.openReadOnly at ht
    cases hp : h p with
    | none => simp only [hp] at ht; cases w <;> cases ht
    | some bytes =>
      have ht : diskFrom ty (mapped (mapKind w) bytes) = .ok disk := by
        simp only [hp] at ht
        unfold mapKind
        cases w <;> exact ht
      refine ⟨bytes, rfl, ?_⟩
      unfold mapped at ht
      split at ht
      · cases ht
      · unfold diskFrom at ht
        simp only at ht
        cases hn : Disk.new ty ⟨mapKind w, bytes⟩ with
        | ok d => rw [hn] at ht; cases ht; rfl
        | error f => rw [hn] at ht; cases ht
  have fin : (∃ ty, Disk.openTyped ty p w h = .ok disk) → ∃ ty bytes, h p = some bytes ∧
      Disk.openTyped ty p w h = .ok disk ∧ Disk.new ty ⟨mapKind w, bytes⟩ = .ok disk := by
    rintro ⟨ty, ht⟩
    obtain ⟨bytes, h1, h2⟩ := key ty ht
    exact ⟨ty, bytes, h1, ht, h2⟩
  apply fin
  unfold Disk.openAt at ho
  split at ho
  · exact ⟨_, ho⟩
  · split at ho
    · rename_i h1; cases ho; exact ⟨_, h1⟩
    · split at ho
      · rename_i h1; cases ho; exact ⟨_, h1⟩
      · exact ⟨_, ho⟩
      · cases ho
    · cases ho

/-- **C82** Open a file, and make any calls: no other file of the host changes, and this one keeps its size.
A file opened for reading only does not change at all. -/
theorem C82_only_this_file {w : Bool} (ho : Disk.openAt p w h = .ok disk) (hf : h p = some bytes) (calls : List Call) :
    (∀ q, q ≠ p → h.during p (Session.run calls ⟨disk, [], []⟩).disk q = h q) ∧
    (∃ bytes', h.during p (Session.run calls ⟨disk, [], []⟩).disk p = some bytes' ∧ bytes'.length = bytes.length) ∧
    (w = false → h.during p (Session.run calls ⟨disk, [], []⟩).disk = h) := by
  obtain ⟨ty, bytes', hb, -, hnew⟩ := openAt_inv ho
  rw [hf] at hb
  cases hb
  obtain ⟨-, hi, -⟩ := openedAs_new hnew
  obtain ⟨h1, h2, -⟩ := C58_shape_is_fixed ⟨disk, [], []⟩ calls
  have h1 : (Session.run calls ⟨disk, [], []⟩).disk.dev.image.bytes.length = bytes.length := by
    rw [h1]; show disk.dev.image.bytes.length = _; rw [hi]
  have h2 : (Session.run calls ⟨disk, [], []⟩).disk.dev.image.kind = mapKind w := by
    rw [h2]; show disk.dev.image.kind = _; rw [hi]
  unfold Host.during
  rw [h2]
  cases w with
  | true =>
    refine ⟨fun q hq => ?_, ⟨_, ?_, h1⟩, nofun⟩
    · show (if q = p then _ else h q) = h q
      rw [if_neg hq]
    · show (if p = p then _ else h p) = _
      rw [if_pos rfl]
  | false => exact ⟨fun _ _ => rfl, ⟨bytes, hf, rfl⟩, fun _ => rfl⟩

/-- **C82** What the program left in a file opened for writing is what is opened next time, under the same
name: the bytes of the image, and with them all that `C36` says about the disk. -/
theorem C82_found_again (hp : NamesFile p) (ho : Disk.openAt p true h = .ok disk) (calls : List Call) (w : Bool) :
    ∃ disk', Disk.openAt p w (h.during p (Session.run calls ⟨disk, [], []⟩).disk) = .ok disk' ∧
      disk'.native = disk.native ∧
      disk'.dev.image = ⟨mapKind w, (Session.run calls ⟨disk, [], []⟩).disk.dev.image.bytes⟩ := by
  obtain ⟨ty, bytes, hf, ht, hnew⟩ := openAt_inv ho
  obtain ⟨hn, hi, -⟩ := openedAs_new hnew
  have hsz := (C05_accepts_exactly ty _).1.1 ⟨disk, hnew⟩
  obtain ⟨h1, h2, -⟩ := C58_shape_is_fixed ⟨disk, [], []⟩ calls
  generalize Session.run calls ⟨disk, [], []⟩ = x at h1 h2
  have h1 : x.disk.dev.image.bytes.length = bytes.length := by
    rw [h1]; show disk.dev.image.bytes.length = _; rw [hi]
  have h2 : x.disk.dev.image.kind = .readWriteMap := by
    rw [h2]; show disk.dev.image.kind = _; rw [hi]; rfl
  have hf' : (h.during p x.disk) p = some x.disk.dev.image.bytes := by
    unfold Host.during
    rw [h2]
    show (if p = p then _ else h p) = _
    rw [if_pos rfl]
  have hsz : x.disk.dev.image.bytes.length ∈ imageSizes ty := by rw [h1]; exact hsz
  have fin : (∃ disk', Disk.openAt p w (h.during p x.disk) = .ok disk' ∧
      OpenedAs ty (mapKind w) x.disk.dev.image.bytes disk') → ∃ disk',
      Disk.openAt p w (h.during p x.disk) = .ok disk' ∧ disk'.native = disk.native ∧
      disk'.dev.image = ⟨mapKind w, x.disk.dev.image.bytes⟩ :=
    fun ⟨disk', g1, g2⟩ => ⟨disk', g1, g2.1.trans hn.symm, g2.2.1⟩
  apply fin
  by_cases hnm : ∃ ty', NamedAs p ty'
  · obtain ⟨ty', hnm⟩ := hnm
    have hty : ty' = ty := by
      have hx := (named_iff hp).2 hnm
      unfold Disk.openAt at ho
      rw [hx] at ho
      simp only at ho
      by_cases hm : bytes.length ∈ imageSizes ty'
      · exact (C05_unambiguous ty' ty _ hm (by rw [← h1]; exact hsz)).1
      · exfalso
        have : Disk.openTyped ty' p true h = diskFrom ty' (mapped .readWriteMap bytes) := by
          unfold Disk.openTyped Image.openReadWrite
          simp only [hf, if_true]
        rw [this, diskFrom_refused _ (ne_nil_of_size (ty := ty) (by rw [← h1]; exact hsz)) hm] at ho
        cases ho
    subst hty
    exact (C81_by_name hp hnm hf' w).1 hsz
  · exact (C81_by_size hp (fun ty' h => hnm ⟨ty', h⟩) hf' w).1 ty hsz

/-! ## Concrete cases -/

/-- A host with one file. -/
def oneFile (p : Path) (bytes : List Byte) : Host := fun q => if q = p then some bytes else none

/-- `/a/b.c.D64`, `.d64` and `x.d81/y`. -/
example : NamesFile "/a/b.c.D64".toList ∧ NamedAs "/a/b.c.D64".toList .d64 :=
  ⟨⟨"b.c.D64".toList, ⟨"/a/".toList, rfl, .inr rfl, by decide⟩, by decide, by decide, by decide⟩,
    "b.c".toList, "D64".toList, ⟨"/a/".toList, rfl, .inr rfl, by decide⟩, by decide, by decide⟩

theorem notNamed_of (hp : NamesFile p) (hx : DiskType.fromExtension (extension p) = none) (ty : DiskType) :
    ¬ NamedAs p ty := fun hn => by
  rw [(named_iff hp).2 hn] at hx
  cases hx

example : NamesFile ".d64".toList ∧ ∀ ty, ¬ NamedAs ".d64".toList ty := by
  have hp : NamesFile ".d64".toList :=
    ⟨".d64".toList, ⟨[], rfl, .inl rfl, by decide⟩, by decide, by decide, by decide⟩
  exact ⟨hp, notNamed_of hp (by decide)⟩

example : NamesFile "x.d81/y".toList ∧ ∀ ty, ¬ NamedAs "x.d81/y".toList ty := by
  have hp : NamesFile "x.d81/y".toList :=
    ⟨"y".toList, ⟨"x.d81/".toList, rfl, .inr rfl, by decide⟩, by decide, by decide, by decide⟩
  exact ⟨hp, notNamed_of hp (by decide)⟩

/-- A file with the size of a 1581 image and the name of a 1541 image is refused; without the extension it is
opened. -/
example (bytes : List Byte) (hl : bytes.length = 819200) (w : Bool) :
    Disk.openAt "a.d64".toList w (oneFile "a.d64".toList bytes) = .error (.lib (.err .invalidLayout)) ∧
    ∃ disk, Disk.openAt "a".toList w (oneFile "a".toList bytes) = .ok disk ∧ disk.native = DiskType.d81.format := by
  have hm : bytes.length ∈ imageSizes .d81 := by rw [hl]; decide
  constructor
  · refine (C81_by_name (ty := .d64) ⟨"a.d64".toList, ⟨[], rfl, .inl rfl, by decide⟩, by decide, by decide, by decide⟩
      ⟨"a".toList, "d64".toList, ⟨[], rfl, .inl rfl, by decide⟩, by decide, by decide⟩
      (show (if _ = _ then some bytes else none) = _ from if_pos rfl) w).2 ?_ (ne_nil_of_size hm)
    rw [hl]
    decide
  · have hp : NamesFile "a".toList :=
      ⟨"a".toList, ⟨[], rfl, .inl rfl, by decide⟩, by decide, by decide, by decide⟩
    obtain ⟨disk, h1, h2⟩ := (C81_by_size hp (notNamed_of hp (by decide))
      (show oneFile "a".toList bytes "a".toList = some bytes from if_pos rfl) w).1 .d81 hm
    exact ⟨disk, h1, h2.1⟩

/-- `C80_not_overwritten_refuted`: the promise is broken for every file of the right size that is not all
zeros already. -/
example : ¬ ∀ (h : Host) (p : Path) (bytes : List Byte), h p = some bytes →
    (Disk.create .d64 p D64.GEOMETRY_35 false h).2 p = some (List.replicate 174848 0) := by
  intro hall
  have hsz : D64.GEOMETRY_35.size = 174848 := by decide +kernel
  obtain ⟨bytes, hb⟩ : ∃ bytes : List Byte, bytes = List.replicate 174848 1 := ⟨_, rfl⟩
  have hl : bytes.length = 174848 := by rw [hb, List.length_replicate]
  have hp : oneFile ['a'] bytes ['a'] = some bytes := if_pos rfl
  obtain ⟨disk, h1, -⟩ := C80_not_overwritten_refuted (ty := .d64) (g := D64.GEOMETRY_35) hp (by decide)
    (by rw [hl, hsz])
  have h2 := hall (oneFile ['a'] bytes) ['a'] bytes hp
  rw [h1] at h2
  have h2 : oneFile ['a'] bytes ['a'] = _ := h2
  rw [hp, hb] at h2
  have h3 := congrArg (fun l => l[0]?) (Option.some.inj h2)
  simp only [List.getElem?_replicate] at h3
  exact absurd h3 (by decide)

end Cbm
