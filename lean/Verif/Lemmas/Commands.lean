import Verif.Spec.Commands
import Verif.Lemmas.Ops
import Verif.Lemmas.FileFacts
import Verif.Lemmas.Frozen
import Verif.Lemmas.Start
/-!
# Lemmas for the `cdisk` commands
-/

namespace Cbm
open Spec

variable {a a' : Store} {x x' : Session} {disk : Disk} {ext : Option (List Char)}
  {bytes bytes' : List Byte} {ty : DiskType} {c c' : Contents}

/-! ## Opening by path -/

/-- Only upper case letters have another lower case. -/
theorem toLower_upper (c : Char) :
    c.toLower = c ∨ (65 ≤ c.toNat ∧ c.toNat ≤ 90 ∧ c.toLower.toNat = c.toNat + 32) := by
  unfold Char.toLower
  split
  next h =>
    right
    obtain ⟨h1, h2⟩ := h
    have h1 : 65 ≤ c.val.toNat := h1
    have h2 : c.val.toNat ≤ 90 := h2
    refine ⟨h1, h2, ?_⟩
    show (c.val + ('a'.val - 'A'.val)).toNat = _
    rw [UInt32.toNat_add, show ('a'.val - 'A'.val).toNat = 32 from by decide]
    show (c.val.toNat + 32) % 2^32 = c.val.toNat + 32
    omega
  · exact .inl rfl

theorem char_ext {c d : Char} (h : c.toNat = d.toNat) : c = d := Char.toNat_inj.mp h

theorem toLower_digit {c d : Char} (hd : d.toNat < 65) : c.toLower = d ↔ c = d := by
  constructor
  · intro h
    rcases toLower_upper c with h1 | ⟨h1, h2, h3⟩
    · exact h1 ▸ h
    · rw [h] at h3; omega
  · rintro rfl
    rcases toLower_upper c with h1 | ⟨h1, h2, h3⟩
    · exact h1
    · omega

theorem toLower_d {c : Char} : c.toLower = 'd' ↔ c = 'd' ∨ c = 'D' := by
  constructor
  · intro h
    rcases toLower_upper c with h1 | ⟨h1, h2, h3⟩
    · exact .inl (h1 ▸ h)
    · rw [h] at h3
      refine .inr (char_ext ?_)
      have : 'd'.toNat = 100 := rfl
      have : 'D'.toNat = 68 := rfl
      omega
  · rintro (rfl | rfl) <;> decide

theorem toLower_twice (e : List Char) {x y : Char} (hx : x.toNat < 65) (hy : y.toNat < 65) :
    (e.map Char.toLower).map Char.toLower = ['d', x, y] ↔ e = ['d', x, y] ∨ e = ['D', x, y] := by
  match e with
  | [] => simp
  | [_] => simp
  | [_, _] => simp
  | [p, q, r] =>
    simp only [List.map_cons, List.map_nil, List.cons.injEq, toLower_digit hx, toLower_digit hy, and_true]
    have : p.toLower.toLower = 'd' ↔ p = 'd' ∨ p = 'D' := by
      rw [toLower_d, toLower_d]
      constructor
      · rintro (h | h)
        · exact h
        · rcases toLower_upper p with h1 | ⟨h1, h2, h3⟩
          · exact .inr (h1 ▸ h)
          · have : 'D'.toNat = 68 := rfl
            rw [h] at h3
            omega
      · exact .inl
    rw [this]
    constructor
    · rintro ⟨h | h, h2⟩ <;> simp [h, h2]
    · rintro (⟨h, h2⟩ | ⟨h, h2⟩) <;> simp [h, h2]
  | _ :: _ :: _ :: _ :: _ => simp

/-- Which type an extension names: upper and lower case are the same. -/
theorem fromExtension_eq (ext : Option (List Char)) : DiskType.fromExtension ext =
    if ext = some ['d', '7', '1'] ∨ ext = some ['D', '7', '1'] then some .d71
    else if ext = some ['d', '8', '1'] ∨ ext = some ['D', '8', '1'] then some .d81
    else if ext = some ['d', '6', '4'] ∨ ext = some ['D', '6', '4'] then some .d64
    else none := by
  unfold DiskType.fromExtension
  cases ext with
  | none => rfl
  | some e =>
    simp only [Option.some.injEq]
    simp only [toLower_twice e (x := '6') (y := '4') (by decide) (by decide),
      toLower_twice e (x := '7') (y := '1') (by decide) (by decide),
      toLower_twice e (x := '8') (y := '1') (by decide) (by decide)]
    by_cases h64 : e = ['d', '6', '4'] ∨ e = ['D', '6', '4']
    · rcases h64 with rfl | rfl <;> decide
    · simp only [h64, if_false]

theorem namedType_eq (ext : Option (List Char)) : namedType ext = (DiskType.fromExtension ext).getD .d64 := by
  rw [fromExtension_eq]
  unfold namedType
  split
  · rfl
  · split
    · rfl
    · split <;> rfl

/-- The extension names this type, or none. -/
def ExtFor (ext : Option (List Char)) (ty : DiskType) : Prop :=
  DiskType.fromExtension ext = some ty ∨ DiskType.fromExtension ext = none

def pathImage (w : Bool) (bytes : List Byte) : Image := ⟨if w then .readWriteMap else .readOnlyMap, bytes⟩

theorem openPath_of (h : ExtFor ext ty) (w : Bool) (hn : bytes.length ∈ imageSizes ty) :
    Disk.openPath ext w bytes = Disk.new ty (pathImage w bytes) := by
  unfold Disk.openPath
  rcases h with h | h
  · rw [h]; rfl
  · rw [h]
    obtain ⟨disk, h1, h2⟩ := (C05_detection (pathImage w bytes)).1 ty hn
    show (Disk.openAny (pathImage w bytes) >>= fun p => pure p.2) = _
    rw [h1, h2]
    rfl

theorem openPath_inv {w : Bool} (h : Disk.openPath ext w bytes = .ok disk) :
    ∃ ty, ExtFor ext ty ∧ bytes.length ∈ imageSizes ty ∧
      Disk.new ty (pathImage w bytes) = .ok disk := by
  have hsz : ∀ ty, Disk.new ty (pathImage w bytes) = .ok disk → bytes.length ∈ imageSizes ty :=
    fun ty h => (C05_accepts_exactly ty (pathImage w bytes)).1.1 ⟨disk, h⟩
  unfold Disk.openPath at h
  cases he : DiskType.fromExtension ext with
  | some ty =>
    rw [he] at h
    exact ⟨ty, .inl he, hsz ty h, h⟩
  | none =>
    rw [he] at h
    have h : (Disk.openAny (pathImage w bytes) >>= fun p => pure p.2) = .ok disk := h
    by_cases hs : ∃ ty, (pathImage w bytes).bytes.length ∈ imageSizes ty
    · obtain ⟨ty, hs⟩ := hs
      obtain ⟨disk', h1, h2⟩ := (C05_detection (pathImage w bytes)).1 ty hs
      rw [h1] at h
      cases h
      exact ⟨ty, .inr he, hs, h2⟩
    · rw [(C05_detection (pathImage w bytes)).2 fun ty hty => hs ⟨ty, hty⟩] at h
      cases h

theorem format_inj {t t' : DiskType} (h : t.format = t'.format) : t = t' := by
  revert h
  cases t <;> cases t' <;> decide

theorem new_type {image : Image} (hn : Disk.new ty image = .ok disk)
    (h : Reaches ⟨disk, [], []⟩ a) : a.type = ty := by
  obtain ⟨s, v, r, b, hrep⟩ := h.rep
  obtain ⟨s', rfl, -, hnat, -⟩ := new_ok hn
  rw [hrep.type]
  exact format_inj (hrep.ready.native.symm.trans hnat)

/-! ## States of the image -/

def storeFor (c : Contents) : Store := ⟨c.map.type, c.label, c.map.slots, [], [], true⟩

def contentsOf (a : Store) : Contents := ⟨a.label, mapOf a⟩

theorem slots_eq {v : Volume} {s : Shape} {r : Nat} {b : Bam} (h : Rep x s v r b a)
    (hw : a.writers = []) :
    v.slots.map (fun x => x.map fun f => (⟨f.name, f.attr, f.data⟩ : StoredFile)) = a.slots := by
  apply List.ext_getElem?
  intro i
  rw [List.getElem?_map]
  cases hv : v.slots[i]? with
  | none =>
    have : a.slots[i]? = none := by
      rw [List.getElem?_eq_none_iff] at hv ⊢
      rw [← h.slots.1]; exact hv
    rw [this]; rfl
  | some y =>
    cases y with
    | none => rw [h.slots.none_iff.1 hv]; rfl
    | some f =>
      obtain ⟨g, hg, hr⟩ := h.slots.some_left hv
      rw [hg]
      have hd := h.settled i f g hv hg (by rw [hw]; simp)
      simp only [Option.map_some, hr.name, hr.attr, hd]

/-- A saved state without writers is held by its image. -/
theorem holds_of (h : Reaches x a) (hs : a.saved = true) (hw : a.writers = [])
    (hk : x.disk.dev.image.kind = .readWriteMap) (he : ExtFor ext a.type) :
    HoldsFiles ext x.disk.dev.image.bytes (contentsOf a) := by
  obtain ⟨s, v, r, b, hrep⟩ := h.rep
  obtain ⟨hr, hn⟩ := reopen_ready hrep.ready (hrep.saved hs)
  have hi : x.disk.dev.image = pathImage true x.disk.dev.image.bytes := by
    unfold pathImage
    rw [← hk]
    rfl
  have hsz : x.disk.dev.image.bytes.length ∈ imageSizes a.type := by
    rw [hrep.type]
    exact (C05_accepts_exactly s.type _).1.1 ⟨_, hn⟩
  refine ⟨_, by rw [openPath_of he true hsz, ← hi, hrep.type]; exact hn, ?_⟩
  refine ⟨_, s, v, _, b, true, [], [], hr, ?_, fun _ => ?_, rfl, ?_⟩
  · intro f hf
    obtain ⟨i, hi⟩ := mem_files.1 hf
    obtain ⟨g, hg, hfg⟩ := hrep.slots.some_left hi
    rw [hrep.settled i f g hi hg (by rw [hw]; simp)]
    exact hfg.blocks
  · have := hrep.saved hs
    exact this.frame hrep.ready.mounted.onDisk.wf hr.mounted.onDisk.wf fun l _ _ => rfl
  · show some ([], storeOf s.type v true) = some ([], (⟨a.type, a.label, a.slots, [], [], true⟩ : Store))
    unfold storeOf
    rw [slots_eq hrep hw, hrep.type, hrep.label]

theorem holds_inv (h : HoldsFiles ext bytes c) : ∃ disk, ExtFor ext c.map.type ∧
    bytes.length ∈ imageSizes c.map.type ∧
    Disk.new c.map.type (pathImage true bytes) = .ok disk ∧
    Disk.openPath ext true bytes = .ok disk ∧
    Reaches ⟨disk, [], []⟩ (storeFor c) ∧ disk.dev.image = pathImage true bytes := by
  obtain ⟨disk, ho, hr⟩ := h
  obtain ⟨ty, he, hsz, hn⟩ := openPath_inv ho
  have := new_type hn hr
  have ht : c.map.type = ty := this
  subst ht
  obtain ⟨_, -, -, -, hi, -⟩ := new_ok hn
  exact ⟨disk, he, hsz, hn, ho, hr, hi⟩

/-- The same image opened read-only. -/
theorem holds_locked (h : HoldsFiles ext bytes c) : ∃ disk s v b,
    Disk.openPath ext false bytes = .ok disk ∧ Locked disk s v 0 b ∧
    disk.dev.image.bytes = bytes ∧ v.room s.type = (storeFor c).room ∧ SlotsRep v.slots c.map.slots ∧
    Exact v ∧
    ∀ (i : Nat) (f : FileRec) (g : StoredFile), v.slots[i]? = some (some f) →
      c.map.slots[i]? = some (some g) → f.data = g.data := by
  obtain ⟨disk, he, hsz, hn, ho, hr, hi⟩ := holds_inv h
  obtain ⟨s, v, r, b, hrep⟩ := hr.rep
  obtain ⟨disk', hd, hl⟩ := open_readOnly hrep.ready (hrep.saved rfl)
  rw [show disk.dev.image.bytes = bytes by rw [hi]; rfl] at hd
  have ht : c.map.type = s.type := hrep.type
  refine ⟨disk', s, v, b, ?_, hl, ?_, hrep.room.symm, hrep.slots, hrep.ready.exact, ?_⟩
  · rw [openPath_of he false hsz, ht]; exact hd
  · obtain ⟨_, -, -, -, hi', -⟩ := new_ok hd
    rw [hi']
  · intro i f g hf hg
    exact hrep.settled i f g hf hg (by intro w hw; cases hw)

theorem step_kind (k : Call) (x : Session) :
    (Session.step k x).2.disk.dev.image.kind = x.disk.dev.image.kind :=
  (keep_step (R := SameShape) k x).kind

theorem one' (h : Reaches x a) {k : Call} {res : Res Unit} (hs : Store.step k a = some (res, a')) :
    ∃ x', Session.step k x = (res, x') ∧ Reaches x' a' ∧
      x'.disk.dev.image.kind = x.disk.dev.image.kind := by
  obtain ⟨x', hx, hr⟩ := h.one hs
  refine ⟨x', hx, hr, ?_⟩
  have := step_kind k x
  rw [hx] at this
  exact this

theorem inSession_run {α : Type} {w : Bool} {body : M Session α} {res : Res α}
    (ho : Disk.openPath ext w bytes = .ok disk) (hb : body ⟨disk, [], []⟩ = (res, x)) :
    inSession ext w body bytes = (res, x.disk.dev.image.bytes) := by
  unfold inSession
  rw [ho]
  simp only [hb]

/-! ## Copying into a writer -/

theorem writes_ok : ∀ (pieces : List (List Byte)) {x : Session} {a : Store} {w i : Nat} {p : Bool}
    {g : StoredFile}, Reaches x a → a.writers[w]? = some ⟨i, p⟩ → a.slots[i]? = some (some g) →
    ∃ x' p' sv, M.forEach pieces (fun p => Session.step (.write w p)) x =
        (if g.data.length + pieces.flatten.length ≤ capOf a g then .ok () else fail .diskFull, x') ∧
      Reaches x' { a with
        slots := a.slots.set i (some { g with data := (g.data ++ pieces.flatten).take (capOf a g) })
        writers := a.writers.set w ⟨i, p'⟩, saved := sv } ∧
      (p = true → p' = true) ∧ x'.disk.dev.image.kind = x.disk.dev.image.kind
  | [], x, a, w, i, p, g, h, hw, hg => by
    refine ⟨x, p, a.saved, ?_, ?_, id, rfl⟩
    · rw [if_pos (by simpa using le_cap a g)]; rfl
    · rw [List.flatten_nil, List.append_nil, List.take_of_length_le (le_cap a g), set_getElem? hg,
        set_getElem? hw]
      exact h
  | q :: qs, x, a, w, i, p, g, h, hw, hg => by
    have hf := file?_eq.2 hg
    obtain ⟨x₁, hx₁, hr₁, hk₁⟩ := one' h (k := .write w q)
      (res := if g.data.length + q.length ≤ capOf a g then .ok () else fail .diskFull)
      (a' := { a.put i (some { g with data := (g.data ++ q).take (capOf a g) }) with
            writers := a.writers.set w ⟨i, true⟩, saved := false }) (by
        simp only [Store.step, hw, hf]
        rfl)
    rw [M.run_forEach_cons, hx₁]
    have hwl := (List.getElem?_eq_some_iff.1 hw).1
    have hil := (List.getElem?_eq_some_iff.1 hg).1
    by_cases hle : g.data.length + q.length ≤ capOf a g
    · rw [if_pos hle]
      simp only
      rw [List.take_of_length_le (by simpa using hle)] at hr₁
      have hcap := (cap_write (data := g.data ++ q) h.good.quota hg (by simpa using hle)).2
      have hcap' : capOf { a.put i (some { g with data := g.data ++ q }) with
            writers := a.writers.set w ⟨i, true⟩, saved := false } { g with data := g.data ++ q } =
          capOf a g := hcap
      obtain ⟨x', p', sv, h1, h2, h3, h4⟩ := writes_ok qs hr₁
        (i := i) (p := true) (g := { g with data := g.data ++ q })
        (by show (a.writers.set w _)[w]? = _; rw [List.getElem?_set_self hwl])
        (by show (a.slots.set i _)[i]? = _; rw [List.getElem?_set_self hil])
      refine ⟨x', p', sv, ?_, ?_, fun _ => h3 rfl, h4.trans hk₁⟩
      · rw [h1, hcap']
        simp only [List.length_append, List.flatten_cons, Nat.add_assoc]
      · rw [hcap'] at h2
        simp only [Store.put, List.set_set, List.append_assoc] at h2
        rw [List.flatten_cons]
        exact h2
    · rw [if_neg hle]
      refine ⟨x₁, true, false, ?_, ?_, fun _ => rfl, hk₁⟩
      · rw [if_neg (by simp only [List.flatten_cons, List.length_append]; omega)]
      · have : (g.data ++ (q :: qs).flatten).take (capOf a g) = (g.data ++ q).take (capOf a g) := by
          rw [List.flatten_cons, ← List.append_assoc, List.take_append_of_le_length]
          simp only [List.length_append]; omega
        rw [this]
        exact hr₁

theorem copyInto_ok {w i : Nat} {g : StoredFile} (pieces : List (List Byte)) (h : Reaches x a)
    (hw : a.writers[w]? = some ⟨i, true⟩) (hg : a.slots[i]? = some (some g)) :
    ∃ x', copyInto w pieces x =
        (if g.data.length + pieces.flatten.length ≤ capOf a g then .ok () else fail .diskFull, x') ∧
      Reaches x' { a with
        slots := a.slots.set i (some { g with data := (g.data ++ pieces.flatten).take (capOf a g) })
        writers := a.writers.eraseIdx w, saved := true } ∧
      x'.disk.dev.image.kind = x.disk.dev.image.kind := by
  obtain ⟨x₁, p', sv, h1, h2, h3, hk1⟩ := writes_ok pieces h hw hg
  have hp := h3 rfl
  subst hp
  have hwl := (List.getElem?_eq_some_iff.1 hw).1
  have herase : ∀ y, (a.writers.set w y).eraseIdx w = a.writers.eraseIdx w := by
    intro y
    simp [List.eraseIdx_set_eq]
  unfold copyInto
  by_cases hle : g.data.length + pieces.flatten.length ≤ capOf a g
  · rw [if_pos hle] at h1 ⊢
    rw [M.bind_of_ok h1]
    obtain ⟨x₂, hx₂, hr₂, hk2⟩ := one' h2 (k := .flush w) (res := .ok ()) (by
      simp only [Store.step, List.getElem?_set_self hwl]; rfl)
    rw [hx₂]
    obtain ⟨x₃, hx₃, hr₃, hk3⟩ := one' hr₂ (k := .drop w) (res := .ok ()) (by
      simp only [Store.step, List.set_set, List.getElem?_set_self hwl]; rfl)
    simp only [hx₃]
    refine ⟨x₃, rfl, ?_, hk3.trans (hk2.trans hk1)⟩
    simp only [herase, Bool.or_true, Bool.or_false] at hr₃
    exact hr₃
  · rw [if_neg hle] at h1 ⊢
    rw [M.bind_of_error h1]
    obtain ⟨x₃, hx₃, hr₃, hk3⟩ := one' h2 (k := .drop w) (res := .ok ()) (by
      simp only [Store.step, List.getElem?_set_self hwl]; rfl)
    simp only [hx₃]
    refine ⟨x₃, rfl, ?_, hk3.trans hk1⟩
    simp only [herase, Bool.or_true] at hr₃
    exact hr₃

/-! ## The commands -/

theorem storeFor_map (c : Contents) : mapOf (storeFor c) = c.map := rfl

theorem contentsOf_storeFor (c : Contents) : contentsOf (storeFor c) = c := rfl

/-- A command that opens the image for writing. -/
theorem session_ok {body : M Session Unit} {res : Res Unit} (h : HoldsFiles ext bytes c)
    (hb : ∀ disk, disk.dev.image.kind = .readWriteMap → Reaches ⟨disk, [], []⟩ (storeFor c) →
      ∃ x a, body ⟨disk, [], []⟩ = (res, x) ∧ Reaches x a ∧
        x.disk.dev.image.kind = disk.dev.image.kind ∧ a.saved = true ∧ a.writers = [] ∧
        a.type = c.map.type ∧ contentsOf a = c') :
    ∃ bytes', inSession ext true body bytes = (res, bytes') ∧ HoldsFiles ext bytes' c' := by
  obtain ⟨disk, he, -, -, ho, hr, hi⟩ := holds_inv h
  have hkind : disk.dev.image.kind = .readWriteMap := by rw [hi]; rfl
  obtain ⟨x, a, h1, h2, h3, h4, h5, h6, h7⟩ := hb disk hkind hr
  refine ⟨_, inSession_run ho h1, ?_⟩
  rw [← h7]
  exact holds_of h2 h4 h5 (h3.trans hkind) (by rw [h6]; exact he)

/-- Opening a file by name finds the first file of that name. -/
theorem opened_find {s : Shape} {v : Volume} (ho : Opened disk s v)
    (hs : SlotsRep v.slots c.map.slots)
    (hd : ∀ (i : Nat) (f : FileRec) (g : StoredFile), v.slots[i]? = some (some f) →
      c.map.slots[i]? = some (some g) → f.data = g.data) (name : List Byte) :
    (c.map.find name = none ∧ disk.openFile name = fail .notFound) ∨
    ∃ i g f r, c.map.find name = some (i, g) ∧ v.slots[i]? = some (some f) ∧
      disk.openFile name = .ok (.linear (f.entry (slotPos v.dir i)), r) ∧
      f.name = name ∧ f.data = g.data := by
  rcases map_find (storeFor c) name with ⟨h1, h2⟩ | ⟨i, g, h1, hg, hn, h2⟩
  · refine .inl ⟨h2, ho.missing.2 ?_⟩
    intro f hf hname
    obtain ⟨i, hi⟩ := mem_files.1 hf
    obtain ⟨g, hg, hr⟩ := hs.some_left hi
    exact find_none_iff.1 h1 i g hg (hr.name.symm.trans hname)
  · obtain ⟨⟨g', hg', hn'⟩, hbefore⟩ := find_some_iff.1 h1
    rcases ho.find name with ⟨j, f, hj, hfn, hb, r, hopen⟩ | ⟨hno, -⟩
    · obtain ⟨gj, hgj, hr⟩ := hs.some_left hj
      obtain ⟨fi, hfi, hri⟩ := hs.some_right hg
      have hij : i = j := by
        rcases Nat.lt_trichotomy i j with hlt | heq | hgt
        · exact absurd (hri.name.trans hn) (hb i fi hlt hfi)
        · exact heq
        · exact absurd (hr.name.symm.trans hfn) (hbefore j gj hgt hgj)
      subst hij
      have : gj = g := by
        have hgj : (storeFor c).slots[i]? = some (some gj) := hgj
        rw [hg] at hgj; exact (Option.some.inj (Option.some.inj hgj)).symm
      subst this
      exact .inr ⟨i, gj, f, r, h2, hj, hopen, hfn, hd i f gj hj hgj⟩
    · obtain ⟨fi, hfi, hri⟩ := hs.some_right hg
      exact absurd (hri.name.trans hn) (hno fi (mem_files.2 ⟨_, hfi⟩))

theorem locked_find {s : Shape} {v : Volume} {b : Bam} (hl : Locked disk s v 0 b)
    (hs : SlotsRep v.slots c.map.slots)
    (hd : ∀ (i : Nat) (f : FileRec) (g : StoredFile), v.slots[i]? = some (some f) →
      c.map.slots[i]? = some (some g) → f.data = g.data) (name : List Byte) :
    (c.map.find name = none ∧ disk.openFile name = fail .notFound) ∨
    ∃ i g f r, c.map.find name = some (i, g) ∧ disk.openFile name = .ok (f, r) ∧
      Reads disk.dev f g.data := by
  have hod := hl.opened.onDisk
  rcases opened_find hl.opened hs hd name with h | ⟨i, g, f, r, h1, hj, hopen, -, hfd⟩
  · exact .inl h
  · refine .inr ⟨i, g, _, r, h1, hopen, ?_⟩
    rw [← hfd]
    exact reads_chain hod.wf rfl rfl (hod.chains f (mem_files.2 ⟨_, hj⟩))

theorem write_ok {name : List Nat} {type : FileType} {pieces : List (List Byte)} {res : Res Answer}
    (h : HoldsFiles ext bytes c) (hk : (Command.write name type pieces).step c = some (res, c')) :
    ∃ bytes', (Command.write name type pieces).exec ext bytes = (res, bytes') ∧
      HoldsFiles ext bytes' c' := by
  suffices hs : ∃ r : Res Unit, res = r.map (fun _ => Answer.done) ∧ ∃ bytes',
      cmdWrite ext name type pieces bytes = (r, bytes') ∧ HoldsFiles ext bytes' c' by
    obtain ⟨r, rfl, bytes', h1, h2⟩ := hs
    exact ⟨bytes', by simp only [Command.exec, h1], h2⟩
  have hrefuse : ∀ e : DiskError, Store.step (.create (fromStrLossy name) type .linear) (storeFor c) =
      some (fail e, storeFor c) → ∃ bytes', cmdWrite ext name type pieces bytes = (fail e, bytes') ∧
        HoldsFiles ext bytes' c := by
    intro e he
    refine session_ok h ?_
    intro disk hkd hr
    obtain ⟨x, hx, hr', hk'⟩ := one' hr he
    exact ⟨x, storeFor c, by rw [M.bind_of_error hx], hr', hk', rfl, rfl, rfl, rfl⟩
  simp only [Command.step] at hk
  by_cases ht : type.toByte &&& 0x0F = 4
  · rw [if_pos ht] at hk; cases hk
  rw [if_neg ht] at hk
  have hc : ¬ (Scheme.linear ≠ Scheme.linear ∨ type.toByte &&& 0x0F = 4) := by simp [ht]
  by_cases hlen : 16 < (fromStrLossy name).length
  · rw [if_pos hlen] at hk
    obtain ⟨rfl, rfl⟩ := Prod.mk.inj (Option.some.inj hk)
    exact ⟨fail .filenameTooLong, rfl, hrefuse _ (by
      simp only [Store.step]; rw [if_neg hc, if_pos hlen])⟩
  rw [if_neg hlen] at hk
  rcases map_find (storeFor c) (fromStrLossy name) with ⟨h1, h2⟩ | ⟨i, g, h1, -, -, h2⟩
  · rw [storeFor_map] at h2
    rw [h2] at hk
    simp only [Option.isSome_none, Bool.false_eq_true, if_false] at hk
    have hr2 := map_reserve (storeFor c)
    rw [storeFor_map] at hr2
    cases hr : (storeFor c).reserve with
    | none =>
      rw [hr] at hr2
      rw [hr2] at hk
      obtain ⟨rfl, rfl⟩ := Prod.mk.inj (Option.some.inj hk)
      exact ⟨fail .diskFull, rfl, hrefuse _ (by
        simp only [Store.step]; rw [if_neg hc, if_neg hlen, h1, hr]; rfl)⟩
    | some p =>
      obtain ⟨a₁, i⟩ := p
      rw [hr] at hr2
      rw [hr2] at hk
      simp only [Option.map_some] at hk
      have hcs := reserve_cases hr
      by_cases hroom : a₁.room = 0
      · rw [if_pos (show (mapOf a₁).free = 0 from hroom)] at hk
        split at hk
        · rename_i hsl
          obtain ⟨rfl, rfl⟩ := Prod.mk.inj (Option.some.inj hk)
          have ha : a₁ = storeFor c := by
            rcases hcs.1 with ha | ha
            · exact ha
            · rw [ha] at hsl
              simp [mapOf, Store.grow, storeFor] at hsl
          subst ha
          exact ⟨fail .diskFull, rfl, hrefuse _ (by
            simp only [Store.step]; rw [if_neg hc, if_neg hlen, h1, hr]; simp [hroom])⟩
        · cases hk
      · rw [if_neg (show ¬ (mapOf a₁).free = 0 from hroom)] at hk
        obtain ⟨rfl, rfl⟩ := Prod.mk.inj (Option.some.inj hk)
        refine ⟨if pieces.flatten.length ≤ 254 * a₁.room then .ok () else fail .diskFull, ?_,
          session_ok h ?_⟩
        · show (if pieces.flatten.length ≤ 254 * a₁.room then _ else _) = _
          split <;> rfl
        intro disk hkd hr0
        have hs : Store.step (.create (fromStrLossy name) type .linear) (storeFor c) =
            some (.ok (), { a₁.put i (some ⟨storedName (fromStrLossy name), type.toByte ||| 0x80, []⟩) with
              handles := a₁.handles ++ [some i], saved := false }) := by
          simp only [Store.step]; rw [if_neg hc, if_neg hlen, h1, hr]; simp [hroom]
        obtain ⟨x₁, hx₁, hr₁, hk₁⟩ := one' hr0 hs
        have hw1 : a₁.writers = [] := hcs.2.2.2.2.2.2.1
        have hh1 : a₁.handles = [] := hcs.2.2.2.2.2.1
        have hil := (List.getElem?_eq_some_iff.1 hcs.2.1).1
        have hs₂ : Store.step (.openWriter 0)
            { a₁.put i (some ⟨storedName (fromStrLossy name), type.toByte ||| 0x80, []⟩) with
              handles := a₁.handles ++ [some i], saved := false } =
            some (.ok (), { a₁.put i (some ⟨storedName (fromStrLossy name), type.toByte ||| 0x80, []⟩) with
              handles := a₁.handles ++ [some i], writers := [⟨i, true⟩], saved := false }) := by
          simp only [Store.step, hh1, List.nil_append, List.getElem?_cons_zero, Store.put,
            Store.writing, hw1, List.any_nil, Bool.false_eq_true, if_false]
        obtain ⟨x₂, hx₂, hr₂, hk₂⟩ := one' hr₁ hs₂
        obtain ⟨x₃, hx₃, hr₃, hk₃⟩ := copyInto_ok (w := 0) (i := i)
          (g := ⟨storedName (fromStrLossy name), type.toByte ||| 0x80, []⟩) pieces hr₂ rfl
          (by show (a₁.slots.set i _)[i]? = _; rw [List.getElem?_set_self hil])
        have hfree : a₁.room = (storeFor c).room := by
          unfold Store.room Store.used
          rw [hcs.2.2.2.2.1, hcs.2.2.2.2.2.2.2.1]
        obtain ⟨j, hcr⟩ := created hr0.good.quota hs
        have hcap : capOf { a₁.put i (some ⟨storedName (fromStrLossy name), type.toByte ||| 0x80, []⟩) with
              handles := a₁.handles ++ [some i], writers := [⟨i, true⟩], saved := false }
            ⟨storedName (fromStrLossy name), type.toByte ||| 0x80, []⟩ = 254 * a₁.room := by
          have hf := hcr.free
          have : capOf { a₁.put i (some ⟨storedName (fromStrLossy name), type.toByte ||| 0x80, []⟩) with
              handles := a₁.handles ++ [some i], writers := [⟨i, true⟩], saved := false }
            ⟨storedName (fromStrLossy name), type.toByte ||| 0x80, []⟩ =
              254 * (1 + Store.room { a₁.put i (some ⟨storedName (fromStrLossy name), type.toByte ||| 0x80, []⟩) with
              handles := a₁.handles ++ [some i], saved := false }) := by
            have hb : blocksFor ([] : List Byte).length = 1 := by decide
            rw [← hb]
            rfl
          rw [this, hfree, ← hf, Nat.add_comm]
        refine ⟨x₃, _, ?_, hr₃, hk₃.trans (hk₂.trans hk₁), rfl, rfl, hcs.2.2.2.2.2.2.2.1, ?_⟩
        · rw [M.bind_of_ok hx₁, M.bind_of_ok hx₂, hx₃, hcap]
          simp only [List.length_nil, Nat.zero_add]
        · rw [hcap]
          have hlab : a₁.label = c.label := hcs.2.2.2.2.2.2.2.2
          simp only [contentsOf, mapOf, Store.put, List.set_set, List.nil_append, FileMap.put, hlab]
          rfl
  · rw [storeFor_map] at h2
    rw [h2] at hk
    obtain ⟨rfl, rfl⟩ := Prod.mk.inj (Option.some.inj hk)
    exact ⟨fail .fileExists, rfl, hrefuse _ (by
      simp only [Store.step]; rw [if_neg hc, if_neg hlen, h1]; rfl)⟩

theorem rename_ok {original new : List Nat} {res : Res Answer}
    (h : HoldsFiles ext bytes c) (hk : (Command.rename original new).step c = some (res, c')) :
    ∃ bytes', (Command.rename original new).exec ext bytes = (res, bytes') ∧
      HoldsFiles ext bytes' c' := by
  have key : ∀ (r : Res Unit) (a : Store),
      Store.step (.rename (fromStrLossy original) (fromStrLossy new)) (storeFor c) = some (r, a) →
      a.saved = true → a.writers = [] → a.type = c.map.type → contentsOf a = c' →
      res = r.map (fun _ => Answer.done) →
      ∃ bytes', (Command.rename original new).exec ext bytes = (res, bytes') ∧
        HoldsFiles ext bytes' c' := by
    intro r a hs h1 h2 h3 h4 h5
    obtain ⟨bytes', hx, hb⟩ := session_ok (body := Session.step
        (.rename (fromStrLossy original) (fromStrLossy new))) (res := r) (c' := c') h (by
      intro disk hkd hr
      obtain ⟨x, hx, hr', hk'⟩ := one' hr hs
      exact ⟨x, a, hx, hr', hk', h1, h2, h3, h4⟩)
    exact ⟨bytes', by simp only [Command.exec, cmdRename, hx, h5], hb⟩
  simp only [Command.step, FileMap.step] at hk
  obtain ⟨hk1, hk2⟩ := Prod.mk.inj (Option.some.inj hk)
  rcases map_find (storeFor c) (fromStrLossy original) with ⟨h1, h2⟩ | ⟨i, g, h1, hg, -, h2⟩
  · rw [storeFor_map] at h2
    rw [h2] at hk1 hk2
    exact key (fail .notFound) (storeFor c) (by simp only [Store.step]; rw [h1]) rfl rfl rfl hk2 hk1.symm
  · rw [storeFor_map] at h2
    rw [h2] at hk1 hk2
    simp only at hk1 hk2
    by_cases hlen : 16 < (fromStrLossy new).length
    · rw [if_pos hlen] at hk1 hk2
      exact key (fail .filenameTooLong) (storeFor c)
        (by simp only [Store.step]; rw [h1]; simp only; rw [if_pos hlen]) rfl rfl rfl hk2 hk1.symm
    · rw [if_neg hlen] at hk1 hk2
      rcases map_find (storeFor c) (fromStrLossy new) with ⟨h3, h4⟩ | ⟨j, g', h3, -, -, h4⟩
      · rw [storeFor_map] at h4
        rw [h4] at hk1 hk2
        exact key (.ok ()) ((storeFor c).put i (some { g with name := storedName (fromStrLossy new) }))
          (by simp only [Store.step]; rw [h1]; simp only; rw [if_neg hlen, h3, file?_eq.2 hg]; rfl)
          rfl rfl rfl hk2 hk1.symm
      · rw [storeFor_map] at h4
        rw [h4] at hk1 hk2
        exact key (fail .fileExists) (storeFor c)
          (by simp only [Store.step]; rw [h1]; simp only; rw [if_neg hlen, h3]; rfl)
          rfl rfl rfl hk2 hk1.symm

theorem delete_ok {name : List Nat} {res : Res Answer}
    (h : HoldsFiles ext bytes c) (hk : (Command.delete name).step c = some (res, c')) :
    ∃ bytes', (Command.delete name).exec ext bytes = (res, bytes') ∧ HoldsFiles ext bytes' c' := by
  suffices hs : ∃ r : Res Unit, res = r.map (fun _ => Answer.done) ∧ ∃ bytes',
      cmdDelete ext name bytes = (r, bytes') ∧ HoldsFiles ext bytes' c' by
    obtain ⟨r, rfl, bytes', h1, h2⟩ := hs
    exact ⟨bytes', by simp only [Command.exec, h1], h2⟩
  simp only [Command.step, FileMap.step] at hk
  obtain ⟨hk1, hk2⟩ := Prod.mk.inj (Option.some.inj hk)
  rcases map_find (storeFor c) (fromStrLossy name) with ⟨h1, h2⟩ | ⟨i, g, h1, hg, -, h2⟩
  · rw [storeFor_map] at h2
    rw [h2] at hk1 hk2
    refine ⟨fail .notFound, hk1.symm, session_ok h ?_⟩
    intro disk hkd hr
    have hs : Store.step (.openFile (fromStrLossy name)) (storeFor c) =
        some (fail .notFound, storeFor c) := by simp only [Store.step]; rw [h1]
    obtain ⟨x, hx, hr', hk'⟩ := one' hr hs
    exact ⟨x, storeFor c, by rw [M.bind_of_error hx], hr', hk', rfl, rfl, rfl, hk2⟩
  · rw [storeFor_map] at h2
    rw [h2] at hk1 hk2
    refine ⟨.ok (), hk1.symm, session_ok h ?_⟩
    intro disk hkd hr
    have hs : Store.step (.openFile (fromStrLossy name)) (storeFor c) =
        some (.ok (), { storeFor c with handles := [some i] }) := by
      simp only [Store.step]; rw [h1]; rfl
    obtain ⟨x₁, hx₁, hr₁, hk₁⟩ := one' hr hs
    have hs₂ : Store.step (.delete 0) { storeFor c with handles := [some i] } =
        some (.ok (), { (storeFor c).put i none with handles := [none], saved := true }) := by
      simp [Store.step, Store.writing, storeFor, Store.put]
    obtain ⟨x₂, hx₂, hr₂, hk₂⟩ := one' hr₁ hs₂
    exact ⟨x₂, _, by rw [M.bind_of_ok hx₁, hx₂], hr₂, hk₂.trans hk₁, rfl, rfl, rfl, hk2⟩

theorem format_ok {name id : List Nat} {res : Res Answer}
    (h : HoldsFiles ext bytes c) (hk : (Command.format name id).step c = some (res, c')) :
    ∃ bytes', (Command.format name id).exec ext bytes = (res, bytes') ∧ HoldsFiles ext bytes' c' := by
  simp only [Command.step] at hk
  split at hk
  · cases hk
  rename_i hlen
  obtain ⟨rfl, rfl⟩ := Prod.mk.inj (Option.some.inj hk)
  have hs : Store.step (.format (fromStrLossy name) (idFromBytes (fromStrLossy id))) (storeFor c) =
      some (.ok (), ⟨c.map.type, (paddedName (fromStrLossy name), idFromBytes (fromStrLossy id)),
        List.replicate 8 none, [], [], true⟩) := by
    simp only [Store.step]
    rw [if_neg (by simp [storeFor]; omega)]
    rfl
  obtain ⟨bytes', hx, hb⟩ := session_ok (body := Session.step
      (.format (fromStrLossy name) (idFromBytes (fromStrLossy id)))) (res := .ok ())
      (c' := ⟨(paddedName (fromStrLossy name), idFromBytes (fromStrLossy id)),
        FileMap.empty c.map.type⟩) h (by
    intro disk hkd hr
    obtain ⟨x, hx, hr', hk'⟩ := one' hr hs
    exact ⟨x, _, hx, hr', hk', rfl, rfl, rfl, rfl⟩)
  exact ⟨bytes', by simp only [Command.exec, cmdFormat, hx]; rfl, hb⟩

theorem read_ok {name : List Nat} {sizes : List Nat} {res : Res Answer}
    (h : HoldsFiles ext bytes c) (hk : (Command.read name sizes).step c = some (res, c')) :
    (Command.read name sizes).exec ext bytes = (res, bytes) ∧ c' = c := by
  obtain ⟨disk, s, v, b, ho, hl, hb, -, hs, -, hd⟩ := holds_locked h
  simp only [Command.step] at hk
  rcases locked_find hl hs hd (fromStrLossy name) with ⟨h1, h2⟩ | ⟨i, g, f, r, h1, h2, -, rd, h3, h4⟩
  · rw [h1] at hk
    obtain ⟨rfl, rfl⟩ := Prod.mk.inj (Option.some.inj hk)
    refine ⟨?_, rfl⟩
    simp only [Command.exec, cmdRead]
    rw [inSession_run (x := ⟨disk, [], []⟩) (res := fail .notFound) ho (by rw [M.run_read, h2]; rfl), hb]
    rfl
  · rw [h1] at hk
    simp only at hk
    split at hk
    · rename_i hsz
      obtain ⟨rfl, rfl⟩ := Prod.mk.inj (Option.some.inj hk)
      refine ⟨?_, rfl⟩
      simp only [Command.exec, cmdRead]
      rw [inSession_run (x := ⟨disk, [], []⟩) (res := .ok g.data) ho (by
        rw [M.run_read, h2]
        simp only [res_bind_ok]
        rw [h3]
        simp only [res_bind_ok]
        rw [h4 sizes hsz.1 hsz.2]), hb]
      rfl
    · cases hk

theorem dir_ok (h : HoldsFiles ext bytes c) :
    Command.dir.exec ext bytes = (.ok (.listing (c.map.files.map fun g =>
      (g.name, g.attr, max 1 ((g.data.length + 253) / 254))) c.map.free), bytes) := by
  obtain ⟨disk, s, v, b, ho, hl, hb, hroom, hs, hex, hd⟩ := holds_locked h
  have hfree := hl.blocksFree
  rw [hroom] at hfree
  simp only [Command.exec, cmdDir]
  rw [inSession_run (x := ⟨disk, [], []⟩) (res := .ok (v.listing, (storeFor c).room)) ho (by
    rw [M.run_read, hl.opened.directory]
    simp only [res_bind_ok]
    rw [hfree]
    rfl), hb]
  simp only [Except.map]
  rw [listing_lines]
  have := hs.lines fun f hf => hex f hf
  rw [show v.files.map (fun f => (f.name, f.attr, f.blocks)) = _ from this]
  rfl

theorem validate_ok (h : HoldsFiles ext bytes c) :
    Command.validate.exec ext bytes = (.ok (.errors []), bytes) := by
  obtain ⟨disk, he, -, -, ho, hr, hi⟩ := holds_inv h
  simp only [Command.exec, cmdValidate]
  rw [inSession_run (x := ⟨disk, [], []⟩) (res := .ok []) ho (by
    rw [M.run_read]; exact congrArg (·, _) hr.shows.valid)]
  rw [hi]
  rfl

theorem command_ok {k : Command} {res : Res Answer} (h : HoldsFiles ext bytes c)
    (hk : k.step c = some (res, c')) :
    ∃ bytes', k.exec ext bytes = (res, bytes') ∧ HoldsFiles ext bytes' c' := by
  cases k with
  | write name type pieces => exact write_ok h hk
  | read name sizes =>
    obtain ⟨h1, rfl⟩ := read_ok h hk
    exact ⟨bytes, h1, h⟩
  | rename original new => exact rename_ok h hk
  | delete name => exact delete_ok h hk
  | format name id => exact format_ok h hk
  | dir =>
    obtain ⟨rfl, rfl⟩ := Prod.mk.inj (Option.some.inj hk)
    exact ⟨bytes, dir_ok h, h⟩
  | validate =>
    obtain ⟨rfl, rfl⟩ := Prod.mk.inj (Option.some.inj hk)
    exact ⟨bytes, validate_ok h, h⟩

end Cbm
