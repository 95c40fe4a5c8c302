import Verif.Lemmas.Start
import Verif.Spec.Ops
/-!
# Whole operations
-/

namespace Cbm
open Spec

variable {i : Nat} {a a' : Store} {x x' : Session} {g : StoredFile}

/-- The files of the store. -/
def mapOf (a : Store) : FileMap := ⟨a.type, a.slots⟩

theorem map_find (a : Store) (name : List Byte) :
    (a.find name = none ∧ (mapOf a).find name = none) ∨
    ∃ i g, a.find name = some i ∧ a.slots[i]? = some (some g) ∧ g.name = name ∧
      (mapOf a).find name = some (i, g) := by
  cases h : a.find name with
  | none =>
    left
    refine ⟨rfl, ?_⟩
    unfold FileMap.find mapOf
    unfold Store.find at h
    rw [h]; rfl
  | some i =>
    right
    obtain ⟨⟨g, hg, hn⟩, -⟩ := find_some_iff.1 h
    refine ⟨i, g, rfl, hg, hn, ?_⟩
    unfold FileMap.find mapOf
    unfold Store.find at h
    rw [h]
    simp [hg]

theorem map_free (a : Store) : (mapOf a).free = a.room := rfl

theorem map_reserve (a : Store) :
    (mapOf a).reserve = a.reserve.map fun p => (mapOf p.1, p.2) := by
  unfold FileMap.reserve Store.reserve mapOf
  split
  · rename_i j hj; rw [hj]; rfl
  · rename_i hj
    rw [hj]
    simp only
    split
    · rfl
    · rfl

theorem bind_run {σ α β : Type} {m : M σ α} {f : α → M σ β} {s s' : σ} {y : α}
    (h : m s = (.ok y, s')) : (m >>= f) s = f y s' := M.bind_of_ok h

/-- A step that returns nothing, then `done`. -/
theorem perform_step {c : Call} {res : Res Unit} (h : Session.step c x = (res, x')) :
    ((Session.step c >>= fun _ => pure Reply.done : M Session Reply) x) =
      (res.map fun _ => .done, x') := by
  cases res with
  | ok u => rw [bind_run h]; rfl
  | error e => rw [M.bind_of_error h]; rfl

def Fits (o : Op) : Prop :=
  match o with
  | .create _ type => type.toByte &&& 0x0F ≠ 4
  | _ => True

theorem perform_ok (h : Reaches x a) (hw : a.writers = []) (o : Op) (ho : Fits o) :
    ∃ x' a', o.perform x = ((FileMap.step o (mapOf a)).1, x') ∧ Reaches x' a' ∧
      a'.writers = [] ∧ mapOf a' = (FileMap.step o (mapOf a)).2 := by
  have hsh := h.shows
  have hread : ∀ i g, a.slots[i]? = some (some g) → a.read i = some g.data := by
    intro i g hg
    refine read_eq hg ?_
    rw [hw]; simp
  have hwr : ∀ i, a.writing i = false := by
    intro i; unfold Store.writing; rw [hw]; rfl
  cases o with
  | create name type =>
    have ht : type.toByte &&& 0x0F ≠ 4 := ho
    simp only [Op.perform]
    have hc : ¬ (Scheme.linear ≠ Scheme.linear ∨ type.toByte &&& 0x0F = 4) := by simp [ht]
    have key : ∀ res a', Store.step (.create name type .linear) a = some (res, a') →
        a'.writers = [] → res.map (fun _ => Reply.done) = (FileMap.step (.create name type) (mapOf a)).1 →
        mapOf a' = (FileMap.step (.create name type) (mapOf a)).2 →
        ∃ x' a', (Session.step (.create name type .linear) >>= fun _ => pure Reply.done : M Session Reply) x =
          ((FileMap.step (.create name type) (mapOf a)).1, x') ∧ Reaches x' a' ∧
          a'.writers = [] ∧ mapOf a' = (FileMap.step (.create name type) (mapOf a)).2 := by
      intro res a' hs hw' h1 h2
      obtain ⟨x', hx, hr⟩ := h.one hs
      exact ⟨x', a', by rw [perform_step hx, h1], hr, hw', h2⟩
    by_cases hlen : 16 < name.length
    · refine key (fail .filenameTooLong) a ?_ hw ?_ ?_
      · simp only [Store.step]; rw [if_neg hc, if_pos hlen]
      · simp only [FileMap.step]; rw [if_pos hlen]; rfl
      · simp only [FileMap.step]; rw [if_pos hlen]
    · rcases map_find a name with ⟨h1, h2⟩ | ⟨i, g, h1, -, -, h2⟩
      · have hr2 := map_reserve a
        cases hr : a.reserve with
        | none =>
          rw [hr] at hr2
          refine key (fail .diskFull) a ?_ hw ?_ ?_
          · simp only [Store.step]; rw [if_neg hc, if_neg hlen, h1, hr]; rfl
          · simp only [FileMap.step]; rw [if_neg hlen, h2, hr2]; rfl
          · simp only [FileMap.step]; rw [if_neg hlen, h2, hr2]; rfl
        | some p =>
          obtain ⟨a₁, i⟩ := p
          rw [hr] at hr2
          simp only [Option.map_some] at hr2
          have hcs := reserve_cases hr
          by_cases hroom : a₁.room = 0
          · refine key (fail .diskFull) a₁ ?_ ?_ ?_ ?_
            · simp only [Store.step]; rw [if_neg hc, if_neg hlen, h1, hr]; simp [hroom]
            · rw [hcs.2.2.2.2.2.2.1, hw]
            · simp only [FileMap.step]; rw [if_neg hlen, h2, hr2]; simp [map_free, hroom]; rfl
            · simp only [FileMap.step]; rw [if_neg hlen, h2, hr2]; simp [map_free, hroom]
          · refine key (.ok ()) { a₁.put i (some ⟨storedName name, type.toByte ||| 0x80, []⟩) with
              handles := a₁.handles ++ [some i], saved := false } ?_ ?_ ?_ ?_
            · simp only [Store.step]; rw [if_neg hc, if_neg hlen, h1, hr]; simp [hroom]
            · show a₁.writers = []
              rw [hcs.2.2.2.2.2.2.1, hw]
            · simp only [FileMap.step]; rw [if_neg hlen, h2, hr2]; simp [map_free, hroom]; rfl
            · simp only [FileMap.step]; rw [if_neg hlen, h2, hr2]; simp [map_free, hroom]; rfl
      · refine key (fail .fileExists) a ?_ hw ?_ ?_
        · simp only [Store.step]; rw [if_neg hc, if_neg hlen, h1]; rfl
        · simp only [FileMap.step]; rw [if_neg hlen, h2]; rfl
        · simp only [FileMap.step]; rw [if_neg hlen, h2]; rfl
  | append name data =>
    simp only [Op.perform, FileMap.step]
    rcases map_find a name with ⟨h1, h2⟩ | ⟨i, g, h1, hg, -, h2⟩
    · have hs : Store.step (.openFile name) a = some (fail .notFound, a) := by
        simp only [Store.step]; rw [h1]
      obtain ⟨x', hx, hr⟩ := h.one hs
      refine ⟨x', a, ?_, hr, hw, ?_⟩
      · rw [h2, M.bind_of_error hx]
      · rw [h2]
    · have hs : Store.step (.openFile name) a =
          some (.ok (), { a with handles := a.handles ++ [some i] }) := by
        simp only [Store.step]; rw [h1]
      obtain ⟨x₁, hx₁, hr₁⟩ := h.one hs
      rw [h2]
      have hf₁ : x₁.files.length - 1 = a.handles.length := by
        have := hr₁.files
        simp only [List.length_append, List.length_cons, List.length_nil] at this
        omega
      have hs₂ : Store.step (.openWriter a.handles.length)
          { a with handles := a.handles ++ [some i] } =
          some (.ok (), { a with handles := a.handles ++ [some i], writers := [⟨i, true⟩] }) := by
        simp only [Store.step]
        rw [show (a.handles ++ [some i])[a.handles.length]? = some (some i) by simp]
        simp only [hw]
        rfl
      obtain ⟨x₂, hx₂, hr₂⟩ := hr₁.one hs₂
      have hw₂ : x₂.writers.length - 1 = 0 := by
        have := hr₂.writers
        simp only [List.length_cons, List.length_nil] at this
        omega
      have hs₃ : Store.step (.write 0 data)
          { a with handles := a.handles ++ [some i], writers := [⟨i, true⟩] } =
          some (if g.data.length + data.length ≤ capOf a g then .ok () else fail .diskFull,
            { a with
              slots := a.slots.set i (some { g with data := (g.data ++ data).take (capOf a g) })
              handles := a.handles ++ [some i], writers := [⟨i, true⟩], saved := false }) := by
        simp only [Store.step, List.getElem?_cons_zero, Store.file?, hg, Option.join_some]
        rfl
      obtain ⟨x₃, hx₃, hr₃⟩ := hr₂.one hs₃
      have hs₄ : Store.step (.drop 0)
          { a with
              slots := a.slots.set i (some { g with data := (g.data ++ data).take (capOf a g) })
              handles := a.handles ++ [some i], writers := [⟨i, true⟩], saved := false } =
          some (.ok (), { a with
              slots := a.slots.set i (some { g with data := (g.data ++ data).take (capOf a g) })
              handles := a.handles ++ [some i], writers := [], saved := true }) := by
        simp only [Store.step, List.getElem?_cons_zero]
        rfl
      obtain ⟨x₄, hx₄, hr₄⟩ := hr₃.one hs₄
      refine ⟨x₄, _, ?_, hr₄, rfl, rfl⟩
      rw [bind_run hx₁, bind_run (s' := x₁) (y := a.handles.length) (by rw [M.run_read, hf₁]),
        bind_run hx₂, bind_run (s' := x₂) (y := 0) (by rw [M.run_read, hw₂]),
        bind_run (m := attempt _) (s' := x₃)
          (y := if g.data.length + data.length ≤ capOf a g then .ok () else fail .diskFull)
          (by unfold attempt; rw [hx₃]),
        bind_run hx₄]
      show _ = (if g.data.length + data.length ≤ capOf a g then _ else _, _)
      split
      · rfl
      · rfl
  | read name =>
    simp only [Op.perform, FileMap.step]
    rcases map_find a name with ⟨h1, h2⟩ | ⟨i, g, h1, hg, -, h2⟩
    · refine ⟨x, a, ?_, h, hw, ?_⟩
      · rw [h2, M.bind_of_error (s' := x) (e := .err .notFound)
          (by rw [M.run_read, hsh.absent name h1]; rfl)]
      · rw [h2]
    · refine ⟨x, a, ?_, h, hw, ?_⟩
      · obtain ⟨f, r, ho, hrec, -⟩ := hsh.reads name i g.data h1 (hread i g hg)
        rw [h2, bind_run (s' := x) (y := g.data) (by
          rw [M.run_read, ho]
          simp only [res_bind_ok]
          rw [hrec])]
        rfl
      · rw [h2]
  | rename original new =>
    simp only [Op.perform]
    have key : ∀ res a', Store.step (.rename original new) a = some (res, a') →
        a'.writers = [] → res.map (fun _ => Reply.done) = (FileMap.step (.rename original new) (mapOf a)).1 →
        mapOf a' = (FileMap.step (.rename original new) (mapOf a)).2 →
        ∃ x' a', (Session.step (.rename original new) >>= fun _ => pure Reply.done : M Session Reply) x =
          ((FileMap.step (.rename original new) (mapOf a)).1, x') ∧ Reaches x' a' ∧
          a'.writers = [] ∧ mapOf a' = (FileMap.step (.rename original new) (mapOf a)).2 := by
      intro res a' hs hw' h1 h2
      obtain ⟨x', hx, hr⟩ := h.one hs
      exact ⟨x', a', by rw [perform_step hx, h1], hr, hw', h2⟩
    rcases map_find a original with ⟨h1, h2⟩ | ⟨i, g, h1, hg, -, h2⟩
    · refine key (fail .notFound) a ?_ hw ?_ ?_
      · simp only [Store.step]; rw [h1]
      · simp only [FileMap.step]; rw [h2]; rfl
      · simp only [FileMap.step]; rw [h2]
    · by_cases hlen : 16 < new.length
      · refine key (fail .filenameTooLong) a ?_ hw ?_ ?_
        · simp only [Store.step]; rw [h1]; simp only; rw [if_pos hlen]
        · simp only [FileMap.step]; rw [h2]; simp only; rw [if_pos hlen]; rfl
        · simp only [FileMap.step]; rw [h2]; simp only; rw [if_pos hlen]
      · rcases map_find a new with ⟨h3, h4⟩ | ⟨j, g', h3, -, -, h4⟩
        · refine key (.ok ()) (a.put i (some { g with name := storedName new })) ?_ hw ?_ ?_
          · simp only [Store.step]; rw [h1]; simp only; rw [if_neg hlen, h3, file?_eq.2 hg]; rfl
          · simp only [FileMap.step]; rw [h2]; simp only; rw [if_neg hlen, h4]; rfl
          · simp only [FileMap.step]; rw [h2]; simp only; rw [if_neg hlen, h4]; rfl
        · refine key (fail .fileExists) a ?_ hw ?_ ?_
          · simp only [Store.step]; rw [h1]; simp only; rw [if_neg hlen, h3]; rfl
          · simp only [FileMap.step]; rw [h2]; simp only; rw [if_neg hlen, h4]; rfl
          · simp only [FileMap.step]; rw [h2]; simp only; rw [if_neg hlen, h4]; rfl
  | delete name =>
    simp only [Op.perform, FileMap.step]
    rcases map_find a name with ⟨h1, h2⟩ | ⟨i, g, h1, hg, -, h2⟩
    · have hs : Store.step (.openFile name) a = some (fail .notFound, a) := by
        simp only [Store.step]; rw [h1]
      obtain ⟨x', hx, hr⟩ := h.one hs
      refine ⟨x', a, ?_, hr, hw, ?_⟩
      · rw [h2, M.bind_of_error hx]
      · rw [h2]
    · have hs : Store.step (.openFile name) a =
          some (.ok (), { a with handles := a.handles ++ [some i] }) := by
        simp only [Store.step]; rw [h1]
      obtain ⟨x₁, hx₁, hr₁⟩ := h.one hs
      rw [h2]
      have hf₁ : x₁.files.length - 1 = a.handles.length := by
        have := hr₁.files
        simp only [List.length_append, List.length_cons, List.length_nil] at this
        omega
      have hs₂ : ∃ a', Store.step (.delete a.handles.length)
          { a with handles := a.handles ++ [some i] } = some (.ok (), a') ∧ a'.writers = [] ∧
            mapOf a' = (mapOf a).put i none := by
        simp only [Store.step]
        rw [show (a.handles ++ [some i])[a.handles.length]? = some (some i) by simp]
        have : Store.writing { a with handles := a.handles ++ [some i] } i = false := hwr i
        simp only [this, Bool.false_eq_true, if_false]
        exact ⟨_, rfl, hw, rfl⟩
      obtain ⟨a', hs₂, hw', hm'⟩ := hs₂
      obtain ⟨x₂, hx₂, hr₂⟩ := hr₁.one hs₂
      refine ⟨x₂, a', ?_, hr₂, hw', hm'⟩
      rw [bind_run hx₁, bind_run (s' := x₁) (y := a.handles.length) (by rw [M.run_read, hf₁]),
        bind_run hx₂]
      rfl
  | list =>
    obtain ⟨es, h1, h2⟩ := hsh.lists
    refine ⟨x, a, ?_, h, hw, rfl⟩
    simp only [Op.perform, FileMap.step]
    rw [bind_run (s' := x) (y := es) (by rw [M.run_read, h1]), h2]
    rfl
  | blocksFree =>
    refine ⟨x, a, ?_, h, hw, rfl⟩
    simp only [Op.perform, FileMap.step]
    rw [bind_run (s' := x) (y := a.room) (by rw [M.run_read, hsh.blocksFree])]
    rfl

theorem performs_ok : ∀ (ops : List Op) {x : Session} {a : Store}, Reaches x a → a.writers = [] →
    (∀ o ∈ ops, Fits o) → (performs ops x).1 = FileMap.results ops (mapOf a)
  | [], _, _, _, _, _ => rfl
  | o :: os, x, a, h, hw, hf => by
    obtain ⟨x', a', hp, hr, hw', hm⟩ := perform_ok h hw o (hf o (by simp))
    have ih := performs_ok os hr hw' fun o' ho' => hf o' (by simp [ho'])
    simp only [performs, FileMap.results, hp]
    rw [ih, hm]

end Cbm
