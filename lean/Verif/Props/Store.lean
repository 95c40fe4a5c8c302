import Verif.Lemmas.Ops
/-!
# The library as a file store (C33, C34)

`Shows`, `Reaches`: Spec/Observe.  `Store`: Spec/Store.  `Op`, `FileMap`: Spec/Ops.
-/

namespace Cbm
open Spec

variable {a a' : Store} {x x' : Session} {disk : Disk} {image : Image} {ty : DiskType}
  {name : Petscii} {calls : List Call} {rs : List (Res Unit)}

/-! ## C33: no history leads to a disk that validate complains about -/

/-- C33: format any writable disk and then make any calls within the contract,
whether they succeed or fail: validate finds nothing. -/
theorem C33_valid_after_every_history (hnew : Disk.new ty image = .ok disk)
    (hw : image.kind ≠ .readOnlyMap) (hname : name.length ≤ 16) (id : Byte × Byte)
    (hrun : Store.run calls (Store.empty ty name id) = some (rs, a)) :
    (runs (.format name id :: calls) ⟨disk, [], []⟩).2.disk.validate = .ok [] := by
  obtain ⟨x, hx, hr⟩ := reaches_new hnew hw hname id
  obtain ⟨x', hx', hr'⟩ := hr.run hrun
  have : (runs (.format name id :: calls) ⟨disk, [], []⟩).2 = x' := by
    simp only [runs, hx, hx']
  rw [this]
  exact hr'.shows.valid

/-- The same for a disk that already holds files. -/
theorem C33_valid_from_any_disk (h : Reaches x a) (hrun : Store.run calls a = some (rs, a')) :
    (runs calls x).2.disk.validate = .ok [] := by
  obtain ⟨x', hx', hr'⟩ := h.run hrun
  rw [hx']
  exact hr'.shows.valid

/-! ## C34: refinement of the abstract store -/

/-- C34: every history of calls on a formatted disk has the results the abstract store
gives, and afterwards everything a program can ask is as the store says. -/
theorem C34_calls (hnew : Disk.new ty image = .ok disk)
    (hw : image.kind ≠ .readOnlyMap) (hname : name.length ≤ 16) (id : Byte × Byte)
    (hrun : Store.run calls (Store.empty ty name id) = some (rs, a)) :
    ∃ x, runs (.format name id :: calls) ⟨disk, [], []⟩ = (.ok () :: rs, x) ∧ Shows x a := by
  obtain ⟨x, hx, hr⟩ := reaches_new hnew hw hname id
  obtain ⟨x', hx', hr'⟩ := hr.run hrun
  exact ⟨x', by simp only [runs, hx, hx'], hr'.shows⟩

/-- C34, whole operations: for every list of operations with arbitrary arguments (file
types other than relative files) on a formatted disk, all results, including failures,
are those of a map of files with a quota of blocks and of directory slots. -/
theorem C34_operations (hnew : Disk.new ty image = .ok disk)
    (hw : image.kind ≠ .readOnlyMap) (hname : name.length ≤ 16) (id : Byte × Byte)
    (ops : List Op) (hops : ∀ o ∈ ops, ∀ n t, o = .create n t → t.toByte &&& 0x0F ≠ 4) :
    ∃ x, Session.step (.format name id) ⟨disk, [], []⟩ = (.ok (), x) ∧
      (performs ops x).1 = FileMap.results ops (FileMap.empty ty) := by
  obtain ⟨x, hx, hr⟩ := reaches_new hnew hw hname id
  refine ⟨x, hx, ?_⟩
  refine performs_ok ops hr rfl fun o ho => ?_
  cases o with
  | create n t => exact hops _ ho n t rfl
  | _ => trivial

/-- The hypotheses are met: there are such disks of each type, and a history that
creates, writes, runs into errors and deletes. -/
example : ∃ disk, Disk.new .d64 (Image.openMemory 174848) = .ok disk :=
  (C05_accepts_exactly .d64 _).1.2 (by simp only [Image.openMemory, List.length_replicate]; decide)

example : (Store.run
    [.create [0x41] .PRG .linear, .openWriter 0, .write 0 [1, 2, 3], .create [0x41] .SEQ .linear,
      .create [0x42] .SEQ .linear, .drop 0, .openFile [0x43], .rename [0x42] [0x43], .delete 0]
    (Store.empty .d64 [0x41] (0x42, 0x43))).map (fun p => (p.1, p.2.listing)) =
    some ([.ok (), .ok (), .ok (), fail .fileExists, .ok (), .ok (), fail .notFound, .ok (),
      .ok ()], [([0x43], 0x81, 1)]) := by decide +kernel

example : FileMap.results
    [.create [0x41] .PRG, .append [0x41] [1, 2, 3], .create [0x41] .SEQ, .append [0x41] [4],
      .read [0x41], .blocksFree, .rename [0x41] [0x42], .read [0x41], .list, .delete [0x42], .list]
    (FileMap.empty .d64) =
    [.ok .done, .ok .done, fail .fileExists, .ok .done, .ok (.content [1, 2, 3, 4]),
      .ok (.blocks 663), .ok .done, fail .notFound, .ok (.lines [([0x42], 0x82, 1)]), .ok .done,
      .ok (.lines [])] := by decide +kernel

end Cbm
