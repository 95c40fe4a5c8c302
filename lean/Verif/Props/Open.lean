import Verif.Lemmas.Open
import Verif.Lemmas.Keeps
import Verif.Spec.Images
/-!
# Opening disks: C04, C05
-/

namespace Cbm
open Spec

/-- **C04** A disk opened read-only is never modified: after any sequence of
calls with any arguments, through any handles, succeeding or failing, the image
is the same, byte for byte. -/
theorem C04_read_only (s : Session) (h : s.disk.dev.image.kind = .readOnlyMap)
    (calls : List Call) : (Session.run calls s).disk.dev.image = s.disk.dev.image := by
  rw [keep_run (R := ReadOnlySame) calls s h]

/-- **C04** In particular no write is ever reported in the device history. -/
theorem C04_no_sector_write (s : Session) (h : s.disk.dev.image.kind = .readOnlyMap) (c : Call) :
    (Session.step c s).2.disk.dev.hist = s.disk.dev.hist := by
  have hc : (Session.step c s).2.disk.dev = s.disk.dev := keep_step (R := ReadOnlySame) c s h
  rw [hc]

theorem sizes_match : ∀ ty ∈ [DiskType.d64, .d71, .d81],
    ty.geometries.map Geometry.size = imageSizes ty := by decide +kernel

theorem mem_sizes (ty : DiskType) (n : Nat) : n ∈ imageSizes ty ↔
    ∃ g ∈ ty.geometries, g.size = n := by
  rw [← sizes_match ty (mem_diskTypes ty)]
  simp

/-- **C05** `D64::new`, `D71::new`, `D81::new` accept an image exactly when its
length is one of the listed ones, and otherwise return `InvalidLayout`. -/
theorem C05_accepts_exactly (ty : DiskType) (image : Image) :
    ((∃ disk, Disk.new ty image = .ok disk) ↔ image.bytes.length ∈ imageSizes ty) ∧
    (image.bytes.length ∉ imageSizes ty → Disk.new ty image = fail .invalidLayout) := by
  unfold Disk.new Disk.fromImage
  cases hf : Geometry.findBySize image.len ty.geometries with
  | none =>
    have hn : image.bytes.length ∉ imageSizes ty := by
      rw [mem_sizes]
      rintro ⟨g, hg, he⟩
      exact findBySize_none hf g hg he
    refine ⟨⟨?_, fun h => absurd h hn⟩, fun _ => rfl⟩
    rintro ⟨d, hd⟩
    cases hd
  | some g =>
    obtain ⟨hg, hs⟩ := findBySize_some hf
    have hm : image.bytes.length ∈ imageSizes ty := (mem_sizes ty _).2 ⟨g, hg, hs⟩
    refine ⟨⟨fun _ => hm, fun _ => ?_⟩, fun hn => absurd hm hn⟩
    exact initialize_ok (disk := ⟨ty.format, ⟨image, g, []⟩, none, none, none, []⟩)
      (wf_of_size hg rfl hs.symm) rfl

/-- **C05** No length belongs to two disk types, or to two layouts of one type. -/
theorem C05_unambiguous (ty ty' : DiskType) (n : Nat) (h : n ∈ imageSizes ty)
    (h' : n ∈ imageSizes ty') :
    ty = ty' ∧ ∀ g ∈ ty.geometries, ∀ g' ∈ ty.geometries, g.size = n → g'.size = n → g = g' := by
  constructor
  · cases ty <;> cases ty' <;> simp only [imageSizes, List.mem_cons, List.not_mem_nil, or_false] at h h' <;>
      first | rfl | omega
  · have key : ∀ ty ∈ [DiskType.d64, .d71, .d81], ∀ g ∈ ty.geometries, ∀ g' ∈ ty.geometries,
        g.size = g'.size → g = g' := by decide +kernel
    intro g hg g' hg' e e'
    exact key ty (mem_diskTypes ty) g hg g' hg' (e.trans e'.symm)

/-- **C05** Opening without a recognised extension tries the types in turn and
finds exactly the type the length belongs to. -/
theorem C05_detection (image : Image) :
    (∀ ty, image.bytes.length ∈ imageSizes ty →
      ∃ disk, Disk.openAny image = .ok (ty, disk) ∧ Disk.new ty image = .ok disk) ∧
    ((∀ ty, image.bytes.length ∉ imageSizes ty) → Disk.openAny image = fail .invalidLayout) := by
  have no : ∀ ty, image.bytes.length ∉ imageSizes ty → Disk.new ty image = fail .invalidLayout :=
    fun ty => (C05_accepts_exactly ty image).2
  have yes : ∀ ty, image.bytes.length ∈ imageSizes ty → ∃ disk, Disk.new ty image = .ok disk :=
    fun ty => (C05_accepts_exactly ty image).1.2
  constructor
  · intro ty hty
    obtain ⟨disk, hd⟩ := yes ty hty
    refine ⟨disk, ?_, hd⟩
    have other : ∀ ty', ty' ≠ ty → Disk.new ty' image = fail .invalidLayout := by
      intro ty' hne
      exact no ty' fun h => hne (C05_unambiguous ty' ty _ h hty).1
    unfold Disk.openAny
    cases ty with
    | d64 => rw [hd]
    | d71 => rw [other .d64 (by simp), hd]
    | d81 => rw [other .d64 (by simp)]; simp only; rw [other .d71 (by simp)]; simp only; rw [hd]; rfl
  · intro h
    unfold Disk.openAny
    rw [no _ (h .d64)]; simp only; rw [no _ (h .d71)]; simp only; rw [no _ (h .d81)]; rfl

example : ∃ disk, Disk.openAny (Image.openMemory 349696) = .ok (.d71, disk) :=
  let ⟨d, h, _⟩ := (C05_detection (Image.openMemory 349696)).1 .d71 (by
    simp only [Image.openMemory, List.length_replicate]; decide)
  ⟨d, h⟩

/-- A session on a read-only image in which every call is made. -/
example : ∃ s : Session, s.disk.dev.image.kind = .readOnlyMap ∧ s.disk.bam.isSome := by
  obtain ⟨disk, hd⟩ := (C05_accepts_exactly .d64
    ⟨.readOnlyMap, List.replicate 174848 0⟩).1.2 (by rw [List.length_replicate]; decide)
  refine ⟨⟨disk, [], []⟩, ?_⟩
  unfold Disk.new Disk.fromImage at hd
  simp only [Image.len, List.length_replicate] at hd
  have hf : Geometry.findBySize 174848 DiskType.d64.geometries = some D64.GEOMETRY_35 := by
    decide +kernel
  rw [hf] at hd
  simp only at hd
  have hw : Wf (Device.mk ⟨.readOnlyMap, List.replicate 174848 0⟩ D64.GEOMETRY_35 [])
      ⟨.d64, 35, false⟩ :=
    wf_of_size (ty := .d64) (g := D64.GEOMETRY_35) (by decide) rfl (by
      simp only [List.length_replicate]; decide +kernel)
  have hp : ∃ h, Header.parse D64.DISK_FORMAT.header
      (Device.blk (Device.mk ⟨.readOnlyMap, List.replicate 174848 0⟩ D64.GEOMETRY_35 [])
        ⟨.d64, 35, false⟩ D64.DISK_FORMAT.header.location) = .ok h := ⟨_, rfl⟩
  obtain ⟨h, hp⟩ := hp
  have hi := (initialize_of_header (disk := ⟨DiskType.d64.format,
    Device.mk ⟨.readOnlyMap, List.replicate 174848 0⟩ D64.GEOMETRY_35 [], none, none, none, []⟩)
    hw rfl hp).symm.trans hd
  cases hi
  exact ⟨rfl, rfl⟩

end Cbm
