import Verif.Lemmas.Report
import Verif.Props.Commands
import Verif.Props.Display
/-!
# C68, C69: the reports of `cdisk validate` and `cdisk bam show`
-/

namespace Cbm

open Spec

/-! ## C68 -/

/-- Two errors get the same line exactly if they are the same, the names taken as
characters. -/
theorem C68_unambiguous (e f : ValidationError) : e.text = f.text ↔ Finding.of e = Finding.of f :=
  ⟨finding_of_text, text_of_finding⟩

theorem cmdValidate_eq {ext : Option (List Char)} {bytes : List Byte} {disk : Disk}
    (ho : Disk.openPath ext true bytes = .ok disk) : (cmdValidate ext bytes).1 = disk.validate := by
  unfold cmdValidate inSession
  rw [ho]
  rfl

theorem printValidation_says {disk : Disk} {errors : List ValidationError}
    (h : disk.validate = .ok errors) :
    Says (printValidation disk) (.ok (if errors.isEmpty then none
      else some (decimal errors.length ++ lit " errors found during validation.")))
      (errors.flatMap (fun e => e.text ++ ['\n']) ++
        (if errors.isEmpty then lit "Disk validates successfully." ++ ['\n'] else [])) := by
  refine Says.bind_lift h ?_
  refine Says.bind (Says.forEach fun e _ => Says.println _) ?_
  cases errors.isEmpty
  · exact Says.pure _
  · have : Says (println (lit "Disk validates successfully.") >>= fun _ => pure (none : Option (List Char)))
        (.ok none) (lit "Disk validates successfully." ++ ['\n'] ++ []) :=
      Says.bind (Says.println _) (Says.pure _)
    rw [List.append_nil] at this
    exact this

/-- What is printed when the disk could be checked: one line for each error, and a line
that says so if there is none.  The command fails, with the number of errors, exactly if
there are errors. -/
theorem C68_report (ext : Option (List Char)) (bytes : List Byte) (errors : List ValidationError)
    (h : (cmdValidate ext bytes).1 = .ok errors) :
    splitLines (cmdValidateText ext bytes).2 = errors.map (·.text) ++
      (if errors = [] then ["Disk validates successfully.".toList] else []) ++ [[]] ∧
    (cmdValidateText ext bytes).1 = .ok (if errors = [] then none
      else some (Nat.toDigits 10 errors.length ++ " errors found during validation.".toList)) := by
  cases ho : Disk.openPath ext true bytes with
  | error e =>
    unfold cmdValidate inSession at h
    rw [ho] at h
    cases h
  | ok disk =>
    rw [cmdValidate_eq ho] at h
    have hs := showing_ok ho (printValidation_says h)
    unfold cmdValidateText
    rw [hs]
    simp only []
    rw [show errors.flatMap (fun e => e.text ++ ['\n']) =
        (errors.map (·.text)).flatMap (· ++ ['\n']) from
          (List.flatMap_map (fun e : ValidationError => e.text) (fun r => r ++ ['\n']) errors).symm,
      splitLines_rows _ (by
        intro r hr
        obtain ⟨e, -, rfl⟩ := List.mem_map.1 hr
        exact validation_newline e),
      show lit " errors found during validation." = " errors found during validation.".toList from
        by decide +kernel,
      show lit "Disk validates successfully." = "Disk validates successfully.".toList from
        by decide +kernel]
    cases errors with
    | nil =>
      refine ⟨?_, rfl⟩
      rw [if_pos rfl, if_pos (show ([] : List ValidationError).isEmpty = true from rfl)]
      decide +kernel
    | cons e es =>
      refine ⟨?_, rfl⟩
      rw [if_neg (by exact Bool.false_ne_true), if_neg (List.cons_ne_nil _ _), List.append_nil]
      rfl

/-- The report fails without a verdict exactly when the check does. -/
theorem C68_report_fails (ext : Option (List Char)) (bytes : List Byte) (e : Fail) :
    (cmdValidateText ext bytes).1 = .error e ↔ (cmdValidate ext bytes).1 = .error e := by
  cases ho : Disk.openPath ext true bytes with
  | error f =>
    unfold cmdValidateText cmdValidate inSession
    rw [showing_error ho, ho]
    simp only [Except.error.injEq]
  | ok disk =>
    cases hv : disk.validate with
    | ok errors =>
      have h := (C68_report ext bytes errors (by rw [cmdValidate_eq ho, hv])).2
      rw [h, cmdValidate_eq ho, hv]
      constructor <;> intro h <;> cases h
    | error f =>
      rw [cmdValidate_eq ho, hv]
      have hs : Says (printValidation disk) (.error f) [] := by
        unfold printValidation
        rw [hv]
        exact Says.bind_error (Says.lift _)
      unfold cmdValidateText
      rw [showing_ok ho hs]
      exact ⟨fun h => by cases h; rfl, fun h => by cases h; rfl⟩

/-- Images with the same report have the same errors, in the same order. -/
theorem C68_same_report (ext ext' : Option (List Char)) (bytes bytes' : List Byte)
    (errors errors' : List ValidationError) (h : (cmdValidate ext bytes).1 = .ok errors)
    (h' : (cmdValidate ext' bytes').1 = .ok errors')
    (hs : (cmdValidateText ext bytes).2 = (cmdValidateText ext' bytes').2) :
    errors.map Finding.of = errors'.map Finding.of := by
  have h1 := (C68_report ext bytes errors h).1
  have h2 := (C68_report ext' bytes' errors' h').1
  rw [hs, h2] at h1
  have h1 := (List.append_inj' h1 rfl).1
  have hne : ∀ e : ValidationError, e.text ≠ "Disk validates successfully.".toList := by
    intro e he
    have := congrArg (List.take 8) he
    rw [kindHead_eq] at this
    cases e <;> simp only [kindHead] at this <;> revert this <;> decide +kernel
  cases errors with
  | nil =>
    cases errors' with
    | nil => rfl
    | cons e es =>
      exfalso
      rw [if_pos rfl, if_neg (List.cons_ne_nil _ _), List.append_nil] at h1
      simp only [List.map_cons, List.map_nil, List.nil_append, List.cons.injEq] at h1
      exact hne e h1.1
  | cons e es =>
    cases errors' with
    | nil =>
      exfalso
      rw [if_pos rfl, if_neg (List.cons_ne_nil _ _), List.append_nil] at h1
      simp only [List.map_cons, List.map_nil, List.nil_append, List.cons.injEq] at h1
      exact hne e h1.1.symm
    | cons e' es' =>
      rw [if_neg (List.cons_ne_nil _ _), if_neg (List.cons_ne_nil _ _), List.append_nil,
        List.append_nil] at h1
      have : ∀ (as bs : List ValidationError), as.map (·.text) = bs.map (·.text) →
          as.map Finding.of = bs.map Finding.of := by
        intro as
        induction as with
        | nil => intro bs h; cases bs with
          | nil => rfl
          | cons b bs => cases h
        | cons a as ih => intro bs h; cases bs with
          | nil => cases h
          | cons b bs =>
            simp only [List.map_cons, List.cons.injEq] at h ⊢
            exact ⟨finding_of_text h.1, ih bs h.2⟩
      exact (this _ _ h1).symm

/-- An image that was made by `cdisk` commands validates. -/
theorem C68_files {ext : Option (List Char)} {bytes : List Byte} {c : Contents}
    (h : HoldsFiles ext bytes c) :
    cmdValidateText ext bytes = (.ok none, "Disk validates successfully.\n".toList) := by
  have hv := validate_ok h
  simp only [Command.exec] at hv
  have hv1 := congrArg Prod.fst hv
  obtain ⟨disk, ho, -⟩ := h
  have hd : disk.validate = .ok [] := by
    rw [cmdValidate_eq ho] at hv1
    cases hd : disk.validate with
    | error e => rw [hd] at hv1; cases hv1
    | ok es =>
      rw [hd] at hv1
      simp only [Except.map, Except.ok.injEq, Answer.errors.injEq] at hv1
      rw [hv1]
  have hs := showing_ok ho (printValidation_says hd)
  unfold cmdValidateText
  rw [hs]
  refine Prod.ext rfl ?_
  decide +kernel

/-- An image with no files whose BAM says that every sector is free. -/
def allFree : List Byte :=
  List.replicate 91392 0 ++ ([18, 1] ++ List.replicate 254 255) ++ ([0, 255] ++ List.replicate 254 0) ++
    List.replicate 82944 0

theorem allFree_errors : (cmdValidate (some "d64".toList) allFree).1 =
    .ok [.systemSectorNotAllocated ⟨18, 0⟩, .systemSectorNotAllocated ⟨18, 1⟩] := by
  decide +kernel

example : splitLines (cmdValidateText (some "d64".toList) allFree).2 =
      ["System sector not allocated: (18,0)".toList, "System sector not allocated: (18,1)".toList, []] ∧
    (cmdValidateText (some "d64".toList) allFree).1 =
      .ok (some "2 errors found during validation.".toList) := by
  obtain ⟨h1, h2⟩ := C68_report _ _ _ allFree_errors
  exact ⟨h1.trans (by decide +kernel), h2.trans (by decide +kernel)⟩

example : ∃ bytes, cmdValidateText (some "d81".toList) bytes =
    (.ok none, "Disk validates successfully.\n".toList) := by
  obtain ⟨b, h⟩ := exists_holds (some "d81".toList) [104] [97, 98] (by decide)
  exact ⟨b, C68_files h⟩

/-- Names that differ give different lines, also if they contain quotes. -/
example : (ValidationError.sectorMisoccupied ⟨1, 2⟩ [0x41, 0x22]).text ≠
    (ValidationError.sectorMisoccupied ⟨1, 2⟩ [0x41]).text :=
  fun h => absurd ((C68_unambiguous _ _).mp h) (by decide +kernel)

/-! ## C69 -/

theorem row_sectors (ty : DiskType) {t : Nat} (ht : t < bamTracks ty) :
    ∃ row, trackRow ty.format.tracks (t + 1) = .ok row ∧ row.sectors = sectorsPerTrack ty (t + 1) := by
  have h : ∀ t < bamTracks ty, (trackRow ty.format.tracks (t + 1)).map Track.sectors =
      .ok (sectorsPerTrack ty (t + 1)) := by
    cases ty <;> decide +kernel
  have h := h t ht
  cases hr : trackRow ty.format.tracks (t + 1) with
  | error e => rw [hr] at h; cases h
  | ok row =>
    rw [hr] at h
    exact ⟨row, rfl, by injection h⟩

theorem trackText_eq {b : Bam} {ty : DiskType} (hb : BamOf b ty) {t : Nat} (ht : t < bamTracks ty) :
    b.trackText t = .ok (bamLine b ty (t + 1) ++ ['\n']) := by
  have hl : t < b.entries.length := by rw [hb.length]; exact ht
  obtain ⟨row, h1, h2⟩ := row_sectors ty ht
  have he : b.entries[t]? = some b.entries[t] := List.getElem?_eq_getElem hl
  have hf : ∀ s, freeAt b (t + 1) s = b.entries[t].sectorMap.getLsbD s := by
    intro s
    unfold freeAt
    rw [show t + 1 - 1 = t from rfl, he]
    simp
  have hr : (recorded b (t + 1)).getD 0 = b.entries[t].freeSectors.toNat := by
    unfold recorded
    rw [show t + 1 - 1 = t from rfl, he]
    rfl
  unfold Bam.trackText indexRes
  rw [he, show b.format.tracks = ty.format.tracks from by rw [hb.format], h1]
  simp only [res_bind_ok]
  refine congrArg Except.ok ?_
  unfold bamLine
  rw [hr, h2, mapText_eq,
    show lit ": [" = ": [".toList from by decide +kernel,
    show lit "] " = "] ".toList from by decide +kernel]
  simp only [hf]
  rfl

theorem bamLine_newline (b : Bam) (ty : DiskType) (t : Nat) : '\n' ∉ bamLine b ty t := by
  unfold bamLine
  have h2 : ∀ n, '\n' ∉ twoDigits n := fun n => mem_zeroPadded (w := 2) (n := n) (by decide)
  simp only [List.mem_append, not_or]
  refine ⟨⟨⟨⟨⟨⟨⟨by decide, h2 _⟩, by decide +kernel⟩, h2 _⟩, by decide⟩, h2 _⟩, by decide +kernel⟩, ?_⟩
  intro h
  obtain ⟨s, -, h⟩ := List.mem_map.1 h
  split at h <;> exact absurd h (by decide)

theorem foldRes_total {α β : Type} {f : β → α → Res β} : ∀ {xs : List α},
    (∀ a ∈ xs, ∀ b, ∃ b', f b a = .ok b') → ∀ b, ∃ b', foldRes f xs b = .ok b'
  | [], _, b => ⟨b, rfl⟩
  | a :: xs, h, b => by
    obtain ⟨b', hb⟩ := h a (List.mem_cons_self ..) b
    obtain ⟨b'', hb'⟩ := foldRes_total (fun x hx => h x (List.mem_cons_of_mem _ hx)) b'
    exact ⟨b'', by unfold foldRes; rw [hb]; exact hb'⟩

theorem last_track {b : Bam} {ty : DiskType} (hb : BamOf b ty) : b.format.lastTrack = bamTracks ty := by
  rw [hb.format]; cases ty <;> rfl

theorem blocksFree_total {b : Bam} {ty : DiskType} (hb : BamOf b ty) : ∃ n, b.blocksFree = .ok n := by
  unfold Bam.blocksFree
  refine foldRes_total ?_ 0
  intro t ht n
  rw [last_track hb, List.mem_range] at ht
  by_cases hd : t = b.format.directoryTrack - 1
  · exact ⟨n, by rw [if_pos hd]⟩
  · rw [if_neg hd]
    unfold indexRes
    rw [List.getElem?_eq_getElem (by rw [hb.length]; exact ht)]
    exact ⟨_, rfl⟩

theorem bamPrint_says {b : Bam} {ty : DiskType} (hb : BamOf b ty) {n : Nat} (hn : b.blocksFree = .ok n) :
    Says b.print (.ok ()) (((List.range (bamTracks ty)).map fun t => bamLine b ty (t + 1)).flatMap
      (· ++ ['\n']) ++ (freeLine n ++ ['\n'])) := by
  unfold Bam.print
  rw [last_track hb, List.flatMap_map]
  refine Says.bind (Says.forEach ?_) (Says.bind_lift hn ?_)
  · intro t ht
    exact Says.bind_lift (trackText_eq hb (List.mem_range.1 ht)) (Says.print _)
  · rw [← free_eq]
    exact Says.println _

/-- The map of every image that can be opened: an unformatted disk has none; otherwise
there is a line for each track that the BAM records, and the number of free blocks. -/
theorem C69_show (ext : Option (List Char)) (bytes : List Byte) (disk : Disk)
    (ho : Disk.openPath ext false bytes = .ok disk) :
    (disk.bam = none ∧ disk.header = none ∧ cmdBamShow ext bytes = (fail .unformatted, [])) ∨
    ∃ ty b n, disk.native = ty.format ∧ bamOf disk = some b ∧ BamOf b ty ∧ b.blocksFree = .ok n ∧
      (cmdBamShow ext bytes).1 = .ok () ∧
      splitLines (cmdBamShow ext bytes).2 =
        ((List.range (bamTracks ty)).map fun t => bamLine b ty (t + 1)) ++ [freeLine n, []] := by
  rcases open_bam ho with ⟨h1, h2, -⟩ | ⟨ty, b, hn, hb, hof⟩
  · refine .inl ⟨h1, h2, ?_⟩
    unfold cmdBamShow
    refine showing_ok ho ?_
    unfold Disk.bamRef
    rw [h1]
    exact Says.bind_error (Says.lift _)
  · obtain ⟨n, hfree⟩ := blocksFree_total hof
    refine .inr ⟨ty, b, n, hn, hb, hof, hfree, ?_⟩
    obtain ⟨r, hr, hc⟩ := Option.bind_eq_some_iff.1 hb
    have hs : cmdBamShow ext bytes = (.ok (), ((List.range (bamTracks ty)).map fun t =>
        bamLine b ty (t + 1)).flatMap (· ++ ['\n']) ++ (freeLine n ++ ['\n'])) := by
      unfold cmdBamShow
      refine showing_ok ho (r := .ok ()) ?_
      refine Says.bind_lift (a := r) (by unfold Disk.bamRef; rw [hr]) ?_
      exact Says.bind_lift (a := b) (by unfold indexRes; rw [hc]) (bamPrint_says hof hfree)
    rw [hs]
    refine ⟨rfl, ?_⟩
    rw [splitLines_rows, splitLines_row (free_newline n)]
    · rfl
    · intro r hr
      obtain ⟨t, -, rfl⟩ := List.mem_map.1 hr
      exact bamLine_newline b ty _

/-- The line of a track tells which of its sectors are free, and the recorded count. -/
theorem C69_line (b b' : Bam) (ty : DiskType) (t : Nat) (hb : BamOf b ty) (hb' : BamOf b' ty)
    (h1 : 1 ≤ t) (h2 : t ≤ bamTracks ty) :
    bamLine b ty t = bamLine b' ty t ↔ recorded b t = recorded b' t ∧
      ∀ s < sectorsPerTrack ty t, freeAt b t s = freeAt b' t s := by
  have hrec : ∀ {b : Bam}, BamOf b ty → ∃ k, recorded b t = some k := by
    intro b hb
    unfold recorded
    rw [List.getElem?_eq_getElem (by rw [hb.length]; omega)]
    exact ⟨_, rfl⟩
  obtain ⟨k, hk⟩ := hrec hb
  obtain ⟨k', hk'⟩ := hrec hb'
  unfold bamLine
  rw [hk, hk']
  simp only [Option.getD_some, List.append_assoc]
  constructor
  · intro h
    have h := List.append_cancel_left (List.append_cancel_left h)
    have h := List.append_cancel_left h
    simp only [List.singleton_append] at h
    have hslash : ∀ n, '/' ∉ twoDigits n := fun n => mem_zeroPadded (w := 2) (n := n) (by decide)
    obtain ⟨h3, h⟩ := split_first (hslash _) (hslash _) h
    have h := List.append_cancel_left h
    have h := List.append_cancel_left h
    refine ⟨congrArg some (zeroPadded_inj (w := 2) h3), fun s hs => ?_⟩
    have h := congrArg (fun l => l[s]?) h
    simp only [List.getElem?_map, List.getElem?_range hs, Option.map_some, Option.some.injEq] at h
    cases hf : freeAt b t s <;> cases hf' : freeAt b' t s <;> rw [hf, hf'] at h <;>
      first | rfl | exact absurd h (by decide)
  · rintro ⟨h3, h4⟩
    injection h3 with h3
    rw [h3]
    have : (List.range (sectorsPerTrack ty t)).map (fun s => if freeAt b t s then '.' else 'x') =
        (List.range (sectorsPerTrack ty t)).map (fun s => if freeAt b' t s then '.' else 'x') := by
      apply List.map_congr_left
      intro s hs
      rw [h4 s (List.mem_range.1 hs)]
    rw [this]

/-- Two images of the same type that show the same map have the same sectors free and the
same recorded counts. -/
theorem C69_same_map (ext ext' : Option (List Char)) (bytes bytes' : List Byte) (disk disk' : Disk)
    (ho : Disk.openPath ext false bytes = .ok disk) (ho' : Disk.openPath ext' false bytes' = .ok disk')
    (ty : DiskType) (hn : disk.native = ty.format) (hn' : disk'.native = ty.format) (b b' : Bam)
    (hb : bamOf disk = some b) (hb' : bamOf disk' = some b')
    (hs : (cmdBamShow ext bytes).2 = (cmdBamShow ext' bytes').2) (t : Nat) (h1 : 1 ≤ t)
    (h2 : t ≤ bamTracks ty) :
    recorded b t = recorded b' t ∧ ∀ s < sectorsPerTrack ty t, freeAt b t s = freeAt b' t s := by
  have key : ∀ {ext bytes disk b}, Disk.openPath ext false bytes = .ok disk → disk.native = ty.format →
      bamOf disk = some b → BamOf b ty ∧ ∃ n, splitLines (cmdBamShow ext bytes).2 =
        ((List.range (bamTracks ty)).map fun t => bamLine b ty (t + 1)) ++ [freeLine n, []] := by
    intro ext bytes disk b ho hn hb
    rcases C69_show ext bytes disk ho with ⟨h3, -, -⟩ | ⟨ty', b', n, hn', hb', hof, -, -, h⟩
    · unfold bamOf at hb
      rw [h3] at hb
      cases hb
    · have : ty' = ty := format_inj (hn'.symm.trans hn)
      subst this
      rw [hb] at hb'
      cases hb'
      exact ⟨hof, n, h⟩
  obtain ⟨hof, n, hl⟩ := key ho hn hb
  obtain ⟨hof', n', hl'⟩ := key ho' hn' hb'
  rw [hs, hl'] at hl
  have hl := (List.append_inj' hl rfl).1
  have hl := congrArg (fun l => l[t - 1]?) hl
  simp only [List.getElem?_map, List.getElem?_range (show t - 1 < bamTracks ty by omega), Option.map_some,
    Option.some.injEq] at hl
  rw [show t - 1 + 1 = t from by omega] at hl
  exact (C69_line b b' ty t hof hof' h1 h2).mp hl.symm

/-- The map of an image that holds files: the number before the slash is the number of
dots, and the last line tells the free blocks. -/
theorem C69_files {ext : Option (List Char)} {bytes : List Byte} {c : Contents}
    (h : HoldsFiles ext bytes c) : ∃ b,
    (∀ t, 1 ≤ t → t ≤ bamTracks c.map.type → recorded b t =
      some ((List.range (sectorsPerTrack c.map.type t)).filter fun k => freeAt b t k).length) ∧
    (cmdBamShow ext bytes).1 = .ok () ∧
    splitLines (cmdBamShow ext bytes).2 =
      ((List.range (bamTracks c.map.type)).map fun t => bamLine b c.map.type (t + 1)) ++
        [freeLine c.map.free, []] := by
  obtain ⟨disk, he, hsz, hn, ho, hr, hi⟩ := holds_inv h
  obtain ⟨s, v, r, b, hrep⟩ := hr.rep
  obtain ⟨disk', hd, hl⟩ := open_readOnly hrep.ready (hrep.saved rfl)
  rw [show disk.dev.image.bytes = bytes by rw [hi]; rfl] at hd
  have ht : c.map.type = s.type := hrep.type
  have hopen : Disk.openPath ext false bytes = .ok disk' := by
    rw [openPath_of he false hsz, ht]; exact hd
  have hfree := hl.blocksFree
  rw [← hrep.room] at hfree
  rcases C69_show ext bytes disk' hopen with ⟨-, h2, -⟩ | ⟨ty, b', n, h1, hb', h3, h4, h5, h6⟩
  · rw [hl.opened.header] at h2
    cases h2
  · obtain ⟨s', h7, -, h8, -⟩ := new_ok hd
    have hty : ty = c.map.type := ht ▸ format_inj (h1.symm.trans h8)
    subst hty
    have hbb : b' = b := by
      unfold bamOf at hb'
      rw [hl.bam, Option.bind_some, hl.cell] at hb'
      exact (Option.some.inj hb').symm
    subst hbb
    have hnn : n = c.map.free := by
      unfold Disk.blocksFree Disk.bamRef indexRes at hfree
      rw [hl.bam] at hfree
      simp only [res_bind_ok] at hfree
      rw [hl.cell] at hfree
      simp only [res_bind_ok] at hfree
      rw [h4] at hfree
      injection hfree
    subst hnn
    refine ⟨b', ?_, h5, h6⟩
    intro t ht1 ht2
    rw [hl.recorded.consistent.counts t (by omega) (by rw [← ht]; exact ht2), ← ht]
    rfl

example : ∃ bytes b, (cmdBamShow (some "d81".toList) bytes).1 = .ok () ∧
    splitLines (cmdBamShow (some "d81".toList) bytes).2 =
      ((List.range 80).map fun t => bamLine b .d81 (t + 1)) ++ ["3160 blocks free.".toList, []] := by
  obtain ⟨bytes, h⟩ := exists_holds (some "d81".toList) [104] [97, 98] (by decide)
  obtain ⟨b, -, h1, h2⟩ := C69_files h
  exact ⟨bytes, b, h1, h2⟩

end Cbm
