import Verif.Lemmas.Display
import Verif.Lemmas.Says
import Verif.Lemmas.Text
import Verif.Lemmas.Commands
import Verif.Spec.Report
/-!
# Facts about the reports
-/

namespace Cbm

open Spec

/-! ## Quoted names -/

def quoteChar (c : Char) : List Char := if c = '"' then ['\\', '"'] else [c]

theorem petsciiDebug_eq (p : Petscii) :
    petsciiDebug p = '"' :: ((petsciiText p).flatMap quoteChar ++ ['"']) := rfl

/-- A quoted name can be taken off a text in one way only. -/
theorem quoted_inj : ∀ {a b x y : List Char}, '\\' ∉ a → '\\' ∉ b →
    a.flatMap quoteChar ++ '"' :: x = b.flatMap quoteChar ++ '"' :: y → a = b ∧ x = y
  | [], [], x, y, _, _, h => ⟨rfl, by simpa using h⟩
  | [], d :: b, x, y, _, hb, h => by
    exfalso
    simp only [List.mem_cons, not_or] at hb
    rw [List.flatMap_nil, List.nil_append, List.flatMap_cons] at h
    unfold quoteChar at h
    by_cases hd : d = '"'
    · rw [if_pos hd] at h
      injection h with h _
      exact absurd h (by decide)
    · rw [if_neg hd] at h
      injection h with h _
      exact hd h.symm
  | c :: a, [], x, y, ha, _, h => by
    exfalso
    simp only [List.mem_cons, not_or] at ha
    rw [List.flatMap_nil, List.nil_append, List.flatMap_cons] at h
    unfold quoteChar at h
    by_cases hd : c = '"'
    · rw [if_pos hd] at h
      injection h with h _
      exact absurd h (by decide)
    · rw [if_neg hd] at h
      injection h with h _
      exact hd h
  | c :: a, d :: b, x, y, ha, hb, h => by
    simp only [List.mem_cons, not_or] at ha hb
    rw [List.flatMap_cons, List.flatMap_cons, List.append_assoc, List.append_assoc] at h
    have key : c = d ∧ a.flatMap quoteChar ++ '"' :: x = b.flatMap quoteChar ++ '"' :: y := by
      by_cases hc : c = '"' <;> by_cases hd : d = '"'
      · rw [hc, hd] at h
        exact ⟨hc.trans hd.symm, List.append_cancel_left h⟩
      · rw [hc, show quoteChar d = [d] from if_neg hd] at h
        injection h with h _
        exact absurd h hb.1
      · rw [hd, show quoteChar c = [c] from if_neg hc] at h
        injection h with h _
        exact absurd h.symm ha.1
      · rw [show quoteChar d = [d] from if_neg hd, show quoteChar c = [c] from if_neg hc] at h
        injection h with h1 h2
        exact ⟨h1, h2⟩
    obtain ⟨h1, h2⟩ := quoted_inj ha.2 hb.2 key.2
    exact ⟨by rw [key.1, h1], h2⟩

theorem petsciiDebug_inj {p q : Petscii} {x y : List Char}
    (h : petsciiDebug p ++ x = petsciiDebug q ++ y) : petsciiText p = petsciiText q ∧ x = y := by
  rw [petsciiDebug_eq, petsciiDebug_eq, List.cons_append, List.cons_append, List.append_assoc,
    List.append_assoc] at h
  injection h with _ h
  exact quoted_inj (petsciiText_backslash p) (petsciiText_backslash q) h

theorem petsciiDebug_newline (p : Petscii) : '\n' ∉ petsciiDebug p := by
  rw [petsciiDebug_eq]
  simp only [List.mem_cons, List.mem_append, List.mem_flatMap, List.not_mem_nil, or_false, not_or,
    not_exists, not_and]
  refine ⟨by decide, fun c hc h => ?_, by decide⟩
  unfold quoteChar at h
  split at h
  · simp at h
  · simp only [List.mem_singleton] at h
    exact petsciiText_newline p (h ▸ hc)

theorem location_newline (l : Location) : '\n' ∉ l.text := by
  unfold Location.text
  simp only [List.mem_append, not_or]
  exact ⟨⟨⟨⟨by decide, not_mem_decimal (by decide)⟩, by decide⟩, not_mem_decimal (by decide)⟩, by decide⟩

def allErrors : List DiskError :=
  [.unknown, .readOnly, .invalidLocation, .invalidOffset, .invalidHeader, .invalidBAM, .invalidLayout,
    .invalidRecord, .readOverflow, .readUnderrun, .writeUnderrun, .unformatted, .notFound, .chainLoop,
    .invalidChainLink, .invalidRelativeFile, .unpositioned, .filenameTooLong, .fileExists, .diskFull,
    .invalidRecordIndex, .unknownFormat, .geosInfoNotFound, .recordTooLarge, .nonLinearFile]

theorem mem_allErrors (e : DiskError) : e ∈ allErrors := by cases e <;> decide

theorem message_inj {e f : DiskError} (h : e.text = f.text) : e = f := by
  have : ∀ e ∈ allErrors, ∀ f ∈ allErrors, e.text = f.text → e = f := by decide +kernel
  exact this e (mem_allErrors e) f (mem_allErrors f) h

theorem message_newline (e : DiskError) : '\n' ∉ e.text := by
  have : ∀ e ∈ allErrors, '\n' ∉ e.text := by decide +kernel
  exact this e (mem_allErrors e)

theorem validation_newline (e : ValidationError) : '\n' ∉ e.text := by
  cases e <;> simp only [ValidationError.text, List.mem_append, not_or]
  · exact ⟨by decide +kernel, location_newline _⟩
  · exact ⟨by decide +kernel, location_newline _⟩
  · exact ⟨⟨⟨by decide +kernel, location_newline _⟩, by decide +kernel⟩, petsciiDebug_newline _⟩
  · exact ⟨⟨⟨⟨⟨by decide +kernel, location_newline _⟩, by decide +kernel⟩, petsciiDebug_newline _⟩,
      by decide⟩, petsciiDebug_newline _⟩
  · exact ⟨⟨⟨by decide +kernel, petsciiDebug_newline _⟩, by decide +kernel⟩, message_newline _⟩

/-- The first eight characters, by the kind of error. -/
def kindHead : ValidationError → List Char
  | .systemSectorNotAllocated _ => lit "System s"
  | .sectorMisallocated _ => lit "Sector m"
  | .sectorMisoccupied _ _ => lit "Sector ("
  | .sectorOveroccupied _ _ _ => lit "Sector ("
  | .fileScanError _ _ => lit "Error sc"

theorem take_lit {p q : List Char} (x : List Char) (h : p.take 8 = q) (hl : 8 ≤ p.length) :
    (p ++ x).take 8 = q := by
  rw [List.take_append_of_le_length hl, h]

theorem kindHead_eq (e : ValidationError) : e.text.take 8 = kindHead e := by
  cases e with
  | systemSectorNotAllocated l =>
    exact take_lit (q := lit "System s") _ (by decide +kernel) (by decide +kernel)
  | sectorMisallocated l =>
    exact take_lit (q := lit "Sector m") _ (by decide +kernel) (by decide +kernel)
  | sectorMisoccupied l n =>
    unfold ValidationError.text Location.text kindHead
    simp only [List.append_assoc]
    rw [← List.append_assoc (lit "Sector ")]
    exact take_lit _ (by decide +kernel) (by decide +kernel)
  | sectorOveroccupied l a b =>
    unfold ValidationError.text Location.text kindHead
    simp only [List.append_assoc]
    rw [← List.append_assoc (lit "Sector ")]
    exact take_lit _ (by decide +kernel) (by decide +kernel)
  | fileScanError d n =>
    unfold ValidationError.text kindHead
    simp only [List.append_assoc]
    exact take_lit _ (by decide +kernel) (by decide +kernel)

theorem sys_ne : lit "System s" ≠ lit "Sector m" ∧ lit "System s" ≠ lit "Sector (" ∧
    lit "System s" ≠ lit "Error sc" ∧ lit "Sector m" ≠ lit "Sector (" ∧
    lit "Sector m" ≠ lit "Error sc" ∧ lit "Sector (" ≠ lit "Error sc" := by decide +kernel

theorem occ_ne (x y : List Char) : lit " misoccupied by file: " ++ x ≠
    lit " occupied by multiple files, including at least: " ++ y := by
  intro h
  have := congrArg (List.take 8) h
  rw [List.take_append_of_le_length (by decide +kernel),
    List.take_append_of_le_length (by decide +kernel)] at this
  revert this
  decide +kernel

theorem location_inj {l m : Location} (h : l.text = m.text) : l = m :=
  (locationText_inj (x := []) (y := []) (by rw [h])).1

theorem chars_eq (p : Petscii) : petsciiText p = chars p := petsciiText_eq p

/-- The kinds of errors are told apart by their first eight characters, and the two kinds
with a sector and names by what follows the sector. -/
theorem finding_of_text {e f : ValidationError} (h : e.text = f.text) : Finding.of e = Finding.of f := by
  have hk : kindHead e = kindHead f := by rw [← kindHead_eq, ← kindHead_eq, h]
  obtain ⟨n1, n2, n3, n4, n5, n6⟩ := sys_ne
  cases e with
  | systemSectorNotAllocated l =>
    cases f with
    | systemSectorNotAllocated m =>
      rw [location_inj (List.append_cancel_left h)]
    | sectorMisallocated m => exact absurd hk n1
    | sectorMisoccupied m n => exact absurd hk n2
    | sectorOveroccupied m n o => exact absurd hk n2
    | fileScanError d n => exact absurd hk n3
  | sectorMisallocated l =>
    cases f with
    | systemSectorNotAllocated m => exact absurd hk.symm n1
    | sectorMisallocated m => rw [location_inj (List.append_cancel_left h)]
    | sectorMisoccupied m n => exact absurd hk n4
    | sectorOveroccupied m n o => exact absurd hk n4
    | fileScanError d n => exact absurd hk n5
  | sectorMisoccupied l n =>
    cases f with
    | systemSectorNotAllocated m => exact absurd hk.symm n2
    | sectorMisallocated m => exact absurd hk.symm n4
    | sectorMisoccupied m n' =>
      unfold ValidationError.text at h
      simp only [List.append_assoc] at h
      obtain ⟨h1, h2⟩ := locationText_inj (List.append_cancel_left h)
      have h2 := List.append_cancel_left h2
      have h3 := (petsciiDebug_inj (p := n) (q := n') (x := []) (y := []) (by rw [h2])).1
      rw [chars_eq, chars_eq] at h3
      simp only [Finding.of, h1, h3]
    | sectorOveroccupied m n' o =>
      unfold ValidationError.text at h
      simp only [List.append_assoc] at h
      obtain ⟨h1, h2⟩ := locationText_inj (List.append_cancel_left h)
      exact absurd h2 (occ_ne _ _)
    | fileScanError d n' => exact absurd hk n6
  | sectorOveroccupied l n o =>
    cases f with
    | systemSectorNotAllocated m => exact absurd hk.symm n2
    | sectorMisallocated m => exact absurd hk.symm n4
    | sectorMisoccupied m n' =>
      unfold ValidationError.text at h
      simp only [List.append_assoc] at h
      obtain ⟨h1, h2⟩ := locationText_inj (List.append_cancel_left h)
      exact absurd h2.symm (occ_ne _ _)
    | sectorOveroccupied m n' o' =>
      unfold ValidationError.text at h
      simp only [List.append_assoc] at h
      obtain ⟨h1, h2⟩ := locationText_inj (List.append_cancel_left h)
      have h2 := List.append_cancel_left h2
      obtain ⟨h3, h4⟩ := petsciiDebug_inj h2
      have h4 := List.append_cancel_left h4
      have h5 := (petsciiDebug_inj (p := o) (q := o') (x := []) (y := []) (by rw [h4])).1
      rw [chars_eq, chars_eq] at h3 h5
      simp only [Finding.of, h1, h3, h5]
    | fileScanError d n' => exact absurd hk n6
  | fileScanError d n =>
    cases f with
    | systemSectorNotAllocated m => exact absurd hk.symm n3
    | sectorMisallocated m => exact absurd hk.symm n5
    | sectorMisoccupied m n' => exact absurd hk.symm n6
    | sectorOveroccupied m n' o => exact absurd hk.symm n6
    | fileScanError d' n' =>
      unfold ValidationError.text at h
      simp only [List.append_assoc] at h
      obtain ⟨h1, h2⟩ := petsciiDebug_inj (List.append_cancel_left h)
      have h2 := message_inj (List.append_cancel_left h2)
      rw [chars_eq, chars_eq] at h1
      simp only [Finding.of, h1, h2]

theorem text_of_finding {e f : ValidationError} (h : Finding.of e = Finding.of f) : e.text = f.text := by
  have hd : ∀ {p q : Petscii}, chars p = chars q → petsciiDebug p = petsciiDebug q := by
    intro p q h
    rw [petsciiDebug_eq, petsciiDebug_eq, chars_eq, chars_eq, h]
  cases e <;> cases f <;> simp only [Finding.of, reduceCtorEq, Finding.system.injEq,
    Finding.misallocated.injEq, Finding.misoccupied.injEq, Finding.overoccupied.injEq,
    Finding.unreadable.injEq] at h <;> simp only [ValidationError.text]
  · rw [h]
  · rw [h]
  · rw [h.1, hd h.2]
  · rw [h.1, hd h.2.1, hd h.2.2]
  · rw [h.1, hd h.2]

/-! ## The BAM of an opened image -/

/-- An opened image is unformatted, or has a BAM with an entry for every track. -/
theorem open_bam {ext : Option (List Char)} {w : Bool} {bytes : List Byte} {disk : Disk}
    (h : Disk.openPath ext w bytes = .ok disk) :
    (disk.bam = none ∧ disk.header = none ∧ disk.format = none) ∨
    ∃ ty b, disk.native = ty.format ∧ bamOf disk = some b ∧ BamOf b ty := by
  obtain ⟨ty, -, -, hn⟩ := openPath_inv h
  unfold Disk.new Disk.fromImage at hn
  cases hf : Geometry.findBySize (pathImage w bytes).len ty.geometries with
  | none => rw [hf] at hn; cases hn
  | some g =>
    rw [hf] at hn
    simp only at hn
    obtain ⟨hg, hs⟩ := findBySize_some hf
    have hw : Wf (Device.mk (pathImage w bytes) g []) ⟨ty, g.tracks, g.withErrorTable⟩ :=
      wf_of_size hg rfl hs.symm
    rcases parse_cases ty.format.header (Device.blk (Device.mk (pathImage w bytes) g [])
        ⟨ty, g.tracks, g.withErrorTable⟩ ty.format.header.location) with ⟨hd, hp⟩ | hp
    · rw [initialize_of_header (disk := ⟨ty.format, ⟨pathImage w bytes, g, []⟩, none, none, none, []⟩)
        hw rfl hp] at hn
      cases hn
      refine .inr ⟨ty, _, rfl, rfl, ?_⟩
      refine ⟨?_, length_storedEntries _ _, rfl⟩
      simp only [formatFor]
      cases hd.geos.isSome <;> rfl
    · rw [initialize_of_no_header (disk := ⟨ty.format, ⟨pathImage w bytes, g, []⟩, none, none, none, []⟩)
        hw rfl hp] at hn
      cases hn
      exact .inl ⟨rfl, rfl, rfl⟩

theorem mapText_eq : ∀ (n : Nat) (m : BitVec 64),
    mapText n m = (List.range n).map fun s => if m.getLsbD s then '.' else 'x'
  | 0, _ => rfl
  | n + 1, m => by
    rw [mapText, mapText_eq n, List.range_succ_eq_map, List.map_cons, List.map_map]
    have h0 : (m &&& 1#64 = 1#64) ↔ m.getLsbD 0 = true := by
      constructor
      · intro h
        have := congrArg (fun x => x.getLsbD 0) h
        simpa using this
      · intro h
        apply BitVec.eq_of_getLsbD_eq
        intro i hi
        by_cases h1 : i = 0
        · subst h1; simp [h]
        · simp [h1]
    refine congr (congrArg _ ?_) ?_
    · by_cases h : m.getLsbD 0 = true
      · rw [if_pos h, if_pos (h0.mpr h)]
      · rw [if_neg h, if_neg (fun hh => h (h0.mp hh))]
    · apply List.map_congr_left
      intro s _
      simp only [Function.comp, BitVec.getLsbD_ushiftRight]
      rw [Nat.add_comm]

end Cbm
